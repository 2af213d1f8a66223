import Mathlib.Data.List.Induction
import Verif.Lemmas.Bases2

/-! # Writing any number in a base -/

namespace MC
open Number

/-- One digit of a number with any denominator. -/
theorem digit_cut {p : ℕ} (hp : 1 ≤ p) {b k E : ℕ} (hb : 2 ≤ b) (hE1 : 1 ≤ E) {v : Number} (hv : v.Canonical) {M : ℕ}
    (hM : v.val = (M:ℚ) / ((E * b ^ k : ℕ):ℚ)) {j : ℤ} (hj : -(k:ℤ) ≤ j)
    (h5 : 5 * (M * (E * b ^ k)) < 10 ^ p) (hD : E * b ^ k < 10 ^ p)
    (hjk : 0 ≤ j → E * b ^ (j + k).toNat < 10 ^ p) :
    ∃ q r m, Number.div p v (if 0 ≤ j then ⟨(b:ℤ) ^ j.natAbs, 1⟩ else ⟨1, (b:ℤ) ^ j.natAbs⟩) = .ok q ∧
      toInt p q = ((M / (E * b ^ (j + k).toNat) : ℕ) : ℤ) ∧
      Number.mul p ⟨((M / (E * b ^ (j + k).toNat) : ℕ) : ℤ), 1⟩
        (if 0 ≤ j then ⟨(b:ℤ) ^ j.natAbs, 1⟩ else ⟨1, (b:ℤ) ^ j.natAbs⟩) = .ok m ∧
      Number.sub p v m = .ok r ∧ r.Canonical ∧
      r.val = ((M % (E * b ^ (j + k).toNat) : ℕ):ℚ) / ((E * b ^ k : ℕ):ℚ) := by
  have hcan := canonical_pow_base hb (j := j)
  have hval := val_pow_base (b := b) (j := j)
  have hB1 : 1 ≤ b ^ k := Nat.one_le_pow _ _ (by omega)
  have hBG : b ^ k ≤ E * b ^ k := Nat.le_mul_of_pos_left _ hE1
  have hz := zpow_grid hb hj
  set B := b ^ (j + k).toNat with hB
  have hB1' : 1 ≤ B := Nat.one_le_pow _ _ (by omega)
  set G := E * b ^ k with hG
  have hG1 : 1 ≤ G := le_trans hB1 hBG
  set W := E * B with hW
  have hW1 : 1 ≤ W := Nat.mul_pos hE1 hB1'
  set bp : Number := (if 0 ≤ j then ⟨(b:ℤ) ^ j.natAbs, 1⟩ else ⟨1, (b:ℤ) ^ j.natAbs⟩) with hbp
  have hDz : (0:ℤ) < (G:ℤ) := by exact_mod_cast hG1
  have hM' : v.val = ((M:ℤ):ℚ) / ((G:ℤ):ℚ) := by rw [hM]; push_cast; rfl
  have hnum := num_le_of_val hv hDz.ne' hM'
  rw [Nat.abs_cast] at hnum
  have hden := Int.le_of_dvd hDz (grid_den hv hM')
  have hMle : M ≤ M * G := Nat.le_mul_of_pos_right _ hG1
  have hbden : bp.den ≤ (G:ℤ) := by
    refine le_trans ?_ (show ((b ^ k : ℕ):ℤ) ≤ (G:ℤ) by exact_mod_cast hBG)
    rw [hbp]; split
    · show (1:ℤ) ≤ _
      exact_mod_cast hB1
    · push_cast; exact pow_le_pow_right₀ (by omega) (by omega)
  have d1 : |v.num * bp.den| < 10 ^ p := by
    rw [abs_mul, abs_of_pos hcan.1]
    calc |v.num| * bp.den ≤ (M:ℤ) * (G:ℤ) := mul_le_mul hnum hbden hcan.1.le (by positivity)
      _ < 10 ^ p := by
        have : M * G < 10 ^ p := by omega
        exact_mod_cast this
  have hbpos : 0 < bp.num := by
    rw [hbp]; split
    · show (0:ℤ) < (b:ℤ) ^ j.natAbs
      positivity
    · norm_num
  have d2 : |v.den * bp.num| < 10 ^ p := by
    rw [abs_of_pos (mul_pos hv.1 hbpos)]
    rw [hbp]; split
    · rename_i h0
      calc v.den * (b:ℤ) ^ j.natAbs ≤ (G:ℤ) * (b:ℤ) ^ j.natAbs :=
            mul_le_mul_of_nonneg_right hden (by positivity)
        _ = ((E * b ^ (j + k).toNat : ℕ):ℤ) := by
            rw [hG]; push_cast; rw [mul_assoc, ← pow_add]; congr 2; omega
        _ < 10 ^ p := by exact_mod_cast hjk h0
    · rw [mul_one]; refine lt_of_le_of_lt hden ?_
      exact_mod_cast hD
  obtain ⟨q, hq, qc, qv⟩ := div_exact hv.1 hcan.1 hbpos.ne' d1 d2
  have hbkq : (0:ℚ) < (b:ℚ) ^ k := by
    have : (0:ℚ) < ((b ^ k : ℕ):ℚ) := by exact_mod_cast hB1
    push_cast at this; exact this
  have hEq : (0:ℚ) < (E:ℚ) := by exact_mod_cast hE1
  have hBq : (0:ℚ) < (B:ℚ) := by exact_mod_cast hB1'
  have hBc : ((b:ℚ) ^ (j + k).toNat) = (B:ℚ) := by rw [hB]; push_cast; rfl
  rw [hBc] at hz
  have qv' : q.val = ((M:ℤ):ℚ) / ((W:ℤ):ℚ) := by
    rw [qv, hM, hval, hz, hG, hW]
    push_cast
    field_simp
  have qint : toInt p q = ((M / W : ℕ):ℤ) := by
    unfold toInt
    have hn := num_le_of_val qc (by omega : ((W:ℤ)) ≠ 0) qv'
    rw [Nat.abs_cast] at hn
    rw [trunc_toDecimal hp qc.1 (by
      have : 5 * M < 10 ^ p := by omega
      have : 5 * (M:ℤ) < 10 ^ p := by exact_mod_cast this
      linarith)]
    unfold truncQ
    rw [if_pos (by rw [qv']; positivity), qv']
    rw [show ((M:ℤ):ℚ) / ((W:ℤ):ℚ) = ((M:ℤ):ℚ) / ((W:ℕ):ℚ) by push_cast; rfl, Rat.floor_intCast_div_natCast]
    push_cast; rfl
  have hcW : M / W * W ≤ M := Nat.div_mul_le_self M W
  have hcB : M / W * B ≤ M / W * W := Nat.mul_le_mul_left _ (Nat.le_mul_of_pos_left _ hE1)
  obtain ⟨m, hm, mc, mv⟩ := mul_digit (p := p) hb (c := M / W) hj (by rw [← hB]; omega) (by omega)
  rw [← hB] at mv
  have hgrid : ∀ c : ℕ, ((c * B : ℕ):ℚ) / ((b ^ k : ℕ):ℚ) = (((c * W : ℕ):ℤ):ℚ) / ((G:ℤ):ℚ) := by
    intro c
    rw [hG, hW]
    push_cast
    field_simp
  obtain ⟨r, hr, rc, rv⟩ := sub_grid (p := p) hv mc (A := (M:ℤ)) (B := ((M / W * W : ℕ):ℤ)) hDz hM'
    (by rw [mv, hgrid])
    (by rw [Nat.abs_cast]
        have : M * G < 10 ^ p := by omega
        exact_mod_cast this)
    (by rw [Nat.abs_cast]
        have : M / W * W * G < 10 ^ p := lt_of_le_of_lt (Nat.mul_le_mul_right _ hcW) (by omega)
        exact_mod_cast this)
    (by exact_mod_cast hD)
    (by rw [Nat.abs_cast, Nat.abs_cast]
        have : M + M / W * W < 10 ^ p := by omega
        exact_mod_cast this)
  refine ⟨q, r, m, hq, qint, hm, hr, rc, ?_⟩
  rw [rv]
  congr 1
  · have : (M:ℤ) - ((M / W * W : ℕ):ℤ) = ((M % W : ℕ):ℤ) := by
      have := Nat.div_add_mod' M W
      omega
    rw [this]; push_cast; rfl

/-- One iteration of the digit loop. -/
theorem digitLoop_cut {p : ℕ} (hp : 1 ≤ p) (powF) {b k E : ℕ} (hb : 2 ≤ b) (hb36 : b ≤ 36) (hE1 : 1 ≤ E) {v : Number}
    (hv : v.Canonical) {M : ℕ}
    (hM : v.val = (M:ℚ) / ((E * b ^ k : ℕ):ℚ)) {j : ℤ} (hj : -(k:ℤ) ≤ j)
    (h5 : 5 * (M * (E * b ^ k)) < 10 ^ p) (hD : E * b ^ k < 10 ^ p) (hjp : b ^ j.natAbs < 10 ^ p)
    (hjk : 0 ≤ j → E * b ^ (j + k).toNat < 10 ^ p) (hMlt : M < b * (E * b ^ (j + k).toNat))
    {prec fuel places : ℕ} {str : List Char} (hcond : 0 ≤ j ∨ (0 < toDecimal p v ∧ places < prec)) :
    ∃ r, digitLoop p powF prec (b:ℤ) (fuel + 1) j places v str =
        digitLoop p powF prec (b:ℤ) fuel (j - 1) (if j < 0 then places + 1 else places) r
          ((if j = -1 then str ++ ['.'] else str) ++ [chr (M / (E * b ^ (j + k).toNat))]) ∧
      M / (E * b ^ (j + k).toNat) < b ∧ r.Canonical ∧
      r.val = ((M % (E * b ^ (j + k).toNat) : ℕ):ℚ) / ((E * b ^ k : ℕ):ℚ) := by
  obtain ⟨q, r, m, hq, qi, hm, hr, rc, rv⟩ := digit_cut hp hb hE1 hv hM hj h5 hD hjk
  have hc : M / (E * b ^ (j + k).toNat) < b := by
    rw [Nat.div_lt_iff_lt_mul (by positivity)]
    exact hMlt
  refine ⟨r, ?_, hc, rc, rv⟩
  rw [digitLoop, if_pos hcond]
  simp only [ofInt_eq hp, ok_bind]
  rw [pow_base powF hb hjp]
  simp only [ok_bind]
  rw [hq]
  simp only [ok_bind]
  rw [qi, hm]
  simp only [ok_bind]
  rw [hr]
  simp only [ok_bind]
  rw [digitAt_nat (by omega)]

/-- The whole part. -/
theorem digitLoop_whole {p : ℕ} (hp : 1 ≤ p) (powF) {b E : ℕ} (hb : 2 ≤ b) (hb36 : b ≤ 36) (hE1 : 1 ≤ E)
    (hD : E < 10 ^ p) (prec : ℕ) :
    ∀ (t : ℕ) (v : Number) (M : ℕ) (fuel : ℕ) (str : List Char), v.Canonical →
      v.val = (M:ℚ) / (E:ℚ) → 5 * (M * E) < 10 ^ p → E * b ^ t < 10 ^ p →
      M < b * (E * b ^ t) →
      ∃ r ds, digitLoop p powF prec (b:ℤ) (fuel + (t + 1)) (t:ℤ) 0 v str =
          digitLoop p powF prec (b:ℤ) fuel (-1) 0 r (str ++ ds.map chr) ∧ ds.length = t + 1 ∧
        (∀ d ∈ ds, d < b) ∧ positional b ds = M / E ∧ r.Canonical ∧
        r.val = ((M % E : ℕ):ℚ) / (E:ℚ) := by
  intro t
  induction t with
  | zero =>
    intro v M fuel str hv hM h5 hE hlt
    obtain ⟨r, h1, h2, h3, h4⟩ := digitLoop_cut hp powF (k := 0) hb hb36 hE1 hv (by simpa using hM) (j := 0) (by simp)
      (by simpa using h5) (by simpa using hD)
      (by simpa using lt_of_le_of_lt hE1 hD) (fun _ => by simpa using hD)
      (by simpa using hlt) (prec := prec) (fuel := fuel) (places := 0) (str := str) (Or.inl le_rfl)
    simp only [Nat.cast_zero, add_zero, Int.toNat_zero, pow_zero, mul_one] at h1 h2 h4
    refine ⟨r, [M / E], ?_, rfl, by simpa using h2, ?_, h3, h4⟩
    · simpa using h1
    · simp [positional]
  | succ t ih =>
    intro v M fuel str hv hM h5 hE hlt
    have e0 : (((t + 1 : ℕ):ℤ) + ((0:ℕ):ℤ)).toNat = t + 1 := by omega
    have hpw : b ^ (t + 1) < 10 ^ p := lt_of_le_of_lt (Nat.le_mul_of_pos_left _ hE1) hE
    obtain ⟨r, h1, h2, h3, h4⟩ := digitLoop_cut hp powF (k := 0) hb hb36 hE1 hv (by simpa using hM) (j := ((t + 1 : ℕ):ℤ)) (by omega)
      (by simpa using h5) (by simpa using hD)
      (by rw [Int.natAbs_natCast]; exact hpw) (fun _ => by rw [e0]; exact hE)
      (by rw [e0]; exact hlt) (prec := prec) (fuel := fuel + (t + 1)) (places := 0) (str := str)
      (Or.inl (by omega))
    rw [e0] at h1 h2 h4
    simp only [pow_zero, mul_one] at h4
    have hMle : M % (E * b ^ (t + 1)) ≤ M := Nat.mod_le _ _
    have hpt : E * b ^ (t + 1) = b * (E * b ^ t) := by rw [pow_succ]; ring
    obtain ⟨r', ds, g1, g2, g3, g4, g5, g6⟩ := ih r (M % (E * b ^ (t + 1))) fuel
      (str ++ [chr (M / (E * b ^ (t + 1)))]) h3 h4
      (lt_of_le_of_lt (Nat.mul_le_mul_left _ (Nat.mul_le_mul_right _ hMle)) h5)
      (lt_of_le_of_lt (Nat.mul_le_mul_left _ (Nat.pow_le_pow_right (by omega) (by omega))) hE)
      (by rw [← hpt]; exact Nat.mod_lt _ (by positivity))
    refine ⟨r', M / (E * b ^ (t + 1)) :: ds, ?_, by simp [g2], ?_, ?_, g5, ?_⟩
    · have ej : ((t + 1 : ℕ):ℤ) - 1 = (t:ℤ) := by omega
      rw [ej, if_neg (by omega), if_neg (by omega)] at h1
      rw [show fuel + (t + 1 + 1) = fuel + (t + 1) + 1 by ring, h1, g1]
      simp
    · intro d hd
      rcases List.mem_cons.mp hd with rfl | hd
      · exact h2
      · exact g3 d hd
    · rw [positional_cons, g4, g2, Nat.mod_mul_right_div_self, ← Nat.div_div_eq_div_mul]
      exact Nat.div_add_mod' _ _
    · rw [g6, Nat.mod_mod_of_dvd _ (Dvd.intro _ rfl)]

theorem toDecimal_zero_of {p : ℕ} {v : Number} (h : v.val = 0) : toDecimal p v = 0 := by
  unfold toDecimal; unfold val at h; rw [h, rnd_zero]

/-- The places, from the `i`-th on: long division. -/
theorem digitLoop_places {p : ℕ} (hp : 1 ≤ p) (powF) {b E : ℕ} (hb : 2 ≤ b) (hb36 : b ≤ 36) (hE1 : 1 ≤ E) (prec : ℕ)
    (hD : 5 * (E * b * (E * b ^ prec)) < 10 ^ p) :
    ∀ (n : ℕ) (i : ℕ) (v : Number) (R : ℕ) (fuel : ℕ) (str : List Char), i + n = prec → v.Canonical →
      v.val = (R:ℚ) / ((E * b ^ i : ℕ):ℚ) → R < E → n < fuel →
      ∃ ds, digitLoop p powF prec (b:ℤ) fuel (-1 - (i:ℤ)) i v str =
          .ok (str ++ (if i = 0 ∧ R ≠ 0 ∧ n ≠ 0 then ['.'] else []) ++ ds.map chr) ∧
        ds.length ≤ n ∧ (∀ d ∈ ds, d < b) ∧ positional b ds * b ^ (n - ds.length) = R * b ^ n / E ∧ (R = 0 → ds = []) := by
  intro n
  induction n with
  | zero =>
    intro i v R fuel str hik hv hM hlt hf
    obtain ⟨f, rfl⟩ : ∃ f, fuel = f + 1 := ⟨fuel - 1, by omega⟩
    refine ⟨[], ?_, by simp, by simp, ?_, by simp⟩
    · rw [digitLoop, if_neg (by rintro (h | ⟨_, h⟩) <;> omega)]
      simp
    · rw [pow_zero, mul_one, Nat.div_eq_of_lt hlt]; simp [positional]
  | succ n ih =>
    intro i v R fuel str hik hv hM hlt hf
    obtain ⟨f, rfl⟩ : ∃ f, fuel = f + 1 := ⟨fuel - 1, by omega⟩
    by_cases hR0 : R = 0
    · subst hR0
      refine ⟨[], ?_, by simp, by simp, by simp [positional], by simp⟩
      have h0 : toDecimal p v = 0 := toDecimal_zero_of (by rw [hM]; simp)
      rw [digitLoop, if_neg (by rw [h0]; rintro (h | ⟨h, _⟩) <;> [omega; exact lt_irrefl _ h])]
      simp
    · have hEq : (0:ℚ) < ((E * b ^ i : ℕ):ℚ) := by
        have : 0 < E * b ^ i := by positivity
        exact_mod_cast this
      have hpos : 0 < toDecimal p v := by
        unfold toDecimal
        apply rnd_pos hp
        have : v.val = (v.num:ℚ) / v.den := rfl
        rw [← this, hM]
        have : (0:ℚ) < (R:ℚ) := by exact_mod_cast Nat.pos_of_ne_zero hR0
        positivity
      have ej : ((-1 - (i:ℤ)) + ((i + 1 : ℕ):ℤ)).toNat = 0 := by omega
      have hpw : b ^ (i + 1) ≤ b ^ prec := Nat.pow_le_pow_right (by omega) (by omega)
      have hG : E * b ^ (i + 1) ≤ E * b ^ prec := Nat.mul_le_mul_left _ hpw
      have hRb : R * b ≤ E * b := Nat.mul_le_mul_right _ hlt.le
      have hEb : 1 ≤ E * b := Nat.mul_pos hE1 (by omega)
      have hGG : E * b ^ prec ≤ E * b * (E * b ^ prec) := Nat.le_mul_of_pos_left _ hEb
      have hEp : b ^ prec ≤ E * b ^ prec := Nat.le_mul_of_pos_left _ hE1
      have hbq : (b:ℚ) ≠ 0 := by
        have : (0:ℚ) < b := by exact_mod_cast (by omega : 0 < b)
        exact this.ne'
      obtain ⟨r, h1, h2, h3, h4⟩ := digitLoop_cut hp powF (k := i + 1) (M := R * b) hb hb36 hE1 hv
        (by
          rw [hM]
          push_cast
          rw [pow_succ]
          have hbi : (b:ℚ) ^ i ≠ 0 := pow_ne_zero _ hbq
          have hE0 : (E:ℚ) ≠ 0 := by exact_mod_cast (by omega : E ≠ 0)
          field_simp)
        (j := -1 - (i:ℤ)) (by push_cast; omega)
        (lt_of_le_of_lt (Nat.mul_le_mul_left _ (Nat.mul_le_mul hRb hG)) hD)
        (by omega)
        (by
          rw [show (-1 - (i:ℤ)).natAbs = i + 1 by omega]
          omega)
        (fun h => by omega)
        (by
          rw [ej, pow_zero, mul_one, mul_comm]
          exact Nat.mul_lt_mul_of_pos_left hlt (by omega)) (prec := prec) (fuel := f) (places := i) (str := str)
        (Or.inr ⟨hpos, by omega⟩)
      rw [ej] at h1 h2 h4
      simp only [pow_zero, mul_one] at h1 h2 h4
      obtain ⟨ds, g1, g2, g3, g4, g5⟩ := ih (i + 1) r (R * b % E) f
        ((if (-1 - (i:ℤ)) = -1 then str ++ ['.'] else str) ++ [chr (R * b / E)]) (by omega) h3 h4
        (Nat.mod_lt _ (by omega)) (by omega)
      refine ⟨R * b / E :: ds, ?_, by simp [g2], ?_, ?_, by simp [hR0]⟩
      · have e2 : -1 - (i:ℤ) - 1 = -1 - ((i + 1 : ℕ):ℤ) := by push_cast; ring
        rw [h1, if_pos (by omega : -1 - (i:ℤ) < 0), e2, g1]
        have e3 : (-1 - (i:ℤ) = -1) ↔ i = 0 := by omega
        by_cases hi : i = 0
        · rw [if_pos (e3.mpr hi)]; simp [hi, hR0]
        · rw [if_neg (fun h => hi (e3.mp h))]; simp [hi]
      · intro d hd
        rcases List.mem_cons.mp hd with rfl | hd
        · exact h2
        · exact g3 d hd
      · rw [positional_cons, List.length_cons, Nat.add_mul, Nat.add_sub_add_right, g4, mul_assoc, ← pow_add,
          show ds.length + (n - ds.length) = n by omega]
        have key := Nat.div_add_mod' (R * b) E
        have e : R * b ^ (n + 1) = R * b % E * b ^ n + R * b / E * b ^ n * E := by
          calc R * b ^ (n + 1) = (R * b) * b ^ n := by rw [pow_succ]; ring
            _ = (R * b / E * E + R * b % E) * b ^ n := by rw [key]
            _ = _ := by ring
        rw [e, Nat.add_mul_div_right _ _ (by omega)]
        ring

/-- The digits without the zeros at the end. -/
def noZeros (ds : List ℕ) : List ℕ := (ds.reverse.dropWhile (· == 0)).reverse

theorem noZeros_snoc (ds : List ℕ) (d : ℕ) : noZeros (ds ++ [d]) = if d = 0 then noZeros ds else ds ++ [d] := by
  unfold noZeros
  by_cases h : d = 0 <;> simp [h]

theorem noZeros_last (ds : List ℕ) : (noZeros ds).getLast? ≠ some 0 := by
  unfold noZeros
  rw [List.getLast?_reverse]
  intro h
  have := List.head?_dropWhile_not (fun x : ℕ => x == 0) ds.reverse
  rw [h] at this
  simp at this

theorem noZeros_facts (b : ℕ) (ds : List ℕ) : (noZeros ds).length ≤ ds.length ∧ (∀ d ∈ noZeros ds, d ∈ ds) ∧
    positional b (noZeros ds) * b ^ (ds.length - (noZeros ds).length) = positional b ds := by
  induction ds using List.reverseRecOn with
  | nil => simp [noZeros, positional]
  | append_singleton ds d ih =>
    obtain ⟨h1, h2, h3⟩ := ih
    rw [noZeros_snoc]
    split
    · rename_i h0
      subst h0
      refine ⟨by simp; omega, fun d hd => by simp [h2 d hd], ?_⟩
      rw [positional_append, ← h3, List.length_append, List.length_singleton,
        show ds.length + 1 - (noZeros ds).length = ds.length - (noZeros ds).length + 1 by omega, pow_succ]
      simp [positional, mul_assoc]
    · exact ⟨le_rfl, fun d hd => hd, by simp⟩

theorem rstrip_point (s : List Char) {ds : List ℕ} (h : ∀ d ∈ ds, d < 36) :
    rstrip0 (s ++ '.' :: ds.map chr) = s ++ '.' :: (noZeros ds).map chr := by
  induction ds using List.reverseRecOn with
  | nil => simp [rstrip0, noZeros]
  | append_singleton ds d ih =>
    have hd := (chr_facts (h d (by simp))).2.2.2.1
    rw [noZeros_snoc]
    split
    · rename_i h0
      rw [← ih (fun d hd => h d (by simp [hd]))]
      subst h0
      have : chr 0 = '0' := hd.2 rfl
      simp [rstrip0, this]
    · rename_i h0
      have hne : chr d ≠ '0' := fun e => h0 (hd.1 e)
      have := rstrip0_snoc (s := s ++ '.' :: ds.map chr) hne
      simpa using this

/-- What is written for any number that is not zero. -/
theorem decToBase_cut {p : ℕ} (hp : 1 ≤ p) (powF) {b prec : ℕ} (hb : 2 ≤ b) (hb36 : b ≤ 36) (hb10 : b ≠ 10)
    {a : Number} (ha : a.Canonical) {N D : ℕ} (hN : 0 < N) (hD1 : 1 ≤ D) {neg : Bool}
    (hval : a.val = (if neg then -1 else 1) * ((N:ℚ) / (D:ℚ)))
    (h5 : 5 * (b * N * D) < 10 ^ p) (hD : 5 * (D * b * (D * b ^ prec)) < 10 ^ p) {fuel : ℕ} (hf : Nat.log b (N / D) < fuel) :
    ∃ ip fp, decToBase p powF prec fuel a (b:ℤ) = .ok ((if neg then ['-'] else []) ++ ip.map chr ++
        (if N % D = 0 ∨ prec = 0 then [] else '.' :: fp.map chr)) ∧
      (∀ d ∈ ip, d < b) ∧ (∀ d ∈ fp, d < b) ∧ ip.length = Nat.log b (N / D) + 1 ∧
      positional b ip = N / D ∧ fp.length ≤ prec ∧ positional b fp * b ^ (prec - fp.length) = N % D * b ^ prec / D ∧
      fp.getLast? ≠ some 0 := by
  have hDq : (0:ℚ) < (D:ℚ) := by exact_mod_cast hD1
  have hNq : (0:ℚ) < (N:ℚ) := by exact_mod_cast hN
  have hq : (0:ℚ) < (N:ℚ) / (D:ℚ) := div_pos hNq hDq
  have hbN : b * N ≤ b * N * D := Nat.le_mul_of_pos_right _ hD1
  have hNb : N * D ≤ b * N * D := Nat.mul_le_mul_right _ (Nat.le_mul_of_pos_left _ (by omega))
  have hDN : D ≤ N * D := Nat.le_mul_of_pos_left _ hN
  have hNN : N ≤ N * D := Nat.le_mul_of_pos_right _ hD1
  have hsign : (toDecimal p a < 0 ↔ neg = true) ∧ toDecimal p a ≠ 0 := by
    have e : a.val = (a.num:ℚ) / a.den := rfl
    unfold toDecimal
    rw [← e, hval]
    cases neg with
    | false =>
      have := rnd_pos hp hq
      simp only [Bool.false_eq_true, if_false, one_mul, iff_false]
      exact ⟨by linarith, by linarith⟩
    | true =>
      have := rnd_pos hp hq
      simp only [if_true, iff_true]
      rw [neg_one_mul, rnd_neg]
      exact ⟨by linarith, by linarith⟩
  have hnum : |a.num| ≤ (N:ℤ) := by
    have := num_le_of_val ha (n := (if neg then -1 else 1) * (N:ℤ)) (d := (D:ℤ)) (by omega)
      (by rw [hval]; cases neg <;> simp [neg_div])
    refine this.trans (le_of_eq ?_)
    cases neg <;> simp
  set v := Number.abs p a with hvdef
  have hv : v = ⟨|a.num|, a.den⟩ := by
    rw [hvdef]; unfold Number.abs
    rw [show |(a.num:ℚ)| = ((|a.num| : ℤ):ℚ) by push_cast; rfl, rnd_int, rhu_intCast]
    rw [abs_abs]; refine lt_of_le_of_lt hnum ?_
    have : N < 10 ^ p := by omega
    exact_mod_cast this
  have hvc : v.Canonical := by
    rw [hv]; refine ⟨ha.1, ?_⟩
    have := ha.2
    show Int.gcd |a.num| a.den = 1
    rw [Int.gcd_eq_natAbs_gcd_natAbs] at *
    rwa [Int.natAbs_abs]
  have hvv : v.val = (N:ℚ) / (D:ℚ) := by
    have e : a.val = (a.num:ℚ) / a.den := rfl
    have : v.val = |a.val| := by
      rw [hv, e, abs_div]; unfold val
      rw [abs_of_pos ha.den_pos]; push_cast; rfl
    rw [this, hval, abs_mul, abs_of_pos hq]; cases neg <;> simp
  have htop := topPower_exact hp hb hvc hN hD1 hvv (by omega) (Nat.log b (N / D)) 0 fuel (by omega) hf
  set t := Nat.log b (N / D) with ht
  have hlt : N < b * (D * b ^ t) := by
    have := Nat.lt_pow_succ_log_self (b := b) (by omega) (N / D)
    rw [← ht, Nat.div_lt_iff_lt_mul hD1, Nat.succ_eq_add_one, pow_succ] at this
    calc N < b ^ t * b * D := this
      _ = _ := by ring
  have htk : D * b ^ t ≤ N * D := by
    rw [mul_comm]; apply Nat.mul_le_mul_right
    rcases Nat.eq_zero_or_pos (N / D) with h0 | h0
    · have : t = 0 := by rw [ht, h0]; simp
      rw [this]; simp; omega
    · calc b ^ t ≤ N / D := Nat.pow_log_le_self b h0.ne'
        _ ≤ N := Nat.div_le_self _ _
  obtain ⟨r, ip, i1, i2, i3, i4, i5, i6⟩ := digitLoop_whole hp powF hb hb36 hD1 (by omega) prec t v N
    (prec + 1) [] hvc hvv (by omega) (by omega) hlt
  obtain ⟨fp, f1, f2, f3, f4, f5⟩ := digitLoop_places hp powF hb hb36 hD1 prec hD prec 0 r
    (N % D) (prec + 1) ([] ++ ip.map chr) (by omega) i5 (by simpa using i6)
    (Nat.mod_lt _ (by omega)) (by omega)
  obtain ⟨z1, z2, z3⟩ := noZeros_facts b fp
  refine ⟨ip, noZeros fp, ?_, i3, fun d hd => f3 d (z2 d hd), i2, i4, by omega, ?_, noZeros_last fp⟩
  · unfold decToBase
    rw [if_neg hsign.2, if_neg (by exact_mod_cast hb10), if_neg (by omega)]
    simp only
    rw [htop]
    simp only [ok_bind]
    rw [show t + prec + 2 = prec + 1 + (t + 1) by ring, i1]
    have e0 : (-1 - ((0:ℕ):ℤ)) = -1 := by norm_num
    rw [e0] at f1
    rw [f1]
    simp only [ok_bind]
    show Except.ok _ = _
    congr 1
    have hnd : ∀ c ∈ (if neg then ['-'] else []) ++ ip.map chr, c ≠ '.' := by
      intro c hc
      rcases List.mem_append.1 hc with h | h
      · cases neg <;> simp at h; rw [h]; decide
      · exact (map_chr_ne (fun d hd => lt_of_lt_of_le (i3 d hd) hb36) h).1
    by_cases hz : N % D = 0 ∨ prec = 0
    · have hfp : fp = [] := by
        rcases hz with h | h
        · exact f5 h
        · exact List.eq_nil_of_length_eq_zero (by omega)
      have hc : ¬ (True ∧ N % D ≠ 0 ∧ prec ≠ 0) := by tauto
      rw [if_pos hz, if_neg hc, hfp]
      simp only [List.map_nil, List.append_nil, List.nil_append]
      have hs : (if toDecimal p a < 0 then '-' :: ip.map chr else ip.map chr) = (if neg then ['-'] else []) ++ ip.map chr := by
        cases neg with
        | false => rw [if_neg (by simpa using hsign.1)]; simp
        | true => rw [if_pos (by simpa using hsign.1)]; simp
      rw [hs, if_neg (fun h => hnd _ h rfl)]
    · have hc : True ∧ N % D ≠ 0 ∧ prec ≠ 0 := by tauto
      rw [if_neg hz, if_pos hc]
      have hs : (if toDecimal p a < 0 then '-' :: ([] ++ ip.map chr ++ ['.'] ++ fp.map chr) else [] ++ ip.map chr ++ ['.'] ++ fp.map chr) =
          ((if neg then ['-'] else []) ++ ip.map chr) ++ '.' :: fp.map chr := by
        cases neg with
        | false => rw [if_neg (by simpa using hsign.1)]; simp
        | true => rw [if_pos (by simpa using hsign.1)]; simp
      rw [hs, if_pos (by simp), rstrip_point _ (fun d hd => lt_of_lt_of_le (f3 d hd) hb36)]
  · rw [show prec - (noZeros fp).length = (fp.length - (noZeros fp).length) + (prec - fp.length) by omega, pow_add, ← mul_assoc, z3, f4]

end MC
