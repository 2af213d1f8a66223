import Verif.Lemmas.Bases

namespace MC
open Number

/-! ### Writing -/

theorem digitAt_nat {c : ℕ} (h : c < 36) : digitAt (c:ℤ) = some (chr c) := by
  unfold digitAt
  rw [if_pos (by omega)]
  simpa using chr_spec h

/-- One digit: the quotient is exact and the remainder is on the grid again. -/
theorem digit_step {p : ℕ} (hp : 1 ≤ p) {b k : ℕ} (hb : 2 ≤ b) {v : Number} (hv : v.Canonical) {M : ℕ}
    (hM : v.val = (M:ℚ) / ((b ^ k : ℕ):ℚ)) {j : ℤ} (hj : -(k:ℤ) ≤ j)
    (h5 : 5 * (M * b ^ k) < 10 ^ p) (hD : b ^ k < 10 ^ p)
    (hjk : 0 ≤ j → b ^ (j + k).toNat < 10 ^ p) :
    ∃ q r m, Number.div p v (if 0 ≤ j then ⟨(b:ℤ) ^ j.natAbs, 1⟩ else ⟨1, (b:ℤ) ^ j.natAbs⟩) = .ok q ∧
      toInt p q = ((M / b ^ (j + k).toNat : ℕ) : ℤ) ∧
      Number.mul p ⟨((M / b ^ (j + k).toNat : ℕ) : ℤ), 1⟩
        (if 0 ≤ j then ⟨(b:ℤ) ^ j.natAbs, 1⟩ else ⟨1, (b:ℤ) ^ j.natAbs⟩) = .ok m ∧
      Number.sub p v m = .ok r ∧ r.Canonical ∧
      r.val = ((M % b ^ (j + k).toNat : ℕ):ℚ) / ((b ^ k : ℕ):ℚ) := by
  have hcan := canonical_pow_base hb (j := j)
  have hval := val_pow_base (b := b) (j := j)
  have hD1 : 1 ≤ b ^ k := Nat.one_le_pow _ _ (by omega)
  set E := b ^ (j + k).toNat with hE
  have hE1 : 1 ≤ E := Nat.one_le_pow _ _ (by omega)
  set bp : Number := (if 0 ≤ j then ⟨(b:ℤ) ^ j.natAbs, 1⟩ else ⟨1, (b:ℤ) ^ j.natAbs⟩) with hbp
  have hDz : (0:ℤ) < ((b ^ k : ℕ):ℤ) := by exact_mod_cast hD1
  have hM' : v.val = ((M:ℤ):ℚ) / (((b ^ k : ℕ):ℤ):ℚ) := by rw [hM]; push_cast; rfl
  have hnum := num_le_of_val hv hDz.ne' hM'
  rw [Nat.abs_cast] at hnum
  have hden := Int.le_of_dvd hDz (grid_den hv hM')
  have hMle : M ≤ M * b ^ k := Nat.le_mul_of_pos_right _ hD1
  -- the division
  have hbden : bp.den ≤ ((b ^ k : ℕ):ℤ) := by
    rw [hbp]; split
    · show (1:ℤ) ≤ _
      exact_mod_cast hD1
    · push_cast; exact pow_le_pow_right₀ (by omega) (by omega)
  have d1 : |v.num * bp.den| < 10 ^ p := by
    rw [abs_mul, abs_of_pos hcan.1]
    calc |v.num| * bp.den ≤ (M:ℤ) * ((b ^ k : ℕ):ℤ) := mul_le_mul hnum hbden hcan.1.le (by positivity)
      _ < 10 ^ p := by
        have : M * b ^ k < 10 ^ p := by omega
        exact_mod_cast this
  have hbpos : 0 < bp.num := by
    rw [hbp]; split
    · show (0:ℤ) < (b:ℤ) ^ j.natAbs
      positivity
    · norm_num
  have d2 : |v.den * bp.num| < 10 ^ p := by
    rw [abs_of_pos (mul_pos hv.1 hbpos)]
    rw [hbp]; split
    · rename_i h0
      calc v.den * (b:ℤ) ^ j.natAbs ≤ ((b ^ k : ℕ):ℤ) * (b:ℤ) ^ j.natAbs :=
            mul_le_mul_of_nonneg_right hden (by positivity)
        _ = ((b ^ (j + k).toNat : ℕ):ℤ) := by
            push_cast; rw [← pow_add]; congr 1; omega
        _ < 10 ^ p := by exact_mod_cast hjk h0
    · rw [mul_one]; refine lt_of_le_of_lt hden ?_
      exact_mod_cast hD
  obtain ⟨q, hq, qc, qv⟩ := div_exact hv.1 hcan.1 hbpos.ne' d1 d2
  have hDq : (0:ℚ) < ((b ^ k : ℕ):ℚ) := by exact_mod_cast hD1
  have hEq : (0:ℚ) < (E:ℚ) := by exact_mod_cast hE1
  have qv' : q.val = ((M:ℤ):ℚ) / ((E:ℤ):ℚ) := by
    rw [qv, hM, hval, zpow_grid hb hj]
    have : ((b:ℚ) ^ (j + k).toNat) = (E:ℚ) := by rw [hE]; push_cast; rfl
    rw [this]
    have : ((b:ℚ) ^ k) = ((b ^ k : ℕ):ℚ) := by push_cast; rfl
    rw [this]; push_cast at hDq ⊢; field_simp
  have qint : toInt p q = ((M / E : ℕ):ℤ) := by
    unfold toInt
    have hn := num_le_of_val qc (by omega : ((E:ℤ)) ≠ 0) qv'
    rw [Nat.abs_cast] at hn
    rw [trunc_toDecimal hp qc.1 (by
      have : 5 * M < 10 ^ p := by omega
      have : 5 * (M:ℤ) < 10 ^ p := by exact_mod_cast this
      linarith)]
    unfold truncQ
    rw [if_pos (by rw [qv']; positivity), qv']
    rw [show ((M:ℤ):ℚ) / ((E:ℤ):ℚ) = ((M:ℤ):ℚ) / ((E:ℕ):ℚ) by push_cast; rfl, Rat.floor_intCast_div_natCast]
    push_cast; rfl
  -- the remainder
  have hcE : M / E * E ≤ M := Nat.div_mul_le_self M E
  obtain ⟨m, hm, mc, mv⟩ := mul_digit (p := p) hb (c := M / E) hj (by rw [← hE]; omega) hD
  rw [← hE] at mv
  obtain ⟨r, hr, rc, rv⟩ := sub_grid (p := p) hv mc (A := (M:ℤ)) (B := ((M / E * E : ℕ):ℤ)) hDz hM'
    (by rw [mv]; push_cast; rfl)
    (by rw [Nat.abs_cast]
        have : M * b ^ k < 10 ^ p := by omega
        exact_mod_cast this)
    (by rw [Nat.abs_cast]
        have : M / E * E * b ^ k < 10 ^ p := lt_of_le_of_lt (Nat.mul_le_mul_right _ hcE) (by omega)
        exact_mod_cast this)
    (by exact_mod_cast hD)
    (by rw [Nat.abs_cast, Nat.abs_cast]
        have : M + M / E * E < 10 ^ p := by omega
        exact_mod_cast this)
  refine ⟨q, r, m, hq, qint, hm, hr, rc, ?_⟩
  rw [rv]
  congr 1
  · have : (M:ℤ) - ((M / E * E : ℕ):ℤ) = ((M % E : ℕ):ℤ) := by
      have := Nat.div_add_mod' M E
      omega
    rw [this]; push_cast; rfl

/-- One iteration of the digit loop. -/
theorem digitLoop_step {p : ℕ} (hp : 1 ≤ p) (powF) {b k : ℕ} (hb : 2 ≤ b) (hb36 : b ≤ 36) {v : Number}
    (hv : v.Canonical) {M : ℕ}
    (hM : v.val = (M:ℚ) / ((b ^ k : ℕ):ℚ)) {j : ℤ} (hj : -(k:ℤ) ≤ j)
    (h5 : 5 * (M * b ^ k) < 10 ^ p) (hD : b ^ k < 10 ^ p) (hjp : b ^ j.natAbs < 10 ^ p)
    (hjk : 0 ≤ j → b ^ (j + k).toNat < 10 ^ p) (hMlt : M < b ^ ((j + k).toNat + 1))
    {prec fuel places : ℕ} {str : List Char} (hcond : 0 ≤ j ∨ (0 < toDecimal p v ∧ places < prec)) :
    ∃ r, digitLoop p powF prec (b:ℤ) (fuel + 1) j places v str =
        digitLoop p powF prec (b:ℤ) fuel (j - 1) (if j < 0 then places + 1 else places) r
          ((if j = -1 then str ++ ['.'] else str) ++ [chr (M / b ^ (j + k).toNat)]) ∧
      M / b ^ (j + k).toNat < b ∧ r.Canonical ∧
      r.val = ((M % b ^ (j + k).toNat : ℕ):ℚ) / ((b ^ k : ℕ):ℚ) := by
  obtain ⟨q, r, m, hq, qi, hm, hr, rc, rv⟩ := digit_step hp hb hv hM hj h5 hD hjk
  have hc : M / b ^ (j + k).toNat < b := by
    rw [Nat.div_lt_iff_lt_mul (by positivity)]
    rwa [pow_succ, mul_comm] at hMlt
  refine ⟨r, ?_, hc, rc, rv⟩
  rw [digitLoop, if_pos hcond]
  simp only [ofInt_eq hp, ok_bind]
  rw [pow_base powF hb hjp]
  simp only [ok_bind]
  rw [hq]
  simp only [ok_bind]
  rw [qi, hm]
  simp only [ok_bind]
  rw [hr]
  simp only [ok_bind]
  rw [digitAt_nat (by omega)]

/-- The integer part. -/
theorem digitLoop_int {p : ℕ} (hp : 1 ≤ p) (powF) {b k : ℕ} (hb : 2 ≤ b) (hb36 : b ≤ 36)
    (hD : b ^ k < 10 ^ p) (prec : ℕ) :
    ∀ (t : ℕ) (v : Number) (M : ℕ) (fuel : ℕ) (str : List Char), v.Canonical →
      v.val = (M:ℚ) / ((b ^ k : ℕ):ℚ) → 5 * (M * b ^ k) < 10 ^ p → b ^ (t + k) < 10 ^ p →
      M < b ^ (t + k + 1) →
      ∃ r ds, digitLoop p powF prec (b:ℤ) (fuel + (t + 1)) (t:ℤ) 0 v str =
          digitLoop p powF prec (b:ℤ) fuel (-1) 0 r (str ++ ds.map chr) ∧ ds.length = t + 1 ∧
        (∀ d ∈ ds, d < b) ∧ positional b ds = M / b ^ k ∧ r.Canonical ∧
        r.val = ((M % b ^ k : ℕ):ℚ) / ((b ^ k : ℕ):ℚ) := by
  intro t
  induction t with
  | zero =>
    intro v M fuel str hv hM h5 hE hlt
    have e0 : ((0:ℤ) + (k:ℤ)).toNat = k := by omega
    obtain ⟨r, h1, h2, h3, h4⟩ := digitLoop_step hp powF hb hb36 hv hM (j := 0) (by omega) h5 hD
      (by simpa using lt_of_le_of_lt (Nat.one_le_pow k b (by omega)) hD) (fun _ => by rw [e0]; exact hD)
      (by rw [e0]; simpa using hlt) (prec := prec) (fuel := fuel) (places := 0) (str := str) (Or.inl le_rfl)
    rw [e0] at h1 h2 h4
    refine ⟨r, [M / b ^ k], ?_, rfl, by simpa using h2, ?_, h3, h4⟩
    · simpa using h1
    · simp [positional]
  | succ t ih =>
    intro v M fuel str hv hM h5 hE hlt
    have e0 : (((t + 1 : ℕ):ℤ) + (k:ℤ)).toNat = t + 1 + k := by omega
    have hpw : b ^ (t + 1) < 10 ^ p := lt_of_le_of_lt (Nat.pow_le_pow_right (by omega) (by omega)) hE
    obtain ⟨r, h1, h2, h3, h4⟩ := digitLoop_step hp powF hb hb36 hv hM (j := ((t + 1 : ℕ):ℤ)) (by omega) h5 hD
      (by rw [Int.natAbs_natCast]; exact hpw) (fun _ => by rw [e0]; exact hE)
      (by rw [e0]; exact hlt) (prec := prec) (fuel := fuel + (t + 1)) (places := 0) (str := str)
      (Or.inl (by omega))
    rw [e0] at h1 h2 h4
    have hMle : M % b ^ (t + 1 + k) ≤ M := Nat.mod_le _ _
    have hE' : t + 1 + k = t + k + 1 := by omega
    obtain ⟨r', ds, g1, g2, g3, g4, g5, g6⟩ := ih r (M % b ^ (t + 1 + k)) fuel
      (str ++ [chr (M / b ^ (t + 1 + k))]) h3 h4
      (lt_of_le_of_lt (Nat.mul_le_mul_left _ (Nat.mul_le_mul_right _ hMle)) h5)
      (lt_of_le_of_lt (Nat.pow_le_pow_right (by omega) (by omega)) hE)
      (by rw [hE']; exact Nat.mod_lt _ (by positivity))
    refine ⟨r', M / b ^ (t + 1 + k) :: ds, ?_, by simp [g2], ?_, ?_, g5, ?_⟩
    · have ej : ((t + 1 : ℕ):ℤ) - 1 = (t:ℤ) := by omega
      rw [ej, if_neg (by omega), if_neg (by omega)] at h1
      rw [show fuel + (t + 1 + 1) = fuel + (t + 1) + 1 by ring, h1, g1]
      simp
    · intro d hd
      rcases List.mem_cons.mp hd with rfl | hd
      · exact h2
      · exact g3 d hd
    · rw [positional_cons, g4, g2, hE', Nat.pow_add b (t+k) 1] 
      rw [show b ^ (t + k) * b ^ 1 = b ^ k * b ^ (t + 1) by rw [← pow_add, ← pow_add]; congr 1; omega]
      rw [Nat.mod_mul_right_div_self, ← Nat.div_div_eq_div_mul]
      exact Nat.div_add_mod' _ _
    · rw [g6, Nat.mod_mod_of_dvd _ (pow_dvd_pow b (by omega))]

/-- The fraction, from the `i`-th place on. -/
theorem digitLoop_frac {p : ℕ} (hp : 1 ≤ p) (powF) {b k : ℕ} (hb : 2 ≤ b) (hb36 : b ≤ 36)
    (hD : b ^ k < 10 ^ p) (prec : ℕ) (hk : k ≤ prec) :
    ∀ (n : ℕ) (i : ℕ) (v : Number) (M : ℕ) (fuel : ℕ) (str : List Char), i + n = k → v.Canonical →
      v.val = (M:ℚ) / ((b ^ k : ℕ):ℚ) → 5 * (M * b ^ k) < 10 ^ p → M < b ^ n → n < fuel →
      ∃ ds, digitLoop p powF prec (b:ℤ) fuel (-1 - (i:ℤ)) i v str =
          .ok (str ++ (if M = 0 then [] else (if i = 0 then ['.'] else []) ++ ds.map chr)) ∧
        ds.length ≤ n ∧ (∀ d ∈ ds, d < b) ∧ positional b ds * b ^ (n - ds.length) = M ∧
        ds.getLast? ≠ some 0 ∧ (M = 0 ↔ ds = []) := by
  intro n
  induction n with
  | zero =>
    intro i v M fuel str hik hv hM h5 hlt hf
    have hM0 : M = 0 := by simpa using hlt
    subst hM0
    obtain ⟨f, rfl⟩ : ∃ f, fuel = f + 1 := ⟨fuel - 1, by omega⟩
    refine ⟨[], ?_, by simp, by simp, by simp [positional], by simp, by simp⟩
    have h0 : toDecimal p v = 0 := by
      have : v.val = 0 := by rw [hM]; simp
      unfold toDecimal; unfold val at this; rw [this, rnd_zero]
    rw [digitLoop, if_neg (by rw [h0]; rintro (h | ⟨h, _⟩) <;> [omega; exact lt_irrefl _ h])]
    simp
  | succ n ih =>
    intro i v M fuel str hik hv hM h5 hlt hf
    obtain ⟨f, rfl⟩ : ∃ f, fuel = f + 1 := ⟨fuel - 1, by omega⟩
    have hvpos : (0:ℚ) < ((b ^ k : ℕ):ℚ) := by
      have : 0 < b ^ k := by positivity
      exact_mod_cast this
    by_cases hM0 : M = 0
    · subst hM0
      refine ⟨[], ?_, by simp, by simp, by simp [positional], by simp, by simp⟩
      have h0 : toDecimal p v = 0 := by
        have : v.val = 0 := by rw [hM]; simp
        unfold toDecimal; unfold val at this; rw [this, rnd_zero]
      rw [digitLoop, if_neg (by rw [h0]; rintro (h | ⟨h, _⟩) <;> [omega; exact lt_irrefl _ h])]
      simp
    · have hpos : 0 < toDecimal p v := by
        unfold toDecimal
        apply rnd_pos hp
        have : v.val = (v.num:ℚ) / v.den := rfl
        rw [← this, hM]
        have : (0:ℚ) < (M:ℚ) := by exact_mod_cast Nat.pos_of_ne_zero hM0
        positivity
      have ej : ((-1 - (i:ℤ)) + (k:ℤ)).toNat = n := by omega
      obtain ⟨r, h1, h2, h3, h4⟩ := digitLoop_step hp powF hb hb36 hv hM (j := -1 - (i:ℤ)) (by omega) h5 hD
        (lt_of_le_of_lt (Nat.pow_le_pow_right (by omega) (by omega : (-1 - (i:ℤ)).natAbs ≤ k)) hD)
        (fun h => by omega)
        (by rw [ej]; exact hlt) (prec := prec) (fuel := f) (places := i) (str := str)
        (Or.inr ⟨hpos, by omega⟩)
      rw [ej] at h1 h2 h4
      have hMle : M % b ^ n ≤ M := Nat.mod_le _ _
      obtain ⟨ds, g1, g2, g3, g4, g5, g6⟩ := ih (i + 1) r (M % b ^ n) f
        ((if (-1 - (i:ℤ)) = -1 then str ++ ['.'] else str) ++ [chr (M / b ^ n)]) (by omega) h3 h4
        (lt_of_le_of_lt (Nat.mul_le_mul_left _ (Nat.mul_le_mul_right _ hMle)) h5)
        (Nat.mod_lt _ (by positivity)) (by omega)
      refine ⟨M / b ^ n :: ds, ?_, by simp [g2], ?_, ?_, ?_, by simp [hM0]⟩
      · have e2 : -1 - (i:ℤ) - 1 = -1 - ((i + 1 : ℕ):ℤ) := by push_cast; ring
        rw [h1, if_pos (by omega : -1 - (i:ℤ) < 0), e2, g1, if_neg hM0]
        have e3 : (-1 - (i:ℤ) = -1) ↔ i = 0 := by omega
        by_cases hi : i = 0
        · rw [if_pos (e3.mpr hi), if_pos hi]
          by_cases hr0 : M % b ^ n = 0
          · rw [if_pos hr0, g6.mp hr0]; simp
          · rw [if_neg hr0]; simp
        · rw [if_neg (fun h => hi (e3.mp h)), if_neg hi]
          by_cases hr0 : M % b ^ n = 0
          · rw [if_pos hr0, g6.mp hr0]; simp
          · rw [if_neg hr0]; simp
      · intro d hd
        rcases List.mem_cons.mp hd with rfl | hd
        · exact h2
        · exact g3 d hd
      · rw [positional_cons, List.length_cons, Nat.add_mul, Nat.add_sub_add_right, g4, mul_assoc, ← pow_add,
          show ds.length + (n - ds.length) = n by omega]
        exact Nat.div_add_mod' _ _
      · rw [List.getLast?_cons]
        by_cases hds : ds = []
        · subst hds
          have hr0 := g6.mpr rfl
          simp only [List.getLast?_nil, Option.getD_none]
          intro h
          have h0 : M / b ^ n = 0 := by simpa using h
          have := Nat.div_add_mod' M (b ^ n)
          rw [h0, hr0] at this
          omega
        · have hx := List.getLast?_eq_some_getLast hds
          rw [hx] at g5 ⊢
          simpa using g5

/-- The search for the top power finds the logarithm. -/
theorem topPower_exact {p : ℕ} (hp : 1 ≤ p) {b : ℕ} (hb : 2 ≤ b) {v : Number} (hv : v.Canonical)
    {N D : ℕ} (hN : 0 < N) (hD : 0 < D) (hval : v.val = (N:ℚ) / (D:ℚ)) (h5 : 5 * (b * N) < 10 ^ p) :
    ∀ (n q fuel : ℕ), q + n = Nat.log b (N / D) → n < fuel →
      topPower p (b:ℤ) v fuel q = .ok (Nat.log b (N / D)) := by
  have key : ∀ q, q ≤ Nat.log b (N / D) →
      (Number.le p ⟨((b:ℤ) ^ (q + 1)), 1⟩ v = true ↔ b ^ (q + 1) ≤ N / D) := by
    intro q hq
    have hDz : ((D:ℤ)) ≠ 0 := by omega
    have hnum := num_le_of_val hv hDz (by rw [hval]; push_cast; rfl : v.val = ((N:ℤ):ℚ) / ((D:ℤ):ℚ))
    rw [Nat.abs_cast] at hnum
    have hpow : b ^ (q + 1) ≤ b * N := by
      rw [pow_succ, mul_comm]
      apply Nat.mul_le_mul_left
      rcases Nat.eq_zero_or_pos (N / D) with h0 | h0
      · rw [h0] at hq; simp at hq; subst hq; simp; omega
      · calc b ^ q ≤ b ^ Nat.log b (N / D) := Nat.pow_le_pow_right (by omega) hq
          _ ≤ N / D := Nat.pow_log_le_self b h0.ne'
          _ ≤ N := Nat.div_le_self _ _
    have hfit : |((b:ℤ) ^ (q + 1))| < 10 ^ p := by
      rw [abs_of_nonneg (by positivity)]
      have : b ^ (q + 1) < 10 ^ p := by omega
      exact_mod_cast this
    unfold Number.le
    rw [toDecimal_int hfit, decide_eq_true_iff]
    have hgrid := rnd_lt_grid_iff (p := p) hp (n := v.num) (d := v.den) (k := (b:ℤ) ^ (q + 1)) (N := 1) hv.1
      (by norm_num)
      (by
        have : 5 * N < 10 ^ p := by nlinarith
        have : 5 * (N:ℤ) < 10 ^ p := by exact_mod_cast this
        linarith)
      (by simpa using fits_int hfit)
    rw [Int.cast_one, div_one] at hgrid
    have e : v.val = (v.num:ℚ) / v.den := rfl
    rw [← e, hval] at hgrid
    unfold toDecimal
    rw [← e, hval, ← not_lt, hgrid, not_lt]
    have hDq : (0:ℚ) < D := by exact_mod_cast hD
    rw [le_div_iff₀ hDq, Nat.le_div_iff_mul_le hD]
    norm_cast
  intro n
  induction n with
  | zero =>
    intro q fuel hq hf
    obtain ⟨f, rfl⟩ : ∃ f, fuel = f + 1 := ⟨fuel - 1, by omega⟩
    rw [topPower, ofInt_eq hp]
    simp only [ok_bind]
    have hnot : ¬ (Number.le p ⟨((b:ℤ) ^ (q + 1)), 1⟩ v = true) := by
      rw [key q (by omega)]
      push Not
      rw [show q = Nat.log b (N / D) by omega]
      exact Nat.lt_pow_succ_log_self (by omega) _
    rw [if_neg hnot, show q = Nat.log b (N / D) by omega]; rfl
  | succ n ih =>
    intro q fuel hq hf
    obtain ⟨f, rfl⟩ : ∃ f, fuel = f + 1 := ⟨fuel - 1, by omega⟩
    rw [topPower, ofInt_eq hp]
    simp only [ok_bind]
    have hyes : Number.le p ⟨((b:ℤ) ^ (q + 1)), 1⟩ v = true := by
      rw [key q (by omega)]
      have hne : N / D ≠ 0 := by
        intro h; rw [h] at hq; simp at hq
      exact Nat.pow_le_of_le_log hne (by omega)
    rw [if_pos hyes]
    exact ih (q + 1) f (by omega) (by omega)

/-- The text for digits `ip` and `fp`. -/
def basedText (neg : Bool) (ip fp : List ℕ) : List Char :=
  (if neg then ['-'] else []) ++ ip.map chr ++ (if fp = [] then [] else '.' :: fp.map chr)

theorem map_chr_ne {ds : List ℕ} (h : ∀ d ∈ ds, d < 36) {c : Char} (hc : c ∈ ds.map chr) :
    c ≠ '.' ∧ c ≠ '-' := by
  obtain ⟨d, hd, rfl⟩ := List.mem_map.mp hc
  exact ⟨(chr_facts (h d hd)).2.1, (chr_facts (h d hd)).2.2.1⟩

theorem decToBase_exact {p : ℕ} (hp : 1 ≤ p) (powF) {b k prec : ℕ} (hb : 2 ≤ b) (hb36 : b ≤ 36) (hb10 : b ≠ 10)
    (hk : k ≤ prec) {a : Number} (ha : a.Canonical) {N : ℕ} (hN : 0 < N) {neg : Bool}
    (hval : a.val = (if neg then -1 else 1) * ((N:ℚ) / ((b ^ k : ℕ):ℚ)))
    (h5 : 5 * (b * N * b ^ k) < 10 ^ p) {fuel : ℕ} (hf : Nat.log b (N / b ^ k) < fuel) :
    ∃ ip fp, decToBase p powF prec fuel a (b:ℤ) = .ok (basedText neg ip fp) ∧
      (∀ d ∈ ip, d < b) ∧ (∀ d ∈ fp, d < b) ∧ ip.length = Nat.log b (N / b ^ k) + 1 ∧
      positional b ip = N / b ^ k ∧ fp.length ≤ k ∧ positional b fp * b ^ (k - fp.length) = N % b ^ k ∧
      fp.getLast? ≠ some 0 := by
  have hD1 : 1 ≤ b ^ k := Nat.one_le_pow _ _ (by omega)
  have hDq : (0:ℚ) < ((b ^ k : ℕ):ℚ) := by exact_mod_cast hD1
  have hNq : (0:ℚ) < (N:ℚ) := by exact_mod_cast hN
  have hq : (0:ℚ) < (N:ℚ) / ((b ^ k : ℕ):ℚ) := div_pos hNq hDq
  have hbN : b * N ≤ b * N * b ^ k := Nat.le_mul_of_pos_right _ hD1
  have hNb : N * b ^ k ≤ b * N * b ^ k := Nat.mul_le_mul_right _ (Nat.le_mul_of_pos_left _ (by omega))
  have hDN : b ^ k ≤ N * b ^ k := Nat.le_mul_of_pos_left _ hN
  have hNN : N ≤ N * b ^ k := Nat.le_mul_of_pos_right _ hD1
  have hsign : (toDecimal p a < 0 ↔ neg = true) ∧ toDecimal p a ≠ 0 := by
    have e : a.val = (a.num:ℚ) / a.den := rfl
    unfold toDecimal
    rw [← e, hval]
    cases neg with
    | false =>
      have := rnd_pos hp hq
      simp only [Bool.false_eq_true, if_false, one_mul, iff_false]
      exact ⟨by linarith, by linarith⟩
    | true =>
      have := rnd_pos hp hq
      simp only [if_true, iff_true]
      rw [neg_one_mul, rnd_neg]
      exact ⟨by linarith, by linarith⟩
  have hnum : |a.num| ≤ (N:ℤ) := by
    have := num_le_of_val ha (n := (if neg then -1 else 1) * (N:ℤ)) (d := ((b ^ k : ℕ):ℤ)) (by omega)
      (by rw [hval]; cases neg <;> simp [neg_div])
    refine this.trans (le_of_eq ?_)
    cases neg <;> simp
  set v := Number.abs p a with hvdef
  have hv : v = ⟨|a.num|, a.den⟩ := by
    rw [hvdef]; unfold Number.abs
    rw [show |(a.num:ℚ)| = ((|a.num| : ℤ):ℚ) by push_cast; rfl, rnd_int, rhu_intCast]
    rw [abs_abs]; refine lt_of_le_of_lt hnum ?_
    have : N < 10 ^ p := by omega
    exact_mod_cast this
  have hvc : v.Canonical := by
    rw [hv]; refine ⟨ha.1, ?_⟩
    have := ha.2
    show Int.gcd |a.num| a.den = 1
    rw [Int.gcd_eq_natAbs_gcd_natAbs] at *
    rwa [Int.natAbs_abs]
  have hvv : v.val = (N:ℚ) / ((b ^ k : ℕ):ℚ) := by
    have e : a.val = (a.num:ℚ) / a.den := rfl
    have : v.val = |a.val| := by
      rw [hv, e, abs_div]; unfold val
      rw [abs_of_pos ha.den_pos]; push_cast; rfl
    rw [this, hval, abs_mul, abs_of_pos hq]; cases neg <;> simp
  have htop := topPower_exact hp hb hvc hN hD1 hvv (by omega) (Nat.log b (N / b ^ k)) 0 fuel (by omega) hf
  set t := Nat.log b (N / b ^ k) with ht
  have hlt : N < b ^ (t + k + 1) := by
    have := Nat.lt_pow_succ_log_self (b := b) (by omega) (N / b ^ k)
    rw [← ht, Nat.div_lt_iff_lt_mul hD1, Nat.succ_eq_add_one, ← pow_add] at this
    rwa [show t + k + 1 = t + 1 + k by omega]
  have htk : b ^ (t + k) ≤ N * b ^ k := by
    rw [pow_add]; apply Nat.mul_le_mul_right
    rcases Nat.eq_zero_or_pos (N / b ^ k) with h0 | h0
    · have : t = 0 := by rw [ht, h0]; simp
      rw [this]; simp; omega
    · calc b ^ t ≤ N / b ^ k := Nat.pow_log_le_self b h0.ne'
        _ ≤ N := Nat.div_le_self _ _
  obtain ⟨r, ip, i1, i2, i3, i4, i5, i6⟩ := digitLoop_int hp powF hb hb36 (k := k) (by omega) prec t v N
    (prec + 1) [] hvc hvv (by omega) (by omega) hlt
  have hmod : N % b ^ k ≤ N := Nat.mod_le _ _
  obtain ⟨fp, f1, f2, f3, f4, f5, f6⟩ := digitLoop_frac hp powF hb hb36 (k := k) (by omega) prec hk k 0 r
    (N % b ^ k) (prec + 1) ([] ++ ip.map chr) (by omega) i5 i6
    (by
      have : N % b ^ k * b ^ k ≤ N * b ^ k := Nat.mul_le_mul_right _ hmod
      omega)
    (Nat.mod_lt _ (by omega)) (by omega)
  refine ⟨ip, fp, ?_, i3, f3, i2, i4, f2, f4, f5⟩
  unfold decToBase
  rw [if_neg hsign.2, if_neg (by exact_mod_cast hb10), if_neg (by omega)]
  simp only
  rw [htop]
  simp only [ok_bind]
  rw [show t + prec + 2 = prec + 1 + (t + 1) by ring, i1]
  have e0 : (-1 - ((0:ℕ):ℤ)) = -1 := by norm_num
  rw [e0] at f1
  rw [f1]
  simp only [ok_bind, if_true]
  have htext : ([] ++ ip.map chr ++ if N % b ^ k = 0 then [] else ['.'] ++ fp.map chr)
      = ip.map chr ++ (if fp = [] then [] else '.' :: fp.map chr) := by
    by_cases h : N % b ^ k = 0
    · rw [if_pos h, if_pos (f6.mp h)]; simp
    · rw [if_neg h, if_neg (fun hc => h (f6.mpr hc))]; simp
  rw [htext]
  have hs : (if toDecimal p a < 0 then '-' :: (ip.map chr ++ (if fp = [] then [] else '.' :: fp.map chr))
      else ip.map chr ++ (if fp = [] then [] else '.' :: fp.map chr)) = basedText neg ip fp := by
    unfold basedText
    cases neg with
    | false => rw [if_neg (by simpa using hsign.1)]; simp
    | true => rw [if_pos (by simpa using hsign.1)]; simp
  rw [hs]
  show Except.ok _ = _
  congr 1
  split
  · by_cases hfp : fp = []
    · rename_i hdot
      exfalso
      subst hfp
      unfold basedText at hdot
      simp only [if_true, List.append_nil, List.mem_append] at hdot
      rcases hdot with h | h
      · cases neg <;> simp at h
      · exact (map_chr_ne (fun d hd => lt_of_lt_of_le (i3 d hd) hb36) h).1 rfl
    · obtain ⟨init, last, rfl⟩ : ∃ init last, fp = init ++ [last] :=
        ⟨fp.dropLast, fp.getLast hfp, (List.dropLast_append_getLast hfp).symm⟩
      unfold basedText
      rw [if_neg hfp, List.map_append]
      have hl : chr last ≠ '0' := by
        rw [Ne, (chr_facts (lt_of_lt_of_le (f3 last (by simp)) hb36)).2.2.2.1]
        intro h; subst h; simp at f5
      have := rstrip0_snoc (s := (if neg = true then ['-'] else []) ++ ip.map chr ++ '.' :: init.map chr) hl
      simpa using this
  · rfl

end MC
