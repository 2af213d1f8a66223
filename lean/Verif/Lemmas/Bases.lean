import Verif.Model.Bases
import Verif.Spec.Bases
import Verif.Lemmas.Grid
import Verif.Lemmas.Display
import Mathlib.Data.Nat.Log

namespace MC
open Number

theorem ok_bind {α β : Type} (a : α) (f : α → Except Err β) : (Except.ok a >>= f) = f a := rfl

/-! ### Digit characters -/

theorem positional_aux (b : ℕ) (ds : List ℕ) (acc : ℕ) :
    ds.foldl (fun acc d => acc * b + d) acc = acc * b ^ ds.length + positional b ds := by
  unfold positional
  induction ds generalizing acc with
  | nil => simp
  | cons c s ih =>
    simp only [List.foldl_cons, List.length_cons]
    rw [ih, ih (0 * b + c), pow_succ]; ring

theorem positional_cons (b d : ℕ) (ds : List ℕ) :
    positional b (d :: ds) = d * b ^ ds.length + positional b ds := by
  conv_lhs => unfold positional
  simp only [List.foldl_cons]
  rw [positional_aux]; simp

theorem positional_append (b : ℕ) (xs ys : List ℕ) :
    positional b (xs ++ ys) = positional b xs * b ^ ys.length + positional b ys := by
  conv_lhs => unfold positional
  rw [List.foldl_append, positional_aux]; rfl

theorem positional_lt {b : ℕ} {ds : List ℕ} (h : ∀ d ∈ ds, d < b) : positional b ds < b ^ ds.length := by
  induction ds with
  | nil => simp [positional]
  | cons d ds ih =>
    rw [positional_cons, List.length_cons, pow_succ]
    have h1 := ih (fun x hx => h x (by simp [hx]))
    have h2 := h d (by simp)
    calc d * b ^ ds.length + positional b ds < d * b ^ ds.length + b ^ ds.length := by omega
      _ = (d + 1) * b ^ ds.length := by ring
      _ ≤ b * b ^ ds.length := Nat.mul_le_mul_right _ h2
      _ = b ^ ds.length * b := by ring

theorem positional_replicate_zero (b k : ℕ) : positional b (List.replicate k 0) = 0 := by
  induction k with
  | zero => rfl
  | succ k ih => rw [List.replicate_succ, positional_cons, ih]; simp

/-- Digits of equal length and value are equal. -/
theorem positional_inj {b : ℕ} {xs ys : List ℕ} (hx : ∀ d ∈ xs, d < b) (hy : ∀ d ∈ ys, d < b)
    (hl : xs.length = ys.length) (h : positional b xs = positional b ys) : xs = ys := by
  induction xs generalizing ys with
  | nil => cases ys with
    | nil => rfl
    | cons y ys => simp at hl
  | cons x xs ih =>
    cases ys with
    | nil => simp at hl
    | cons y ys =>
      simp only [List.length_cons, Nat.add_right_cancel_iff] at hl
      rw [positional_cons, positional_cons, hl] at h
      have h1 := positional_lt (b := b) (ds := xs) (fun d hd => hx d (by simp [hd]))
      have h2 := positional_lt (b := b) (ds := ys) (fun d hd => hy d (by simp [hd]))
      rw [hl] at h1
      have hpos : 0 < b ^ ys.length := by omega
      have e : x = y := by
        have a1 : (x * b ^ ys.length + positional b xs) / b ^ ys.length = x := by
          rw [Nat.mul_comm, Nat.mul_add_div hpos, Nat.div_eq_of_lt h1]; simp
        have a2 : (y * b ^ ys.length + positional b ys) / b ^ ys.length = y := by
          rw [Nat.mul_comm, Nat.mul_add_div hpos, Nat.div_eq_of_lt h2]; simp
        rw [← a1, h, a2]
      subst e
      congr 1
      exact ih (fun d hd => hx d (by simp [hd])) (fun d hd => hy d (by simp [hd])) hl (by omega)

theorem findDigit_spec {c : Char} {d : ℕ} : findDigit c = some d ↔ d < 36 ∧ baseDigits[d]? = some c := by
  constructor
  · unfold findDigit
    split
    · rename_i h
      intro he; cases he
      have hlt := List.idxOf_lt_length_iff.mpr h
      have hlen : baseDigits.length = 36 := by decide +kernel
      refine ⟨hlen ▸ hlt, ?_⟩
      rw [List.getElem?_eq_getElem hlt, List.getElem_idxOf]
    · rintro ⟨⟩
  · rintro ⟨h, hc⟩
    have : ∀ d < 36, findDigit (baseDigits[d]!) = some d := by decide +kernel
    have h2 := this d h
    rw [List.getElem!_eq_getElem?_getD, hc] at h2
    exact h2

/-- The table look-up agrees with the specification of digit characters. -/
theorem findDigit_upper (c : Char) : findDigit c.toUpper = digitValue c := by
  have hch : c = Char.ofNat c.toNat := (Char.ofNat_toNat c).symm
  by_cases h1 : c.toNat < 128
  · have : ∀ n < 128, findDigit (Char.ofNat n).toUpper = digitValue (Char.ofNat n) := by decide +kernel
    rw [hch]; exact this _ h1
  · have hup : c.toUpper = c := by
      unfold Char.toUpper
      rw [dif_neg]
      intro h
      have : c.toNat ≤ 122 := by
        have := h.2
        exact this
      omega
    rw [hup]
    have big : ∀ d : Char, d.toNat < 128 → ¬ c ≤ d := by
      intro d hd hle
      have : c.toNat ≤ d.toNat := hle
      omega
    have h9 := big '9' (by decide)
    have hZ := big 'Z' (by decide)
    have hz := big 'z' (by decide)
    unfold digitValue
    rw [if_neg (by tauto), if_neg (by tauto), if_neg (by tauto)]
    unfold findDigit
    rw [if_neg]
    intro hm
    have : ∀ d ∈ baseDigits, d.toNat < 128 := by decide +kernel
    exact h1 (this c hm)

theorem findDigit_dot : findDigit '.' = none := by decide +kernel

/-- The digit character for a value. -/
def chr (d : ℕ) : Char := baseDigits.getD d '?'

theorem chr_spec {d : ℕ} (h : d < 36) : baseDigits[d]? = some (chr d) := by
  unfold chr
  have : ∀ d < 36, baseDigits[d]? = some (baseDigits.getD d '?') := by decide +kernel
  exact this d h

theorem findDigit_chr {d : ℕ} (h : d < 36) : findDigit (chr d) = some d :=
  findDigit_spec.mpr ⟨h, chr_spec h⟩

theorem chr_facts {d : ℕ} (h : d < 36) : (chr d).toUpper = chr d ∧ chr d ≠ '.' ∧ chr d ≠ '-' ∧
    (chr d = '0' ↔ d = 0) ∧ digitValue (chr d) = some d := by
  have : ∀ d < 36, (chr d).toUpper = chr d ∧ chr d ≠ '.' ∧ chr d ≠ '-' ∧ (chr d = '0' ↔ d = 0) ∧
    digitValue (chr d) = some d := by
    unfold chr; decide +kernel
  exact this d h

/-! ### Reading -/

theorem val_pow_base {b : ℕ} {j : ℤ} :
    ((if 0 ≤ j then ⟨(b:ℤ) ^ j.natAbs, 1⟩ else ⟨1, (b:ℤ) ^ j.natAbs⟩ : Number)).val = (b:ℚ) ^ j := by
  split
  · rename_i h
    obtain ⟨k, rfl⟩ : ∃ k : ℕ, j = k := ⟨j.natAbs, by omega⟩
    simp [val]
  · rename_i h
    obtain ⟨k, rfl⟩ : ∃ k : ℕ, j = -k := ⟨j.natAbs, by omega⟩
    simp [val]

theorem canonical_pow_base {b : ℕ} (hb : 2 ≤ b) {j : ℤ} :
    ((if 0 ≤ j then ⟨(b:ℤ) ^ j.natAbs, 1⟩ else ⟨1, (b:ℤ) ^ j.natAbs⟩ : Number)).Canonical := by
  split
  · exact canonical_int _
  · refine ⟨?_, by simp⟩
    show (0:ℤ) < (b:ℤ) ^ j.natAbs
    positivity

theorem zpow_grid {b : ℕ} (hb : 2 ≤ b) {j : ℤ} {k : ℕ} (hj : -(k:ℤ) ≤ j) :
    (b:ℚ) ^ j = ((b:ℚ) ^ (j + k).toNat) / (b:ℚ) ^ k := by
  have hb0 : (b:ℚ) ≠ 0 := by positivity
  rw [eq_div_iff (by positivity), ← zpow_natCast, ← zpow_natCast, ← zpow_add₀ hb0]
  congr 1; omega

/-- `c * base^j` is computed exactly. -/
theorem mul_digit {p : ℕ} {b : ℕ} (hb : 2 ≤ b) {c : ℕ} {j : ℤ} {k : ℕ} (hj : -(k:ℤ) ≤ j)
    (h1 : c * b ^ (j + k).toNat < 10 ^ p) (h2 : b ^ k < 10 ^ p) :
    ∃ r, Number.mul p ⟨(c:ℤ), 1⟩ (if 0 ≤ j then ⟨(b:ℤ) ^ j.natAbs, 1⟩ else ⟨1, (b:ℤ) ^ j.natAbs⟩) = .ok r ∧
      r.Canonical ∧ r.val = ((c * b ^ (j + k).toNat : ℕ) : ℚ) / ((b ^ k : ℕ):ℚ) := by
  have hcan := canonical_pow_base hb (j := j)
  have hval := val_pow_base (b := b) (j := j)
  set bp : Number := (if 0 ≤ j then ⟨(b:ℤ) ^ j.natAbs, 1⟩ else ⟨1, (b:ℤ) ^ j.natAbs⟩) with hbp
  have n1 : |(c:ℤ) * bp.num| < 10 ^ p := by
    have hle : (c:ℤ) * bp.num ≤ ((c * b ^ (j + k).toNat : ℕ) : ℤ) ∧ 0 ≤ (c:ℤ) * bp.num := by
      rw [hbp]; split
      · rename_i h
        push_cast
        refine ⟨mul_le_mul_of_nonneg_left (pow_le_pow_right₀ (by omega) (by omega)) (by omega), by positivity⟩
      · push_cast
        have : (1:ℤ) ≤ (b:ℤ) ^ (j + k).toNat := one_le_pow₀ (by omega)
        refine ⟨mul_le_mul_of_nonneg_left this (by omega), by positivity⟩
    rw [abs_of_nonneg hle.2]
    refine lt_of_le_of_lt hle.1 ?_
    exact_mod_cast h1
  have n2 : (1:ℤ) * bp.den < 10 ^ p := by
    have : bp.den ≤ ((b ^ k : ℕ):ℤ) := by
      rw [hbp]; split
      · push_cast; exact one_le_pow₀ (by omega)
      · push_cast; exact pow_le_pow_right₀ (by omega) (by omega)
    rw [one_mul]; refine lt_of_le_of_lt this ?_
    exact_mod_cast h2
  obtain ⟨r, hr, hc, hv⟩ := mul_exact (p := p) (a := ⟨(c:ℤ), 1⟩) (b := bp) (by norm_num) hcan.1 n1 n2
  refine ⟨r, hr, hc, ?_⟩
  rw [hv, hval, val_int, zpow_grid hb hj]; push_cast; ring

/-- Reading digits adds their positional value, exactly. -/
theorem readDigits_exact {p : ℕ} (hp : 1 ≤ p) (powF) {b k : ℕ} (hb : 2 ≤ b) {cs : List Char} {ds : List ℕ}
    (h : List.Forall₂ (fun c d => findDigit c = some d ∧ d < b) cs ds) :
    ∀ (j : ℤ) (acc : Number) (S : ℕ) (e : ℕ) (rest : List Char),
      j + k + 1 = ds.length + e → acc.Canonical → acc.val = (S:ℚ) / ((b ^ k : ℕ):ℚ) →
      (S + positional b ds * b ^ e) * b ^ k < 10 ^ p → b ^ k < 10 ^ p →
      (∀ i : ℤ, -(k:ℤ) ≤ i → i ≤ j → b ^ i.natAbs < 10 ^ p) →
      ∃ acc', readDigits p powF (b:ℤ) (cs ++ rest) j acc = readDigits p powF (b:ℤ) rest (j - ds.length) acc' ∧
        acc'.Canonical ∧ acc'.val = ((S + positional b ds * b ^ e : ℕ):ℚ) / ((b ^ k : ℕ):ℚ) := by
  induction h with
  | nil =>
    intro j acc S e rest hj hc hv _ _ _
    exact ⟨acc, by simp, hc, by rw [hv]; simp [positional]⟩
  | @cons c d cs ds hcd htail ih =>
    intro j acc S e rest hj hc hv hT hD hJ
    obtain ⟨hf, hd⟩ := hcd
    have hne : c ≠ '.' := by rintro rfl; rw [findDigit_dot] at hf; cases hf
    simp only [List.length_cons] at hj
    have hjk : (j + k).toNat = ds.length + e := by omega
    have hjk' : -(k:ℤ) ≤ j := by omega
    rw [positional_cons] at hT
    have hT2 := lt_of_le_of_lt (Nat.le_mul_of_pos_right _ (Nat.one_le_pow k b (by omega))) hT
    have hterm : d * b ^ (ds.length + e) ≤ S + (d * b ^ ds.length + positional b ds) * b ^ e := by
      rw [pow_add]; nlinarith [Nat.zero_le (positional b ds * b ^ e)]
    have hD1 : 1 ≤ b ^ k := Nat.one_le_pow _ _ (by omega)
    obtain ⟨t, ht, tc, tv⟩ := mul_digit (p := p) hb (c := d) hjk' (by rw [hjk]; omega) hD
    rw [hjk] at tv
    have hDz : (0:ℤ) < ((b ^ k : ℕ):ℤ) := by exact_mod_cast hD1
    have hsum : S + d * b ^ (ds.length + e) ≤ S + (d * b ^ ds.length + positional b ds) * b ^ e := by
      rw [pow_add]; nlinarith [Nat.zero_le (positional b ds * b ^ e)]
    obtain ⟨r, hr, rc, rv⟩ := add_grid (p := p) hc tc (A := (S:ℤ)) (B := ((d * b ^ (ds.length + e) : ℕ) : ℤ))
      (D := ((b ^ k : ℕ):ℤ)) hDz (by rw [hv]; push_cast; rfl) (by rw [tv]; push_cast; rfl)
      (by rw [Nat.abs_cast]
          have : S * b ^ k < 10 ^ p := lt_of_le_of_lt (Nat.mul_le_mul_right _ (by omega)) hT
          exact_mod_cast this)
      (by rw [Nat.abs_cast]
          have : d * b ^ (ds.length + e) * b ^ k < 10 ^ p := lt_of_le_of_lt (Nat.mul_le_mul_right _ (by omega)) hT
          exact_mod_cast this)
      (by exact_mod_cast hD)
      (by rw [Nat.abs_cast, Nat.abs_cast]
          have : S + d * b ^ (ds.length + e) < 10 ^ p := by omega
          exact_mod_cast this)
    have hrv : r.val = ((S + d * b ^ (ds.length + e) : ℕ):ℚ) / ((b ^ k : ℕ):ℚ) := by
      rw [rv]; push_cast; rfl
    have eqT : S + d * b ^ (ds.length + e) + positional b ds * b ^ e
        = S + (d * b ^ ds.length + positional b ds) * b ^ e := by rw [pow_add]; ring
    obtain ⟨acc', h1, h2, h3⟩ := ih (j - 1) r (S + d * b ^ (ds.length + e)) e rest (by omega) rc hrv
      (by rw [eqT]; exact hT) hD (fun i hi hi2 => hJ i hi (by omega))
    refine ⟨acc', ?_, h2, ?_⟩
    · rw [List.cons_append, readDigits, if_neg hne, hf]
      simp only
      rw [if_neg (by omega), ofInt_eq hp, ofInt_eq hp, ofInt_eq hp]
      show (do let bp ← Number.pow p powF ⟨(b:ℤ), 1⟩ ⟨j, 1⟩; _) = _
      rw [pow_base powF hb (hJ j hjk' le_rfl)]
      simp only [ok_bind]
      rw [ht]
      simp only [ok_bind]
      rw [hr]
      simp only [ok_bind]
      rw [h1]
      congr 1
      simp only [List.length_cons]; push_cast; ring
    · rw [h3, eqT, positional_cons]

end MC
