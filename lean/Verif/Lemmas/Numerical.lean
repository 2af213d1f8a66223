import Mathlib.Tactic.Linarith
import Mathlib.Tactic.FieldSimp
import Verif.Lemmas.Numeric
import Verif.Lemmas.Number3
import Verif.Lemmas.Grid
import Verif.Model.Numerical
import Verif.Spec.Numerical
import Verif.Props.Number2

/-! # Lemmas about the numerical operations -/

namespace MC.Numerical
open MC.Numeric MC.Arrays MC.Boolean MC.Number MC.Spec MC.Props
set_option linter.unusedSectionVars false

/-! ## Rounding to places -/

/-- Multiplying by `b^n` does not increase the denominator, and increases the numerator by at most
this factor. -/
theorem scale_num {r x : Number} (hr : r.Canonical) (hx : x.Canonical) {z : ℤ}
    (h : r.val = x.val * z) : |r.num| ≤ |x.num * z| := by
  refine num_le_of_val hr (d := x.den) ?_ ?_
  · have := hx.1; omega
  · rw [h]; unfold val; push_cast; ring

theorem scaled_spec {p : ℕ} (hp : 1 ≤ p) {f : Number → Except Err Number} {b n : ℕ} (hb : 2 ≤ b)
    {x : Number} (hx : x.Canonical) (h1 : 10 * |x.num * (b : ℤ) ^ n| + 10 < 10 ^ p)
    (h2 : x.den < 10 ^ p) (h3 : (b : ℤ) ^ n < 10 ^ p)
    {g : ℚ → ℤ} (hg : ∀ v : Number, v.Canonical → 10 * |v.num| < 10 ^ p → f v = .ok ⟨g v.val, 1⟩)
    (hb1 : ∀ q : ℚ, |(g q : ℚ)| ≤ |q| + 1) :
    ∃ r, scaled p f b n x = .ok r ∧ r.Canonical ∧ r.val = g (x.val * (b : ℚ) ^ n) / (b : ℚ) ^ n := by
  have hbn : (0 : ℤ) < (b : ℤ) ^ n := by positivity
  have hp5 : |x.num * (b : ℤ) ^ n| < 10 ^ p := by
    have := abs_nonneg (x.num * (b : ℤ) ^ n); omega
  obtain ⟨v, hv, hvc, hvv⟩ := C02_mul_exact p x ⟨(b : ℤ) ^ n, 1⟩ hx (canonical_int _) hp5 (by simpa using h2)
  have hvn : |v.num| ≤ |x.num * (b : ℤ) ^ n| := scale_num hvc hx (by rw [hvv, val_int])
  have hfv := hg v hvc (by omega)
  have hval : v.val = x.val * (b : ℚ) ^ n := by rw [hvv, val_int]; push_cast; rfl
  have hgb : |g v.val| < 10 ^ p := by
    have hle : (|g v.val| : ℚ) ≤ |x.num * (b : ℤ) ^ n| + 1 := by
      refine (hb1 v.val).trans ?_
      have hd : (1 : ℚ) ≤ v.den := by exact_mod_cast hvc.1
      have : |v.val| ≤ |(v.num : ℚ)| := by
        unfold val
        rw [abs_div, abs_of_pos (by linarith : (0:ℚ) < v.den)]
        exact div_le_self (abs_nonneg _) hd
      have h' : (|v.num| : ℚ) ≤ |x.num * (b : ℤ) ^ n| := by exact_mod_cast hvn
      push_cast at h' ⊢
      linarith
    have hle' : |g v.val| ≤ |x.num * (b : ℤ) ^ n| + 1 := by exact_mod_cast hle
    have := abs_nonneg (x.num * (b : ℤ) ^ n)
    omega
  obtain ⟨r, hr, hrc, hrv⟩ := C02_div_exact p ⟨g v.val, 1⟩ ⟨(b : ℤ) ^ n, 1⟩ (canonical_int _) (canonical_int _)
    (by rw [val_int]; exact_mod_cast hbn.ne') (by simpa using hgb)
    (by simpa [abs_of_pos hbn] using h3)
  refine ⟨r, ?_, hrc, ?_⟩
  · unfold scaled
    rw [if_neg (by omega)]
    simp only [ofInt_eq hp, Int.toNat_natCast, bind, Except.bind, hv, hfv]
    exact hr
  · rw [hrv, val_int, val_int, hval]; push_cast; rfl

theorem hasPlaces_div {b n : ℕ} (hb : 2 ≤ b) (k : ℤ) : HasPlaces b n ((k : ℚ) / (b : ℚ) ^ n) := by
  have : (b : ℚ) ^ n ≠ 0 := by positivity
  exact ⟨k, by field_simp⟩

theorem floorAt {b n : ℕ} (hb : 2 ≤ b) (x : ℚ) :
    IsFloorAt b n x ((⌊x * (b : ℚ) ^ n⌋ : ℚ) / (b : ℚ) ^ n) := by
  have hpos : (0 : ℚ) < (b : ℚ) ^ n := by positivity
  refine ⟨hasPlaces_div hb _, ?_, ?_⟩
  · rw [div_le_iff₀ hpos]; exact Int.floor_le _
  · rintro g ⟨k, hk⟩ hg
    rw [le_div_iff₀ hpos, hk]
    have : (k : ℚ) ≤ x * (b : ℚ) ^ n := by rw [← hk]; gcongr
    exact_mod_cast Int.le_floor.mpr this

theorem ceilAt {b n : ℕ} (hb : 2 ≤ b) (x : ℚ) :
    IsCeilAt b n x ((⌈x * (b : ℚ) ^ n⌉ : ℚ) / (b : ℚ) ^ n) := by
  have hpos : (0 : ℚ) < (b : ℚ) ^ n := by positivity
  refine ⟨hasPlaces_div hb _, ?_, ?_⟩
  · rw [le_div_iff₀ hpos]; exact Int.le_ceil _
  · rintro g ⟨k, hk⟩ hg
    rw [div_le_iff₀ hpos, hk]
    have : x * (b : ℚ) ^ n ≤ (k : ℚ) := by rw [← hk]; gcongr
    exact_mod_cast Int.ceil_le.mpr this

theorem roundAt {b n : ℕ} (hb : 2 ≤ b) (x : ℚ) :
    IsRoundAt b n x ((rhu (x * (b : ℚ) ^ n) : ℚ) / (b : ℚ) ^ n) := by
  have hpos : (0 : ℚ) < (b : ℚ) ^ n := by positivity
  have key : ∀ (k : ℤ) (g : ℚ), g * (b : ℚ) ^ n = k →
      |x - g| * (b : ℚ) ^ n = |x * (b : ℚ) ^ n - k| := by
    intro k g hg
    rw [← hg, ← sub_mul, abs_mul, abs_of_pos hpos]
  have hr : (rhu (x * (b : ℚ) ^ n) : ℚ) / (b : ℚ) ^ n * (b : ℚ) ^ n = (rhu (x * (b : ℚ) ^ n) : ℤ) := by
    field_simp
  obtain ⟨h1, h2⟩ := rhu_isNearestInt (x * (b : ℚ) ^ n)
  refine ⟨hasPlaces_div hb _, ?_, ?_⟩
  · rintro g ⟨k, hk⟩
    have := h1 k
    rw [← key k g hk, ← key _ _ hr] at this
    exact le_of_mul_le_mul_right this hpos
  · rintro g ⟨k, hk⟩ he
    have := h2 k (by rw [← key k g hk, ← key _ _ hr, he])
    have h' : (|k| : ℚ) ≤ |(rhu (x * (b : ℚ) ^ n) : ℚ)| := by exact_mod_cast this
    rw [← hk, abs_mul, abs_of_pos hpos] at h'
    rw [abs_div, abs_of_pos hpos, le_div_iff₀ hpos]
    exact h'

/-! ## Integers -/

theorem notInteger_spec {p : ℕ} (hp : 1 ≤ p) {x : Number} (hx : x.Canonical)
    (h : |x.num * x.den| < 10 ^ p) :
    notInteger p x = .ok (decide (x.den ≠ 1)) := by
  have h10 : (1 : ℤ) < 10 ^ p := one_lt_pow₀ (by norm_num) (by omega)
  have hl : (Int.lcm x.den 1 : ℤ) = x.den := by
    simp only [Int.lcm_one, Int.natCast_natAbs]
    exact abs_of_pos hx.1
  have hd : x.den < 10 ^ p := by
    by_cases h0 : x.num = 0
    · have := hx.2
      rw [h0, Int.gcd_zero_left] at this
      have h1 : x.den = 1 := by have := hx.1; omega
      omega
    · refine lt_of_le_of_lt ?_ h
      rw [abs_mul, abs_of_pos hx.1]
      exact le_mul_of_one_le_left hx.1.le (Int.one_le_abs h0)
  obtain ⟨r, hr, hc, hlt, ⟨k, hk⟩, -⟩ := C07_mod p x ⟨1, 1⟩ hx (canonical_int 1)
    (by norm_num [val]) (by rw [hl]; exact h) (by rw [hl, one_mul, abs_of_pos hx.1]; exact hd) (by rw [hl]; exact hd)
  unfold notInteger
  rw [hr]
  simp only [liftErr, bind, Except.bind, pure, Except.pure, Except.ok.injEq]
  have hz : toDecimal p r = 0 ↔ r.val = 0 := by
    unfold toDecimal
    rw [rnd_eq_zero_iff hp]; rfl
  have e1 : val ⟨1, 1⟩ = 1 := by norm_num [val]
  rw [e1] at hk hlt
  rw [decide_eq_decide, ne_eq, ne_eq, not_iff_not, hz]
  constructor
  · intro h0
    have hv : x.val = ((⟨k, 1⟩ : Number)).val := by rw [hk, h0, val_int]; ring
    have := canonical_ext hx (canonical_int k) hv
    rw [this]
  · intro h1
    have hv : x.val = x.num := by unfold val; rw [h1]; simp
    have : r.val = ((x.num - k : ℤ) : ℚ) := by push_cast; rw [← hv, hk]; ring
    rw [this] at hlt ⊢
    have h2 : |x.num - k| < 1 := by
      have : |((x.num - k : ℤ) : ℚ)| < 1 := by simpa using hlt
      exact_mod_cast this
    have : x.num - k = 0 := by rw [← Int.abs_lt_one_iff]; exact h2
    rw [this]; simp

end MC.Numerical
