import Mathlib.Tactic.Linarith
import Mathlib.Tactic.NormNum
import Mathlib.Tactic.FieldSimp
import Mathlib.Tactic.Positivity
import Mathlib.Algebra.Order.Round
import Verif.Model.Dates

/-! # Floating point numbers, and `timedelta` -/

namespace MC.Dates

theorem two_pos (e : ℤ) : (0 : ℚ) < 2 ^ e := zpow_pos (by norm_num) e

theorem rhe_near (x : ℚ) : |(rhe x : ℚ) - x| ≤ 1 / 2 := by
  have h1 := Int.floor_le x
  have h2 := Int.lt_floor_add_one x
  unfold rhe
  split_ifs <;> (rw [abs_le]; push_cast; constructor <;> linarith)

theorem rhe_close {x : ℚ} {n : ℤ} (h : |x - n| < 1 / 2) : rhe x = n := by
  have h1 := abs_le.mp (rhe_near x)
  have h2 := abs_lt.mp h
  have h3 : ((rhe x : ℤ) : ℚ) - n < 1 := by linarith
  have h4 : (-1 : ℚ) < ((rhe x : ℤ) : ℚ) - n := by linarith
  have h5 : rhe x - n < 1 := by exact_mod_cast h3
  have h6 : -1 < rhe x - n := by exact_mod_cast h4
  omega

theorem rhe_int (n : ℤ) : rhe (n : ℚ) = n := rhe_close (by simp)

theorem rhe_neg (x : ℚ) : rhe (-x) = -rhe x := by
  by_cases h : x - ⌊x⌋ = 1 / 2
  · have hx : x = ⌊x⌋ + 1 / 2 := by linarith
    have hf : ⌊-x⌋ = -⌊x⌋ - 1 := by
      rw [Int.floor_eq_iff]
      push_cast
      constructor <;> linarith
    unfold rhe
    rw [hf]
    push_cast
    have e1 : -x - (-(⌊x⌋ : ℚ) - 1) = 1 / 2 := by linarith
    rw [e1, h]
    simp only [lt_irrefl, if_false]
    split_ifs <;> omega
  · have h1 := Int.floor_le x
    have h2 := Int.lt_floor_add_one x
    have key : |x - (rhe x : ℤ)| < 1 / 2 := by
      unfold rhe
      split_ifs with h3 h4
      · rw [abs_lt]; constructor <;> linarith
      · rw [abs_lt]; push_cast; constructor <;> linarith
      · exact absurd (le_antisymm (not_lt.mp h4) (not_lt.mp h3)) h
      · exact absurd (le_antisymm (not_lt.mp h4) (not_lt.mp h3)) h
    apply rhe_close
    push_cast
    rw [show -x - -((rhe x : ℤ) : ℚ) = -(x - (rhe x : ℤ)) by ring, abs_neg]
    exact key

theorem truncQ_neg (x : ℚ) : truncQ (-x) = -truncQ x := by
  unfold truncQ
  rcases lt_trichotomy x 0 with h | h | h
  · rw [if_pos (by linarith), if_neg (by linarith)]; simp
  · subst h; simp
  · rw [if_neg (by linarith), if_pos (by linarith), neg_neg]

theorem dbl_neg (x : ℚ) : dbl (-x) = -dbl x := by
  have hb : binExp (-x) = binExp x := by simp [binExp]
  unfold dbl
  by_cases h : x = 0
  · simp [h]
  · rw [if_neg (by simpa using h), if_neg h, hb, neg_div, rhe_neg]
    push_cast
    ring

theorem deltaOf_neg (f : ℚ) : deltaOf (-f) = -deltaOf f := by
  unfold deltaOf
  rw [truncQ_neg, ← rhe_neg]
  congr 1
  push_cast
  rw [show 1000000 * (-f - -(truncQ f : ℚ)) = -(1000000 * (f - truncQ f)) by ring, dbl_neg]
  ring

theorem dbl_half (x : ℚ) : |dbl x - x| ≤ 2 ^ binExp x / 2 := by
  unfold dbl
  by_cases h : x = 0
  · simp only [h, if_true, sub_self, abs_zero]
    exact (half_pos (two_pos _)).le
  · rw [if_neg h]
    have h2 : (0 : ℚ) < 2 ^ binExp x := two_pos _
    have h1 := rhe_near (x / 2 ^ binExp x)
    have h3 : (rhe (x / 2 ^ binExp x) : ℚ) * 2 ^ binExp x - x
        = ((rhe (x / 2 ^ binExp x) : ℚ) - x / 2 ^ binExp x) * 2 ^ binExp x := by
      field_simp
    rw [h3, abs_mul, abs_of_pos h2]
    nlinarith

theorem binExp_le {x : ℚ} (h : x ≠ 0) : (2 : ℚ) ^ binExp x ≤ |x| / 2 ^ 52 := by
  have h1 := Int.zpow_log_le_self (b := 2) (by norm_num) (abs_pos.mpr h)
  unfold binExp
  rw [zpow_sub₀ (by norm_num : (2 : ℚ) ≠ 0)]
  have : (0 : ℚ) < 2 ^ (52 : ℤ) := by positivity
  have h52 : ((2 : ℚ) ^ (52 : ℤ)) = 2 ^ 52 := by norm_cast
  rw [h52]
  gcongr
  exact_mod_cast h1

/-- The relative error of a rounding. -/
theorem dbl_rel (x : ℚ) : |dbl x - x| ≤ |x| / 2 ^ 53 := by
  by_cases h : x = 0
  · simp [h, dbl]
  · refine (dbl_half x).trans ?_
    have := binExp_le h
    rw [show (2 : ℚ) ^ 53 = 2 ^ 52 * 2 by norm_num, ← div_div]
    linarith

/-- The absolute error of a rounding below a power of two. -/
theorem dbl_below {x : ℚ} (n : ℤ) (h : |x| < 2 ^ n) : |dbl x - x| ≤ 2 ^ (n - 54) := by
  by_cases h0 : x = 0
  · simp only [h0, dbl, if_true, sub_self, abs_zero]
    exact (two_pos _).le
  · refine (dbl_half x).trans ?_
    have h1 : Int.log 2 |x| < n := (Int.lt_zpow_iff_log_lt (b := 2) (by norm_num)
      (abs_pos.mpr h0)).mp (by exact_mod_cast h)
    have h2 : (2 : ℚ) ^ binExp x ≤ 2 ^ (n - 53) := by
      apply zpow_le_zpow_right₀ (by norm_num)
      unfold binExp
      omega
    rw [show n - 53 = (n - 54) + 1 by ring, zpow_add₀ (by norm_num)] at h2
    simp only [zpow_one] at h2
    linarith

theorem dbl_zero : dbl 0 = 0 := by simp [dbl]

theorem dbl_eq_zero {x : ℚ} (h : dbl x = 0) : x = 0 := by
  have := dbl_rel x
  rw [h, zero_sub, abs_neg] at this
  have h2 : |x| ≤ 0 := by
    have : |x| / 2 ^ 53 ≤ |x| / 2 := by
      gcongr
      norm_num
    linarith
  simpa using h2

/-- A whole number of at most 53 binary digits is not changed. -/
theorem dbl_int {n : ℤ} (h : |n| ≤ 2 ^ 53) : dbl (n : ℚ) = n := by
  by_cases h0 : n = 0
  · simp [h0, dbl]
  · have hq : (n : ℚ) ≠ 0 := by exact_mod_cast h0
    unfold dbl
    rw [if_neg hq]
    have hle : binExp (n : ℚ) ≤ 1 := by
      unfold binExp
      have : Int.log 2 |(n : ℚ)| < 54 := (Int.lt_zpow_iff_log_lt (b := 2) (by norm_num)
        (abs_pos.mpr hq)).mp (by
          have : |(n : ℚ)| ≤ 2 ^ 53 := by exact_mod_cast h
          push_cast
          norm_num at this ⊢
          linarith)
      omega
    by_cases h1 : binExp (n : ℚ) = 1
    · have hlog : Int.log 2 |(n : ℚ)| = 53 := by unfold binExp at h1; omega
      have h2 := Int.zpow_log_le_self (b := 2) (by norm_num) (abs_pos.mpr hq)
      rw [hlog] at h2
      have h3 : (2 : ℤ) ^ 53 ≤ |n| := by
        have : ((2 : ℕ) : ℚ) ^ (53 : ℤ) = 2 ^ 53 := by norm_cast
        rw [this] at h2
        exact_mod_cast h2
      have h4 : |n| = 2 ^ 53 := le_antisymm h h3
      rw [h1, zpow_one]
      rcases abs_eq (by norm_num : (0 : ℤ) ≤ 2 ^ 53) |>.mp h4 with h5 | h5
      · rw [h5]
        have := rhe_int (2 ^ 52)
        push_cast at this ⊢
        rw [show (9007199254740992 : ℚ) / 2 = 4503599627370496 by norm_num, this]
        norm_num
      · rw [h5]
        have := rhe_int (-2 ^ 52)
        push_cast at this ⊢
        rw [show -(9007199254740992 : ℚ) / 2 = -4503599627370496 by norm_num, this]
        norm_num
    · obtain ⟨k, hk⟩ : ∃ k : ℕ, binExp (n : ℚ) = -(k : ℤ) := ⟨(-binExp (n : ℚ)).toNat, by omega⟩
      rw [hk, zpow_neg, zpow_natCast, div_inv_eq_mul]
      have : (n : ℚ) * 2 ^ k = ((n * 2 ^ k : ℤ) : ℚ) := by push_cast; ring
      rw [this, rhe_int]
      push_cast
      field_simp

theorem truncQ_near (f : ℚ) : |f - truncQ f| < 1 := by
  unfold truncQ
  split_ifs with h
  · have h1 := Int.floor_le f
    have h2 := Int.lt_floor_add_one f
    rw [abs_lt]; constructor <;> linarith
  · have h1 := Int.floor_le (-f)
    have h2 := Int.lt_floor_add_one (-f)
    push_cast
    rw [abs_lt]; constructor <;> linarith

theorem truncQ_int (n : ℤ) : truncQ (n : ℚ) = n := by
  unfold truncQ
  split_ifs
  · simp
  · rw [← Int.cast_neg, Int.floor_intCast]; simp

/-- `timedelta(seconds=f)` is the nearest number of microseconds, if `f` is not just between
two. -/
theorem deltaOf_close {f : ℚ} {k : ℤ} (h : |f * 1000000 - k| ≤ 47 / 100) : deltaOf f = k := by
  unfold deltaOf
  apply rhe_close
  have h1 := truncQ_near f
  have h2 := dbl_rel (1000000 * (f - truncQ f))
  rw [abs_mul, abs_of_pos (by norm_num : (0 : ℚ) < 1000000)] at h2
  have h3 : |dbl (1000000 * (f - truncQ f)) - 1000000 * (f - truncQ f)| ≤ 1 / 100 := by
    refine h2.trans ?_
    rw [div_le_div_iff₀ (by norm_num) (by norm_num)]
    norm_num
    nlinarith
  have h4 := abs_le.mp h
  have h5 := abs_le.mp h3
  rw [abs_lt]
  constructor <;> linarith

/-- Adding a whole number of microseconds below 2 ^ 32 seconds is exact. -/
theorem deltaOf_dbl {k : ℤ} (h : |k| < 2 ^ 32 * 1000000) : deltaOf (dbl (k / 1000000)) = k := by
  have hq : |(k : ℚ)| < 2 ^ 32 * 1000000 := by exact_mod_cast h
  have h1 := dbl_below (x := (k : ℚ) / 1000000) 32 (by
    rw [abs_div, abs_of_pos (by norm_num : (0 : ℚ) < 1000000), div_lt_iff₀ (by norm_num)]
    exact_mod_cast hq)
  apply deltaOf_close
  rw [show (2 : ℚ) ^ ((32 : ℤ) - 54) = 1 / 4194304 by norm_num] at h1
  have h2 := abs_le.mp h1
  rw [abs_le]
  constructor <;> linarith

/-- Adding whole seconds is exact. -/
theorem deltaOf_whole {n : ℤ} (h : |n| ≤ 2 ^ 53) : deltaOf (dbl (n : ℚ)) = n * 1000000 := by
  rw [dbl_int h]
  unfold deltaOf
  rw [truncQ_int, sub_self, mul_zero, dbl_zero, add_zero]
  exact_mod_cast rhe_int (n * 1000000)

/-- What `dbl` gives is a nearest one among the numbers with 53 binary digits. -/
theorem dbl_grid (x : ℚ) : ∃ m e : ℤ, |m| ≤ 2 ^ 53 ∧ dbl x = m * (2 : ℚ) ^ e := by
  by_cases h : x = 0
  · exact ⟨0, 0, by norm_num, by simp [h, dbl]⟩
  · refine ⟨rhe (x / 2 ^ binExp x), binExp x, ?_, by unfold dbl; rw [if_neg h]⟩
    have hp : (0 : ℚ) < 2 ^ binExp x := two_pos _
    have h1 : |x / 2 ^ binExp x| < 2 ^ 53 := by
      rw [abs_div, abs_of_pos hp, div_lt_iff₀ hp]
      have h2 := Int.lt_zpow_succ_log_self (b := 2) (by norm_num) |x|
      have h3 : (2 : ℚ) ^ 53 * 2 ^ binExp x = 2 ^ (Int.log 2 |x| + 1) := by
        unfold binExp
        rw [← zpow_natCast, ← zpow_add₀ (by norm_num)]
        congr 1
        push_cast
        ring
      rw [h3]
      exact_mod_cast h2
    have h2 := rhe_near (x / 2 ^ binExp x)
    have h3 := abs_lt.mp h1
    have h4 := abs_le.mp h2
    have h5 : ((rhe (x / 2 ^ binExp x) : ℤ) : ℚ) < 2 ^ 53 + 1 := by linarith
    have h6 : -((2 : ℚ) ^ 53 + 1) < ((rhe (x / 2 ^ binExp x) : ℤ) : ℚ) := by linarith
    have h7 : rhe (x / 2 ^ binExp x) < 2 ^ 53 + 1 := by exact_mod_cast h5
    have h8 : -((2 : ℤ) ^ 53 + 1) < rhe (x / 2 ^ binExp x) := by exact_mod_cast h6
    rw [abs_le]
    constructor <;> omega

end MC.Dates
