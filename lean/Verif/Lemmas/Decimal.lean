import Verif.Model.Decimal
import Mathlib.Tactic.Linarith
import Mathlib.Tactic.Ring
import Mathlib.Tactic.FieldSimp
import Mathlib.Tactic.NormNum
import Mathlib.Tactic.Positivity
import Mathlib.Tactic.Push
import Mathlib.Algebra.Order.Field.Power

/-! Lemmas on decimal rounding. -/

namespace MC

theorem rhu_zero : rhu 0 = 0 := by unfold rhu; norm_num

theorem rhu_neg (x : ℚ) : rhu (-x) = -rhu x := by
  unfold rhu
  rcases lt_trichotomy x 0 with h | h | h
  · rw [if_pos (by linarith), if_neg (by linarith)]; simp
  · subst h; norm_num
  · rw [if_neg (by linarith), if_pos (by linarith)]; simp

theorem rhu_intCast (n : ℤ) : rhu (n : ℚ) = n := by
  unfold rhu
  have hf : ∀ m : ℤ, ⌊(m : ℚ) + 1/2⌋ = m := by
    intro m; rw [Int.floor_intCast_add]; norm_num
  split
  · exact hf n
  · have := hf (-n); push_cast at this; rw [this]; simp

theorem rhu_nonneg {x : ℚ} (h : 0 ≤ x) : 0 ≤ rhu x := by
  unfold rhu; rw [if_pos h]; exact Int.floor_nonneg.mpr (by linarith)

theorem rhu_abs_sub_le (x : ℚ) : |x - (rhu x : ℚ)| ≤ 1/2 := by
  have key : ∀ y : ℚ, |y - (⌊y + 1/2⌋ : ℚ)| ≤ 1/2 := by
    intro y
    have h1 := Int.floor_le (y + 1/2)
    have h2 := Int.lt_floor_add_one (y + 1/2)
    rw [abs_le]; constructor <;> linarith
  unfold rhu
  split
  · exact key x
  · have := key (-x)
    push_cast
    rw [← abs_neg]
    convert this using 2
    ring

theorem rhu_mono {x y : ℚ} (h : x ≤ y) : rhu x ≤ rhu y := by
  unfold rhu
  split <;> split
  · exact Int.floor_mono (by linarith)
  · linarith
  · have h1 : 0 ≤ ⌊-x + 1/2⌋ := Int.floor_nonneg.mpr (by linarith)
    have h2 : 0 ≤ ⌊y + 1/2⌋ := Int.floor_nonneg.mpr (by linarith)
    linarith
  · have : ⌊-y + 1/2⌋ ≤ ⌊-x + 1/2⌋ := Int.floor_mono (by linarith)
    linarith

theorem rhu_pos {x : ℚ} (h : 1/2 ≤ x) : 1 ≤ rhu x := by
  unfold rhu; rw [if_pos (by linarith)]
  exact Int.le_floor.mpr (by push_cast; linarith)

/-- Ties go away from zero. -/
theorem rhu_tie (n : ℕ) : rhu ((n : ℚ) + 1/2) = n + 1 := by
  unfold rhu; rw [if_pos (by positivity)]
  have : ((n:ℚ) + 1/2 + 1/2) = ((n + 1 : ℤ) : ℚ) := by push_cast; ring
  rw [this, Int.floor_intCast]

theorem rhu_eq_zero_iff (x : ℚ) : rhu x = 0 ↔ |x| < 1/2 := by
  constructor
  · intro h
    by_contra hc
    push Not at hc
    rcases le_total 0 x with h0 | h0
    · rw [abs_of_nonneg h0] at hc
      have := rhu_pos hc; omega
    · rw [abs_of_nonpos h0] at hc
      have := rhu_pos hc; rw [rhu_neg] at this; omega
  · intro h
    rw [abs_lt] at h
    unfold rhu
    split
    · rw [Int.floor_eq_zero_iff]; constructor <;> linarith
    · have : ⌊-x + 1/2⌋ = 0 := by
        rw [Int.floor_eq_zero_iff]; constructor <;> linarith
      rw [this]; rfl

/-! ### powers of ten -/

theorem ten_pos (e : ℤ) : (0:ℚ) < 10 ^ e := by positivity
theorem ten_ne (e : ℤ) : (10:ℚ) ^ e ≠ 0 := (ten_pos e).ne'

theorem log_bounds {x : ℚ} (hx : x ≠ 0) :
    (10:ℚ) ^ Int.log 10 |x| ≤ |x| ∧ |x| < (10:ℚ) ^ (Int.log 10 |x| + 1) := by
  have hp : 0 < |x| := abs_pos.mpr hx
  have h1 := Int.zpow_log_le_self (R := ℚ) (b := 10) (by norm_num) hp
  have h2 := Int.lt_zpow_succ_log_self (R := ℚ) (b := 10) (by norm_num) |x|
  exact ⟨by exact_mod_cast h1, by exact_mod_cast h2⟩

theorem log_eq_of_bounds {x : ℚ} {k : ℤ} (h1 : (10:ℚ) ^ k ≤ |x|) (h2 : |x| < (10:ℚ) ^ (k+1)) :
    Int.log 10 |x| = k := by
  have hx : x ≠ 0 := by
    intro h; subst h; simp at h1; exact absurd h1 (not_le.mpr (ten_pos k))
  obtain ⟨h3, h4⟩ := log_bounds hx
  have a : k < Int.log 10 |x| + 1 := by
    have := lt_of_le_of_lt h1 h4
    exact (zpow_lt_zpow_iff_right₀ (by norm_num)).mp this
  have b : Int.log 10 |x| < k + 1 := by
    have := lt_of_le_of_lt h3 h2
    exact (zpow_lt_zpow_iff_right₀ (by norm_num)).mp this
  omega

theorem lastExp_neg (p : ℕ) (x : ℚ) : lastExp p (-x) = lastExp p x := by
  unfold lastExp; rw [abs_neg]

theorem rnd_zero (p : ℕ) : rnd p 0 = 0 := by unfold rnd; simp

theorem rnd_neg (p : ℕ) (x : ℚ) : rnd p (-x) = -rnd p x := by
  unfold rnd
  by_cases h : x = 0
  · simp [h]
  · rw [if_neg (by simpa using h), if_neg h, lastExp_neg, neg_div, rhu_neg]
    push_cast; ring

/-- The rounding error is at most half a unit of the last kept digit. -/
theorem rnd_error (p : ℕ) (x : ℚ) : |x - rnd p x| ≤ 1/2 * 10 ^ lastExp p x := by
  unfold rnd
  split
  · rename_i h; subst h; simp; positivity
  · have hne := ten_ne (lastExp p x)
    have hp := ten_pos (lastExp p x)
    have h := rhu_abs_sub_le (x / 10 ^ lastExp p x)
    have e : x - (rhu (x / 10 ^ lastExp p x) : ℚ) * 10 ^ lastExp p x
        = (x / 10 ^ lastExp p x - (rhu (x / 10 ^ lastExp p x) : ℚ)) * 10 ^ lastExp p x := by
      field_simp
    rw [e, abs_mul, abs_of_pos hp]
    exact mul_le_mul_of_nonneg_right h hp.le

/-- `x` can be written with at most `p` significant digits. -/
def Fits (p : ℕ) (x : ℚ) : Prop := ∃ (m e : ℤ), x = m * 10 ^ e ∧ |m| < 10 ^ p

theorem Fits.neg {p : ℕ} {x : ℚ} (h : Fits p x) : Fits p (-x) := by
  obtain ⟨m, e, rfl, hm⟩ := h
  exact ⟨-m, e, by push_cast; ring, by rwa [abs_neg]⟩

/-- A value with at most `p` significant digits is not changed by rounding. -/
theorem rnd_of_fits {p : ℕ} {x : ℚ} (h : Fits p x) : rnd p x = x := by
  obtain ⟨m, e, hx, hm⟩ := h
  unfold rnd
  by_cases h0 : x = 0
  · simp [h0]
  rw [if_neg h0]
  obtain ⟨h1, _⟩ := log_bounds h0
  have hmq : |(m:ℚ)| < 10 ^ p := by exact_mod_cast hm
  have hlt : |x| < (10:ℚ) ^ ((p:ℤ) + e) := by
    rw [hx, abs_mul, abs_of_pos (ten_pos e), zpow_add₀ (by norm_num), zpow_natCast]
    exact mul_lt_mul_of_pos_right hmq (ten_pos e)
  have hle : Int.log 10 |x| < p + e :=
    (zpow_lt_zpow_iff_right₀ (a := (10:ℚ)) (by norm_num)).mp (lt_of_le_of_lt h1 hlt)
  have hk : lastExp p x ≤ e := by unfold lastExp; omega
  obtain ⟨k, hk⟩ : ∃ k : ℕ, e = lastExp p x + k := ⟨(e - lastExp p x).toNat, by omega⟩
  have : x / 10 ^ lastExp p x = ((m * 10 ^ k : ℤ) : ℚ) := by
    rw [div_eq_iff (ten_ne _)]
    generalize lastExp p x = l at hk
    rw [hx, hk, zpow_add₀ (by norm_num), zpow_natCast]; push_cast; ring
  rw [this, rhu_intCast, ← this]
  field_simp

theorem fits_int {p : ℕ} {n : ℤ} (h : |n| < 10 ^ p) : Fits p (n : ℚ) := ⟨n, 0, by simp, h⟩

theorem rnd_int {p : ℕ} {n : ℤ} (h : |n| < 10 ^ p) : rnd p (n : ℚ) = n :=
  rnd_of_fits (fits_int h)

theorem lastExp_eq_of_bounds (p : ℕ) {x : ℚ} {k : ℤ} (h1 : (10:ℚ) ^ k ≤ |x|)
    (h2 : |x| < (10:ℚ) ^ (k+1)) : lastExp p x = k + 1 - p := by
  unfold lastExp; rw [log_eq_of_bounds h1 h2]

/-- The scaled coefficient lies between `10^(p-1)` and `10^p`. -/
theorem scaled_bounds (p : ℕ) {x : ℚ} (hx : x ≠ 0) :
    (10:ℚ) ^ ((p:ℤ) - 1) ≤ |x / 10 ^ lastExp p x| ∧ |x / 10 ^ lastExp p x| < 10 ^ (p:ℤ) := by
  obtain ⟨h1, h2⟩ := log_bounds hx
  rw [abs_div, abs_of_pos (ten_pos _), le_div_iff₀ (ten_pos _), div_lt_iff₀ (ten_pos _),
    ← zpow_add₀ (by norm_num), ← zpow_add₀ (by norm_num)]
  unfold lastExp
  constructor
  · rw [show (p:ℤ) - 1 + (Int.log 10 |x| + 1 - p) = Int.log 10 |x| by ring]; exact h1
  · rw [show (p:ℤ) + (Int.log 10 |x| + 1 - p) = Int.log 10 |x| + 1 by ring]; exact h2

/-- Results of rounding have at most `p` significant digits. -/
theorem fits_rnd {p : ℕ} (hp : 1 ≤ p) (x : ℚ) : Fits p (rnd p x) := by
  by_cases hx : x = 0
  · subst hx; rw [rnd_zero]; exact ⟨0, 0, by simp, by simp⟩
  obtain ⟨_, h2⟩ := scaled_bounds p hx
  unfold rnd; rw [if_neg hx]
  set y := x / 10 ^ lastExp p x
  have hle : |rhu y| ≤ 10 ^ p := by
    have hb : |y| ≤ ((10 ^ p : ℤ) : ℚ) := by push_cast; exact_mod_cast h2.le
    rw [abs_le] at hb ⊢
    constructor
    · have := rhu_mono hb.1
      rw [show -((10 ^ p : ℤ) : ℚ) = ((-(10 ^ p) : ℤ) : ℚ) by push_cast; rfl, rhu_intCast] at this
      exact this
    · have := rhu_mono hb.2
      rw [rhu_intCast] at this; exact this
  rcases lt_or_eq_of_le hle with h | h
  · exact ⟨rhu y, lastExp p x, rfl, h⟩
  · obtain ⟨q, rfl⟩ : ∃ q, p = q + 1 := ⟨p - 1, by omega⟩
    have hs : rhu y = 10 ^ (q+1) ∨ rhu y = -10 ^ (q+1) := by
      rcases abs_eq (by positivity : (0:ℤ) ≤ 10 ^ (q+1)) |>.mp h with h | h
      · exact Or.inl h
      · exact Or.inr h
    have hlt : (10:ℤ) ^ q < 10 ^ (q+1) := by
      exact pow_lt_pow_right₀ (by norm_num) (by omega)
    rcases hs with hs | hs
    · refine ⟨10 ^ q, lastExp (q+1) x + 1, ?_, by rw [abs_of_pos (by positivity)]; exact hlt⟩
      rw [hs, zpow_add₀ (by norm_num)]; push_cast; ring
    · refine ⟨-10 ^ q, lastExp (q+1) x + 1, ?_, by
        rw [abs_neg, abs_of_pos (by positivity)]; exact hlt⟩
      rw [hs, zpow_add₀ (by norm_num)]; push_cast; ring

theorem rnd_idem {p : ℕ} (hp : 1 ≤ p) (x : ℚ) : rnd p (rnd p x) = rnd p x :=
  rnd_of_fits (fits_rnd hp x)

theorem rnd_nonneg (p : ℕ) {x : ℚ} (h : 0 ≤ x) : 0 ≤ rnd p x := by
  unfold rnd; split
  · exact le_refl _
  · have := rhu_nonneg (x := x / 10 ^ lastExp p x) (by positivity)
    have h2 : (0:ℚ) ≤ (rhu (x / 10 ^ lastExp p x) : ℚ) := by exact_mod_cast this
    positivity

/-- Rounded positive values lie between the two enclosing powers of ten. -/
theorem rnd_pow_bounds {p : ℕ} (hp : 1 ≤ p) {x : ℚ} (hx : 0 < x) :
    (10:ℚ) ^ Int.log 10 |x| ≤ rnd p x ∧ rnd p x ≤ 10 ^ (Int.log 10 |x| + 1) := by
  have hx' : x ≠ 0 := hx.ne'
  obtain ⟨h1, h2⟩ := scaled_bounds p hx'
  have hpos : 0 ≤ x / 10 ^ lastExp p x := by positivity
  rw [abs_of_nonneg hpos] at h1 h2
  obtain ⟨q, rfl⟩ : ∃ q, p = q + 1 := ⟨p - 1, by omega⟩
  have e1 : (10:ℚ) ^ (((q+1:ℕ):ℤ) - 1) = ((10 ^ q : ℤ) : ℚ) := by push_cast; simp
  have e2 : (10:ℚ) ^ (((q+1:ℕ):ℤ)) = ((10 ^ (q+1) : ℤ) : ℚ) := by push_cast; exact_mod_cast rfl
  have r1 := rhu_mono h1
  have r2 := rhu_mono h2.le
  rw [e1, rhu_intCast] at r1
  rw [e2, rhu_intCast] at r2
  have hrnd : rnd (q+1) x = (rhu (x / 10 ^ lastExp (q+1) x) : ℚ) * 10 ^ lastExp (q+1) x := by
    unfold rnd; rw [if_neg hx']
  rw [hrnd]
  have r1' : ((10 ^ q : ℤ) : ℚ) ≤ (rhu (x / 10 ^ lastExp (q+1) x) : ℚ) := by exact_mod_cast r1
  have r2' : (rhu (x / 10 ^ lastExp (q+1) x) : ℚ) ≤ ((10 ^ (q+1) : ℤ) : ℚ) := by exact_mod_cast r2
  rw [← e1] at r1'; rw [← e2] at r2'
  constructor
  · calc (10:ℚ) ^ Int.log 10 |x| = 10 ^ (((q+1:ℕ):ℤ) - 1) * 10 ^ lastExp (q+1) x := by
          rw [← zpow_add₀ (by norm_num)]; congr 1; unfold lastExp; ring
      _ ≤ _ := mul_le_mul_of_nonneg_right r1' (ten_pos _).le
  · calc _ ≤ (10:ℚ) ^ (((q+1:ℕ):ℤ)) * 10 ^ lastExp (q+1) x :=
          mul_le_mul_of_nonneg_right r2' (ten_pos _).le
      _ = _ := by rw [← zpow_add₀ (by norm_num)]; congr 1; unfold lastExp; ring

theorem rnd_pos {p : ℕ} (hp : 1 ≤ p) {x : ℚ} (hx : 0 < x) : 0 < rnd p x :=
  lt_of_lt_of_le (ten_pos _) (rnd_pow_bounds hp hx).1

theorem rnd_neg_of_neg {p : ℕ} (hp : 1 ≤ p) {x : ℚ} (hx : x < 0) : rnd p x < 0 := by
  have := rnd_pos hp (x := -x) (by linarith)
  rw [rnd_neg] at this; linarith

theorem rnd_eq_zero_iff {p : ℕ} (hp : 1 ≤ p) (x : ℚ) : rnd p x = 0 ↔ x = 0 := by
  constructor
  · intro h
    rcases lt_trichotomy x 0 with hx | hx | hx
    · have := rnd_neg_of_neg hp hx; linarith
    · exact hx
    · have := rnd_pos hp hx; linarith
  · rintro rfl; exact rnd_zero p

theorem rnd_mono_pos {p : ℕ} (hp : 1 ≤ p) {x y : ℚ} (hx : 0 < x) (h : x ≤ y) :
    rnd p x ≤ rnd p y := by
  have hy : 0 < y := lt_of_lt_of_le hx h
  have hl : Int.log 10 |x| ≤ Int.log 10 |y| := by
    rw [abs_of_pos hx, abs_of_pos hy]; exact Int.log_mono_right hx h
  rcases lt_or_eq_of_le hl with hl | hl
  · calc rnd p x ≤ 10 ^ (Int.log 10 |x| + 1) := (rnd_pow_bounds hp hx).2
      _ ≤ 10 ^ Int.log 10 |y| := zpow_le_zpow_right₀ (by norm_num) (by omega)
      _ ≤ rnd p y := (rnd_pow_bounds hp hy).1
  · have he : lastExp p x = lastExp p y := by unfold lastExp; rw [hl]
    unfold rnd
    rw [if_neg hx.ne', if_neg hy.ne', he]
    have : rhu (x / 10 ^ lastExp p y) ≤ rhu (y / 10 ^ lastExp p y) :=
      rhu_mono (div_le_div_of_nonneg_right h (ten_pos _).le)
    exact mul_le_mul_of_nonneg_right (by exact_mod_cast this) (ten_pos _).le

/-- Rounding never reverses the order. -/
theorem rnd_mono {p : ℕ} (hp : 1 ≤ p) {x y : ℚ} (h : x ≤ y) : rnd p x ≤ rnd p y := by
  rcases lt_or_ge 0 x with hx | hx
  · exact rnd_mono_pos hp hx h
  · rcases lt_or_ge y 0 with hy | hy
    · have := rnd_mono_pos hp (x := -y) (y := -x) (by linarith) (by linarith)
      rw [rnd_neg, rnd_neg] at this; linarith
    · have h1 : rnd p x ≤ 0 := by
        have := rnd_nonneg p (x := -x) (by linarith)
        rw [rnd_neg] at this; linarith
      exact le_trans h1 (rnd_nonneg p hy)

/-- Rounding an integer gives an integer. -/
theorem rnd_intCast_isInt (p : ℕ) (n : ℤ) : ∃ m : ℤ, rnd p (n:ℚ) = m := by
  by_cases h : |n| < 10 ^ p
  · exact ⟨n, rnd_int h⟩
  · push Not at h
    have hn : (n:ℚ) ≠ 0 := by
      intro h0
      have : n = 0 := by exact_mod_cast h0
      subst this
      have : (0:ℤ) < 10 ^ p := by positivity
      simp at h; omega
    have hlog : (p:ℤ) ≤ Int.log 10 |(n:ℚ)| := by
      have h2 := (log_bounds hn).2
      have : (10:ℚ) ^ (p:ℤ) ≤ |(n:ℚ)| := by rw [zpow_natCast]; exact_mod_cast h
      have := (zpow_lt_zpow_iff_right₀ (a := (10:ℚ)) (by norm_num)).mp (lt_of_le_of_lt this h2)
      omega
    unfold rnd; rw [if_neg hn]
    obtain ⟨k, hk⟩ : ∃ k : ℕ, lastExp p (n:ℚ) = k :=
      ⟨(lastExp p (n:ℚ)).toNat, by unfold lastExp; omega⟩
    refine ⟨rhu ((n:ℚ) / 10 ^ lastExp p (n:ℚ)) * 10 ^ k, ?_⟩
    push_cast; rw [hk, zpow_natCast]

theorem isInt_iff (x : ℚ) : isInt x = true ↔ ∃ n : ℤ, x = n := by
  unfold isInt
  rw [beq_iff_eq]
  constructor
  · intro h; exact ⟨x.num, ((Rat.den_eq_one_iff x).mp h).symm⟩
  · rintro ⟨n, rfl⟩; simp

theorem isInt_intCast (n : ℤ) : isInt (n:ℚ) = true := (isInt_iff _).mpr ⟨n, rfl⟩

theorem truncQ_intCast (n : ℤ) : truncQ (n:ℚ) = n := by
  unfold truncQ; split
  · simp
  · rw [show -(n:ℚ) = ((-n:ℤ):ℚ) by push_cast; rfl, Int.floor_intCast]; simp

end MC
