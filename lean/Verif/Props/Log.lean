import Verif.Lemmas.Log
import Verif.Props.Floats
import Mathlib.Analysis.SpecialFunctions.Log.Base
import Mathlib.Analysis.Complex.ExponentialBounds

/-! # C87: logarithms -/

namespace MC.Props
open MC.Strings MC.Numerical MC.Numeric MC.Arrays MC.Boolean MC.Number MC.Spec MC.Floats MC.Log
open MC.Parse (Text)
set_option linter.unusedSectionVars false

section
variable {p : ℕ} {ln : ℚ → ℚ} {x : Number}

theorem log_val (hn : 0 < x.num) (hd : 0 < x.den) : Real.log x.num - Real.log x.den = Real.log x.val := by
  rw [Number.val, Rat.cast_div, Rat.cast_intCast, Rat.cast_intCast, Real.log_div]
  · exact_mod_cast hn.ne'
  · exact_mod_cast hd.ne'

theorem log_size (hn : 0 < x.num) (hd : 0 < x.den) : 0 ≤ Real.log x.num + Real.log x.den ∧
    |Real.log x.num - Real.log x.den| ≤ Real.log x.num + Real.log x.den := by
  have h1 : 0 ≤ Real.log x.num := Real.log_nonneg (by exact_mod_cast hn)
  have h2 : 0 ≤ Real.log x.den := Real.log_nonneg (by exact_mod_cast hd)
  refine ⟨by linarith, ?_⟩
  rw [abs_le]
  constructor <;> linarith

theorem mk'_real (hp : 2 ≤ p) {q : ℚ} (hq : Fits p q) :
    ∃ r, mk' p q 1 = .ok r ∧ 0 < r.den ∧ |(r.val : ℝ) - (q : ℝ)| ≤ 12 / 5 * (5 / 10 ^ p * |(q : ℝ)|) := by
  obtain ⟨r, h1, h2, h3⟩ := mk'_near hp hq
  exact ⟨r, h1, h2, per_unit (by exact_mod_cast h3)⟩

/-- **C87**: `log(x)` is the natural logarithm of `x`, up to 26 units of the last of `p` digits of the logarithms of
numerator and denominator. -/
theorem C87_natural (hp : 2 ≤ p) (hln : Rounded p ln) (hn : 0 < x.num) (hd : 0 < x.den) :
    ∃ r, log p ln x none = .ok r ∧ 0 < r.den ∧
      |(r.val : ℝ) - Real.log x.val| * 10 ^ p ≤ 26 * (Real.log x.num + Real.log x.den) := by
  obtain ⟨r, h1, h2, h3⟩ := mk'_real hp (fits_rnd (by omega) (ln x.num - ln x.den))
  refine ⟨r, ?_, h2, ?_⟩
  · unfold log
    rw [if_neg (not_le.mpr hn)]
    simp only [h1, liftErr]
  · obtain ⟨hu0, hu⟩ := unit_pos hp
    obtain ⟨hB, hX⟩ := log_size hn hd
    have := final_aux hu0 hu hB hX (by norm_num) (log_diff hp hln hn hd) h3
    rw [log_val hn hd] at this
    have hP : (0 : ℝ) < 10 ^ p := by positivity
    refine (mul_le_mul_of_nonneg_right this hP.le).trans ?_
    have e : (41 / 20 + 3) * (5 / 10 ^ p * (Real.log x.num + Real.log x.den)) * 10 ^ p
      = 101 / 4 * (Real.log x.num + Real.log x.den) := by field_simp; ring
    rw [e]
    nlinarith

/-- **C87**: the logarithm to a base, if the base is a float: see `C87_base_violation` for those that are not. -/
theorem C87_base_partial (hp : 2 ≤ p) (hln : Rounded p ln) (hn : 0 < x.num) (hd : 0 < x.den) {b : ℚ} (hb : 0 < b)
    (hb1 : b ≠ 1) :
    ∃ r, log p ln x (some b) = .ok r ∧ 0 < r.den ∧
      |(r.val : ℝ) - Real.logb b x.val| * 10 ^ p ≤ 37 * ((Real.log x.num + Real.log x.den) / |Real.log b|) := by
  obtain ⟨hu0, hu⟩ := unit_pos hp
  have hbr : (0 : ℝ) < b := by exact_mod_cast hb
  have hΛ : Real.log b ≠ 0 := by
    rw [Ne, Real.log_eq_zero]
    push Not
    exact ⟨hbr.ne', by exact_mod_cast hb1, by linarith⟩
  have hlb : |(ln b : ℝ) - Real.log b| ≤ 5 / 10 ^ p * |Real.log b| := by
    have := per_unit (hln.close b hb)
    simpa using this
  have hne : ln b ≠ 0 := by
    intro h
    rw [h, Rat.cast_zero, zero_sub, abs_neg] at hlb
    have := abs_pos.mpr hΛ
    nlinarith
  set l : ℚ := rnd p (ln x.num - ln x.den) with hl
  obtain ⟨r, h1, h2, h3⟩ := mk'_real hp (fits_rnd (by omega) (l / ln b))
  refine ⟨r, ?_, h2, ?_⟩
  · unfold log
    rw [if_neg (not_le.mpr hn)]
    simp only
    rw [if_neg (not_le.mpr hb), if_neg hne, ← hl, h1]
    rfl
  · obtain ⟨hB, hX⟩ := log_size hn hd
    have ht : |(l : ℝ) / (ln b : ℝ) - ((rnd p (l / ln b) : ℚ) : ℝ)| ≤ 5 / 10 ^ p * |(l : ℝ) / (ln b : ℝ)| := by
      have := rnd_real (p := p) (l / ln b)
      push_cast at this
      exact this
    have hq := quot_aux hu0 hu hB hX (log_diff hp hln hn hd) hΛ hlb ht
    have hXΛ : |(Real.log x.num - Real.log x.den) / Real.log b|
        ≤ (Real.log x.num + Real.log x.den) / |Real.log b| := by
      rw [abs_div]; gcongr
    have := final_aux hu0 hu (by positivity) hXΛ le_rfl hq h3
    rw [log_val hn hd] at this
    rw [Real.logb]
    have hP : (0 : ℝ) < 10 ^ p := by positivity
    refine (mul_le_mul_of_nonneg_right this hP.le).trans (le_of_eq ?_)
    field_simp
    ring

/-- **C87**: numbers that have no logarithm, and bases without logarithms, are errors. -/
theorem C87_domain (hln : Rounded p ln) (base : Option ℚ) (h : x.num ≤ 0 ∨ ∃ b, base = some b ∧ (b ≤ 0 ∨ b = 1)) :
    ∃ e, log p ln x base = .error e := by
  unfold log
  by_cases hx : x.num ≤ 0
  · rw [if_pos hx]; exact ⟨_, rfl⟩
  · obtain ⟨b, rfl, hb⟩ := h.resolve_left hx
    rw [if_neg hx]
    by_cases hb0 : b ≤ 0
    · simp only [if_pos hb0]; exact ⟨_, rfl⟩
    · have : b = 1 := hb.resolve_left hb0
      have h1 : ln b = 0 := by
        have := hln.close b (by linarith [not_le.mp hb0])
        rw [‹b = 1›, Rat.cast_one, Real.log_one, sub_zero, abs_zero, mul_zero] at this
        have hP : (0 : ℝ) < 10 ^ p := by positivity
        have h0 : |((ln 1 : ℚ) : ℝ)| ≤ 0 := by
          by_contra hc
          push Not at hc
          have := mul_pos hc hP
          linarith
        rw [‹b = 1›]
        exact_mod_cast abs_nonpos_iff.mp h0
      simp only [if_neg hb0, if_pos h1]
      exact ⟨_, rfl⟩

end

/-! ## Violations -/

theorem log_ten : 1 ≤ Real.log 10 ∧ Real.log 10 ≤ 9 := by
  constructor
  · rw [Real.le_log_iff_exp_le (by norm_num)]
    have := Real.exp_one_lt_d9
    linarith
  · have := Real.log_le_sub_one_of_pos (show (0 : ℝ) < 10 by norm_num)
    linarith

/-- A decimal number of 30 digits that is at least ten has at most 28 places. -/
theorem places {q : ℚ} (h : Fits 30 q) (hq : 10 ≤ q) : ∃ k : ℤ, q = k * (1 / 10 ^ 28) := by
  obtain ⟨m, e, rfl, hm⟩ := h
  have he : -28 ≤ e := by
    by_contra hc
    push Not at hc
    have h1 : (10 : ℚ) ^ e ≤ 10 ^ (-29 : ℤ) := zpow_le_zpow_right₀ (by norm_num) (by omega)
    have hm' : (m : ℚ) < 10 ^ 30 := by
      have : m < 10 ^ 30 := lt_of_le_of_lt (le_abs_self m) hm
      exact_mod_cast this
    have h3 : (0 : ℚ) < 10 ^ e := by positivity
    have h4 : (m : ℚ) * 10 ^ e < 10 ^ 30 * 10 ^ e := mul_lt_mul_of_pos_right hm' h3
    have h5 : (10 : ℚ) ^ 30 * 10 ^ e ≤ 10 ^ 30 * 10 ^ (-29 : ℤ) := mul_le_mul_of_nonneg_left h1 (by norm_num)
    norm_num at h5 h4
    linarith
  obtain ⟨j, hj⟩ : ∃ j : ℕ, e = -28 + j := ⟨(e + 28).toNat, by omega⟩
  refine ⟨m * 10 ^ j, ?_⟩
  rw [hj, zpow_add₀ (by norm_num), zpow_natCast]
  push_cast
  norm_num
  ring

/-- **C87**, violated: of the logarithm of a number near one no digit need be right, because it is calculated as a
difference.  With 30 digits the answer for `1 + 10^-29`, which has 30 digits, is off by at least the logarithm itself. -/
theorem C87_digits_violation {ln : ℚ → ℚ} (hln : Rounded 30 ln) :
    ∃ r, log 30 ln ⟨10 ^ 29 + 1, 10 ^ 29⟩ none = .ok r ∧
      |(r.val : ℝ) - Real.log (1 + 1 / 10 ^ 29)| ≥ |Real.log (1 + 1 / 10 ^ 29)| ∧ Real.log (1 + 1 / 10 ^ 29) ≠ 0 := by
  obtain ⟨t1, t2⟩ := log_ten
  have hx0 : 0 < Real.log (1 + 1 / 10 ^ 29) := Real.log_pos (by norm_num)
  have hx1 : Real.log (1 + 1 / 10 ^ 29) ≤ 1 / 10 ^ 29 := by
    have := Real.log_le_sub_one_of_pos (show (0 : ℝ) < 1 + 1 / 10 ^ 29 by norm_num)
    linarith
  -- both logarithms have 28 places
  have big : ∀ z : ℤ, (10 : ℤ) ^ 29 ≤ z → ∃ k : ℤ, ln z = k * (1 / 10 ^ 28) := by
    intro z hz
    have hz0 : (0 : ℚ) < (z : ℚ) := by
      have : (0 : ℤ) < z := by linarith [show (0 : ℤ) < 10 ^ 29 by norm_num]
      exact_mod_cast this
    refine places (hln.fits z hz0) ?_
    have h1 := hln.close z hz0
    have hlog : 29 ≤ Real.log z := by
      have : Real.log (10 ^ 29) ≤ Real.log z := by
        refine Real.log_le_log (by norm_num) ?_
        exact_mod_cast hz
      rw [Real.log_pow] at this
      push_cast at this
      linarith
    rw [Rat.cast_intCast, abs_of_nonneg (by linarith : (0 : ℝ) ≤ Real.log z)] at h1
    have h2 : |((ln z : ℚ) : ℝ) - Real.log z| ≤ 1 / 20 * Real.log z := by
      norm_num at h1 ⊢
      linarith
    have h3 := (abs_le.mp h2).1
    have h4 : (10 : ℝ) ≤ ((ln z : ℚ) : ℝ) := by linarith
    exact_mod_cast h4
  obtain ⟨k1, hk1⟩ := big (10 ^ 29 + 1) (by norm_num)
  obtain ⟨k2, hk2⟩ := big (10 ^ 29) le_rfl
  set l : ℚ := rnd 30 (ln ((10 ^ 29 + 1 : ℤ) : ℚ) - ln ((10 ^ 29 : ℤ) : ℚ)) with hl
  obtain ⟨r, h1, h2, h3⟩ := mk'_near (p := 30) (by norm_num) (fits_rnd (p := 30) (by norm_num)
    (ln ((10 ^ 29 + 1 : ℤ) : ℚ) - ln ((10 ^ 29 : ℤ) : ℚ)))
  rw [← hl] at h1 h3
  refine ⟨r, ?_, ?_, hx0.ne'⟩
  · unfold log
    rw [if_neg (by norm_num)]
    simp only [← hl, h1, liftErr]
  · have hlk : l = 0 ∨ 1 / 10 ^ 28 ≤ |l| := by
      rw [hl, hk1, hk2, ← sub_mul, ← Int.cast_sub]
      have hfit : Fits 30 (1 / 10 ^ 28 : ℚ) := ⟨1, -28, by norm_num, by norm_num⟩
      rcases lt_trichotomy (k1 - k2) 0 with hk | hk | hk
      · right
        have hq : ((k1 - k2 : ℤ) : ℚ) ≤ -1 := by exact_mod_cast (by omega : k1 - k2 ≤ -1)
        have := rnd_mono (p := 30) (by norm_num) (show ((k1 - k2 : ℤ) : ℚ) * (1 / 10 ^ 28) ≤ -(1 / 10 ^ 28) by nlinarith)
        rw [rnd_neg, rnd_of_fits hfit] at this
        rw [abs_of_nonpos (this.trans (by norm_num))]
        linarith
      · left; rw [hk]; simp [rnd_zero]
      · right
        have hq : (1 : ℚ) ≤ ((k1 - k2 : ℤ) : ℚ) := by exact_mod_cast (by omega : 1 ≤ k1 - k2)
        have := rnd_mono (p := 30) (by norm_num) (show (1 / 10 ^ 28 : ℚ) ≤ ((k1 - k2 : ℤ) : ℚ) * (1 / 10 ^ 28) by nlinarith)
        rw [rnd_of_fits hfit] at this
        exact this.trans (le_abs_self _)
    rw [abs_of_pos hx0, ge_iff_le]
    rcases hlk with h0 | h0
    · rw [h0, sub_zero, abs_zero, mul_zero] at h3
      have : r.val = 0 := by
        have h4 : |r.val| ≤ 0 := by
          by_contra hc
          push Not at hc
          have := mul_pos hc (show (0 : ℚ) < 10 ^ 30 by norm_num)
          linarith
        exact abs_nonpos_iff.mp h4
      rw [this, Rat.cast_zero, zero_sub, abs_neg, abs_of_pos hx0]
    · have h4 : |r.val - l| ≤ 1 / 10 * |l| := by
        have : |r.val - l| * 10 ^ 30 ≤ (1 / 10 * |l|) * 10 ^ 30 := h3.trans (by nlinarith [abs_nonneg l])
        exact le_of_mul_le_mul_right this (by norm_num)
      have h5 : 9 / 10 * (1 / 10 ^ 28) ≤ |r.val| := by
        have h6 : |l| - |r.val| ≤ |l - r.val| := abs_sub_abs_le_abs_sub l r.val
        rw [abs_sub_comm] at h6
        linarith
      have h6 : (9 / 10 * (1 / 10 ^ 28) : ℝ) ≤ |(r.val : ℝ)| := by
        have := (Rat.cast_le (K := ℝ)).mpr h5
        push_cast at this
        exact this
      have h7 : |(r.val : ℝ)| - |Real.log (1 + 1 / 10 ^ 29)| ≤ |(r.val : ℝ) - Real.log (1 + 1 / 10 ^ 29)| :=
        abs_sub_abs_le_abs_sub _ _
      rw [abs_of_pos hx0] at h7
      have h8 : (9 / 10 * (1 / 10 ^ 28) : ℝ) ≥ 2 * (1 / 10 ^ 29) := by norm_num
      linarith

/-- The double nearest to `0.1`. -/
def tenth : ℚ := 3602879701896397 / 36028797018963968

/-- **C87**, violated: the base is made a float first, so that 30 digits of precision are 17 in truth.
`log(0.1, 0.1)` is not `1`. -/
theorem C87_base_violation {ln : ℚ → ℚ} (hln : Rounded 30 ln) {F : Type} {L : Lib F}
    (hL : L.toDec (L.ofDec (1 / 10)) = some tenth) :
    ∃ r, MC.Log.answer 30 ln L [⟨1, 10⟩, ⟨1, 10⟩] = .ok r ∧ (r.val : ℝ) - 1 > 1 / 10 ^ 18 := by
  obtain ⟨t1, t2⟩ := log_ten
  have hdec : Number.toDecimal 30 ⟨1, 10⟩ = 1 / 10 := by decide +kernel
  obtain ⟨r, h1, h2, h3⟩ := C87_base_partial (p := 30) (x := ⟨1, 10⟩) (by norm_num) hln (by norm_num) (by norm_num)
    (b := tenth) (by norm_num [tenth]) (by norm_num [tenth])
  refine ⟨r, ?_, ?_⟩
  · simp only [MC.Log.answer, hdec, hL]
    exact h1
  · have hval : ((Number.val ⟨1, 10⟩ : ℚ) : ℝ) = 1 / 10 := by norm_num [Number.val]
    have hten : (((10 : ℤ) : ℝ)) = 10 := by norm_num
    have hone : (((1 : ℤ) : ℝ)) = 1 := by norm_num
    rw [hval, hten, hone, Real.log_one, zero_add] at h3
    -- the base is a little too large
    obtain ⟨ε, hε⟩ : ∃ ε : ℝ, ε = 1 / 18014398509481985 := ⟨_, rfl⟩
    have htenth : (tenth : ℝ) = 1 / 10 / (1 - ε) := by norm_num [tenth, hε]
    have hlog1 : Real.log (1 / 10) = -Real.log 10 := by rw [one_div, Real.log_inv]
    have hε0 : Real.log (1 - ε) ≤ -ε := by
      have := Real.log_le_sub_one_of_pos (show (0 : ℝ) < 1 - ε by norm_num [hε])
      linarith
    have hε1 : -(2 * ε) ≤ Real.log (1 - ε) := by
      have h4 : Real.log (1 / (1 - ε)) ≤ 1 / (1 - ε) - 1 := Real.log_le_sub_one_of_pos (by norm_num [hε])
      rw [one_div, Real.log_inv] at h4
      have h5 : (1 - ε)⁻¹ - 1 ≤ 2 * ε := by norm_num [hε]
      linarith
    have hΛ : Real.log (tenth : ℝ) = -(Real.log 10 + Real.log (1 - ε)) := by
      rw [htenth, Real.log_div (by norm_num) (by norm_num [hε]), hlog1]; ring
    obtain ⟨T, hT⟩ : ∃ T, T = Real.log 10 := ⟨_, rfl⟩
    obtain ⟨δ, hδ⟩ : ∃ δ, δ = -Real.log (1 - ε) := ⟨_, rfl⟩
    rw [← hT] at t1 t2 h3 hlog1 hΛ
    have hΛ' : Real.log (tenth : ℝ) = -(T - δ) := by rw [hΛ, hδ]; ring
    have hδ0 : ε ≤ δ := by linarith
    have hδ1 : δ ≤ 2 * ε := by linarith
    have hεs : ε ≤ 1 / 10 ^ 16 := by norm_num [hε]
    have hεp : 5 / 10 ^ 17 ≤ ε := by norm_num [hε]
    have hTδ : 9 / 10 ≤ T - δ := by linarith [show (1 / 10 ^ 16 : ℝ) ≤ 1 / 20 by norm_num]
    have hpos : 0 < T - δ := by linarith
    have hlogb : Real.logb (tenth : ℝ) (1 / 10) = T / (T - δ) := by
      rw [Real.logb, hlog1, hΛ', neg_div_neg_eq]
    rw [hlogb, hΛ', abs_neg, abs_of_pos hpos] at h3
    have hfrac : T / (T - δ) = 1 + δ / (T - δ) := by field_simp; ring
    have hlow : 5 / 10 ^ 18 ≤ δ / (T - δ) := by
      rw [le_div_iff₀ hpos]
      have : T - δ ≤ 9 := by linarith [show (0 : ℝ) < ε by norm_num [hε]]
      nlinarith
    have herr : 37 * (T / (T - δ)) ≤ 370 := by
      have : T / (T - δ) ≤ 10 := by rw [div_le_iff₀ hpos]; nlinarith
      linarith
    have h4 : |(r.val : ℝ) - T / (T - δ)| ≤ 370 / 10 ^ 30 := by
      rw [le_div_iff₀ (by norm_num)]
      exact h3.trans herr
    have h5 := (abs_le.mp h4).1
    rw [hfrac] at h5
    have h6 : (5 / 10 ^ 18 - 370 / 10 ^ 30 : ℝ) > 1 / 10 ^ 18 := by norm_num
    linarith

/-! ## Calls -/

section
variable {S U R K σ F : Type} {c : Calc S U R K} {num? : S → Option Number} {ofNum : Number → S}
  {p : ℕ} {ln : ℚ → ℚ} {L : Lib F}

theorem log_call (hc : HasNumbers c) (hn : ∀ n, c.isNumber (ofNum n) = true)
    {x : Opd S U R} {xs : List (Opd S U R)} {ws : List S} {vs : List Number}
    (h : List.Forall₂ (IsNum c) (x :: xs) ws) (hmax : xs.length ≤ 1)
    (hv : List.Forall₂ (fun w v => num? w = some v) ws vs) {u : Option U} {us : List (Option U)} {ru : Option U}
    (hu : us.length = xs.length)
    (hnorm : normalised c (opLog (σ := σ) (R := R) p ln num? ofNum L) (ws.zip ((x :: xs).map (·.unit)))
      = .ok (ws.zip (u :: us), ru)) (s : σ) :
    (∀ n, MC.Log.answer p ln L vs = .ok n →
      call c (opLog p ln num? ofNum L) (x :: xs) s
        = (.ok ⟨.sc (shownAs c ofNum ws n), u, none, none⟩, s)) ∧
    (∀ e, MC.Log.answer p ln L vs = .error e →
      ∃ e', call c (opLog p ln num? ofNum L) (x :: xs) s = (.error e', s)) := by
  rw [call_numbers (op := opLog p ln num? ofNum L) ⟨rfl, rfl, rfl, rfl⟩ hc h
    (by intro m hm; cases hm; simp) (by intro m hm; cases hm; simpa using hmax), hnorm]
  have hl := h.length_eq
  have key := numbersOf_set (xs := x :: xs) hv hl (u :: us) (by simpa [hu] using hl)
  have hfirst : ((setNumbers (List.zipWith (fun (x : Opd S U R) (w : S) => { x with value := .sc w }) (x :: xs) ws)
      (ws.zip (u :: us)))[0]?).bind (·.unit) = u := by
    cases ws with
    | nil => simp at hl
    | cons w ws => simp [setNumbers]
  constructor
  · intro n ha
    simp only [opLog, numOp, key, ha, hfirst]
    congr 2
    unfold finishResult shownAs
    cases ws.findSome? c.cast <;> simp [hn]
  · intro e ha
    simp only [opLog, numOp, key, ha]
    exact ⟨_, rfl⟩

/-- The result is a number without unit that satisfies `P`, shown in the type of the first operand that has one. -/
def IsPlainSuch (c : Calc S U R K) (ofNum : Number → S) (xs : List (Opd S U R)) (r : Opd S U R) (P : ℚ → Prop) : Prop :=
  ∃ q, IsPlain c ofNum xs r q ∧ P q

theorem log_plain (hc : HasNumbers c) (hn : ∀ n, c.isNumber (ofNum n) = true) (hl : LeavesPlain c)
    {x : Opd S U R} {xs : List (Opd S U R)} {vs : List Number} (hmax : xs.length ≤ 1)
    (h : List.Forall₂ (Reads c num?) (x :: xs) vs) (hu : ∀ y ∈ x :: xs, y.unit = none) (s : σ) :
    (∀ n, MC.Log.answer p ln L vs = .ok n →
      ∃ r, call c (opLog p ln num? ofNum L) (x :: xs) s = (.ok r, s) ∧ IsPlain c ofNum (x :: xs) r n.val) ∧
    (∀ e, MC.Log.answer p ln L vs = .error e →
      ∃ e', call c (opLog p ln num? ofNum L) (x :: xs) s = (.error e', s)) := by
  obtain ⟨ws, h1, h2⟩ := reads_split h
  have hun : ∀ q ∈ ws.zip ((x :: xs).map (·.unit)), q.2 = none := by
    intro q hq
    have := (List.of_mem_zip hq).2
    rw [List.mem_map] at this
    obtain ⟨y, hy, h⟩ := this
    rw [← h]
    exact hu y hy
  have hnorm : normalised c (opLog (σ := σ) (R := R) p ln num? ofNum L) (ws.zip ((x :: xs).map (·.unit)))
      = .ok (ws.zip (x.unit :: xs.map (·.unit)), none) := normalised_plain hl hun
  have key := log_call (p := p) (ln := ln) (L := L) hc hn h1 hmax h2 (by simp) hnorm s
  refine ⟨fun n hn => ⟨_, key.1 n hn, hu x (by simp), rfl, ws, n, h1, rfl, rfl⟩, key.2⟩

/-- **C87**: the call `log(x)` for a positive number without unit. -/
theorem C87_call_natural (hp : 2 ≤ p) (hln : Rounded p ln) (hc : HasNumbers c) (hn : ∀ n, c.isNumber (ofNum n) = true)
    (hl : LeavesPlain c) {x : Opd S U R} {v : Number} (h : Reads c num? x v) (hu : x.unit = none) (hv : 0 < v.num)
    (hd : 0 < v.den) (s : σ) :
    ∃ r, call c (opLog p ln num? ofNum L) [x] s = (.ok r, s) ∧ IsPlainSuch c ofNum [x] r (fun q =>
      |(q : ℝ) - Real.log v.val| * 10 ^ p ≤ 26 * (Real.log v.num + Real.log v.den)) := by
  obtain ⟨n, h1, _, h3⟩ := C87_natural hp hln hv hd
  obtain ⟨r, h4, h5⟩ := (log_plain (p := p) (ln := ln) (L := L) hc hn hl (xs := []) (by simp) (.cons h .nil)
    (by simpa using hu) s).1 n h1
  exact ⟨r, h4, _, h5, h3⟩

/-- **C87**: the call `log(x, b)` for positive numbers without unit, if the base `b` is a float and not one.
Missing: other bases, see `C87_base_violation`. -/
theorem C87_call_base_partial (hp : 2 ≤ p) (hln : Rounded p ln) (hc : HasNumbers c)
    (hn : ∀ n, c.isNumber (ofNum n) = true) (hl : LeavesPlain c) {x y : Opd S U R} {v w : Number} (h : Reads c num? x v)
    (h' : Reads c num? y w) (hu : x.unit = none) (hu' : y.unit = none) (hv : 0 < v.num) (hd : 0 < v.den) {b : ℚ} (hb : 0 < b)
    (hb1 : b ≠ 1) (hw : w.val = b) (hfit : Fits p b) (hf : L.toDec (L.ofDec b) = some b) (s : σ) :
    ∃ r, call c (opLog p ln num? ofNum L) [x, y] s = (.ok r, s) ∧ IsPlainSuch c ofNum [x, y] r (fun q =>
      |(q : ℝ) - Real.logb b v.val| * 10 ^ p ≤ 37 * ((Real.log v.num + Real.log v.den) / |Real.log b|)) := by
  obtain ⟨n, h1, _, h3⟩ := C87_base_partial hp hln hv hd hb hb1
  have hdec : Number.toDecimal p w = b := by
    unfold Number.toDecimal
    rw [show (w.num : ℚ) / w.den = b from hw, rnd_of_fits hfit]
  have ha : MC.Log.answer p ln L [v, w] = .ok n := by
    simp only [MC.Log.answer, hdec, hf]
    exact h1
  obtain ⟨r, h4, h5⟩ := (log_plain (p := p) (ln := ln) (L := L) hc hn hl (xs := [y]) (by simp)
    (.cons h (.cons h' .nil)) (by simp [hu, hu']) s).1 n ha
  exact ⟨r, h4, _, h5, h3⟩

/-- **C87**: numbers that have no logarithm are errors. -/
theorem C87_call_domain (hln : Rounded p ln) (hc : HasNumbers c) (hn : ∀ n, c.isNumber (ofNum n) = true)
    (hl : LeavesPlain c) {x : Opd S U R} {v : Number} (h : Reads c num? x v) (hu : x.unit = none) (hv : v.num ≤ 0) (s : σ) :
    ∃ e, call c (opLog p ln num? ofNum L) [x] s = (.error e, s) := by
  obtain ⟨e, he⟩ := C87_domain (p := p) hln none (.inl hv)
  exact (log_plain (p := p) (ln := ln) (L := L) hc hn hl (xs := []) (by simp) (.cons h .nil) (by simpa using hu) s).2 e he

/-- **C87**, violated: the logarithm of an amount with a unit is that of the number in front of the unit, and
keeps the unit.  So `log(1 metre)` is `0 metres`, but `log(100 centimetres)` is about `4.6 centimetres`.
The hypothesis on the normaliser is `C86_one_input`. -/
theorem C87_unit_violation (hc : HasNumbers c) (hn : ∀ n, c.isNumber (ofNum n) = true)
    (hone : ∀ f, c.normalise = some f → ∀ w u, f [(w, some u)] false false = .ok ([(w, some u)], some u))
    (hs : c.normalise ≠ none) {x : Opd S U R} {v : Number} (h : Reads c num? x v)
    {u : U} (hu : x.unit = some u) {n : Number} (ha : log p ln v none = .ok n) (s : σ) :
    ∃ r, call c (opLog p ln num? ofNum L) [x] s = (.ok r, s) ∧
      IsPlain c ofNum [x] { r with unit := none } n.val ∧ r.unit = some u := by
  obtain ⟨w, h1, h2⟩ := h
  have hnorm : normalised c (opLog (σ := σ) (R := R) p ln num? ofNum L) ([w].zip (([x] : List (Opd S U R)).map (·.unit)))
      = .ok ([w].zip [some u], some u) := by
    simp only [List.map_cons, List.map_nil, hu, List.zip_cons_cons, List.zip_nil_left]
    unfold normalised
    cases hf : c.normalise with
    | none => exact absurd hf hs
    | some f => exact hone f hf w u
  have := (log_call (p := p) (ln := ln) (L := L) (u := some u) (us := []) hc hn (.cons h1 .nil) (by simp)
    (.cons h2 .nil) rfl hnorm s).1 n ha
  exact ⟨_, this, ⟨rfl, rfl, [w], n, .cons h1 .nil, rfl, rfl⟩, rfl⟩

end

/-! ## There is such a logarithm -/

/-- Every real number has a decimal number of `p` digits next to it. -/
theorem rounded_real {p : ℕ} (hp : 1 ≤ p) (y : ℝ) : ∃ q : ℚ, Fits p q ∧ |(q : ℝ) - y| * 10 ^ p ≤ 5 * |y| := by
  by_cases hy : y = 0
  · exact ⟨0, ⟨0, 0, by simp, by simp⟩, by simp [hy]⟩
  have hpos : 0 < |y| := abs_pos.mpr hy
  set e : ℤ := Int.log 10 |y| + 1 - p with he
  have h10 : (0 : ℝ) < 10 ^ e := by positivity
  have hlow : (10 : ℝ) ^ (e + p - 1) ≤ |y| := by
    have := Int.zpow_log_le_self (b := 10) (by norm_num) hpos
    rw [show e + p - 1 = Int.log 10 |y| by omega]
    exact_mod_cast this
  have hhigh : |y| < (10 : ℝ) ^ (e + p) := by
    have := Int.lt_zpow_succ_log_self (b := 10) (by norm_num) |y|
    rw [show e + p = Int.log 10 |y| + 1 by omega]
    exact_mod_cast this
  set m : ℤ := round (y / 10 ^ e) with hm
  have herr : |(m : ℝ) * 10 ^ e - y| ≤ 1 / 2 * 10 ^ e := by
    have := abs_sub_round (y / 10 ^ e)
    rw [← hm] at this
    have e1 : (m : ℝ) * 10 ^ e - y = -((y / 10 ^ e - m) * 10 ^ e) := by field_simp; ring
    rw [e1, abs_neg, abs_mul, abs_of_pos h10]
    exact mul_le_mul_of_nonneg_right this h10.le
  have hmle : |m| ≤ 10 ^ p := by
    have h1 : |y / 10 ^ e| < 10 ^ p := by
      rw [abs_div, abs_of_pos h10, div_lt_iff₀ h10]
      rwa [zpow_add₀ (by norm_num), mul_comm, zpow_natCast] at hhigh
    have h2 := abs_lt.mp h1
    have h3 := abs_le.mp (abs_sub_round (y / 10 ^ e))
    rw [← hm] at h3
    have h4 : (m : ℝ) < ((10 ^ p + 1 : ℤ) : ℝ) := by push_cast; linarith
    have h5 : ((-(10 ^ p + 1) : ℤ) : ℝ) < (m : ℝ) := by push_cast; linarith
    have h6 : m < 10 ^ p + 1 := by exact_mod_cast h4
    have h7 : -(10 ^ p + 1) < m := by exact_mod_cast h5
    rw [abs_le]
    constructor <;> linarith
  refine ⟨m * 10 ^ e, ?_, ?_⟩
  · rcases lt_or_eq_of_le hmle with h | h
    · exact ⟨m, e, rfl, h⟩
    · have hone : |(1 : ℤ)| < 10 ^ p := by
        rw [abs_one]; exact one_lt_pow₀ (by norm_num) (by omega)
      rcases (abs_eq (by positivity)).mp h with h | h
      · refine ⟨1, p + e, ?_, hone⟩
        rw [h, zpow_add₀ (by norm_num), zpow_natCast]; push_cast; ring
      · refine ⟨-1, p + e, ?_, by rwa [abs_neg]⟩
        rw [h, zpow_add₀ (by norm_num), zpow_natCast]; push_cast; ring
  · push_cast
    have hP : (0 : ℝ) < 10 ^ p := by positivity
    have h1 : (10 : ℝ) ^ (e + p - 1) = 10 ^ e * 10 ^ p / 10 := by
      rw [zpow_sub₀ (by norm_num), zpow_add₀ (by norm_num), zpow_natCast, zpow_one]
    rw [h1] at hlow
    have h2 := mul_le_mul_of_nonneg_right herr hP.le
    nlinarith

/-- Correctly rounded logarithms exist: what is assumed of `Decimal.ln` can be met. -/
theorem rounded_exists {p : ℕ} (hp : 1 ≤ p) : ∃ ln, Rounded p ln := by
  choose f hf1 hf2 using rounded_real hp
  exact ⟨fun q => f (Real.log q), fun q _ => hf1 _, fun q _ => hf2 _⟩

/-- `log(5/2)`. -/
example : ∃ ln, Rounded 30 ln ∧ ∃ r, call arrCalc (opLog (σ := ℕ) 30 ln AS.num? (fun n => .n n none) sumLib) [fracV 5 2 none] 0
      = (.ok r, 0) ∧ IsPlainSuch arrCalc (fun n => .n n none) [fracV 5 2 none] r (fun q =>
        |(q : ℝ) - Real.log (Number.val ⟨5, 2⟩)| * 10 ^ 30 ≤ 26 * (Real.log (5 : ℤ) + Real.log (2 : ℤ))) := by
  obtain ⟨ln, hln⟩ := rounded_exists (p := 30) (by norm_num)
  exact ⟨ln, hln, C87_call_natural (p := 30) (σ := ℕ) (L := sumLib) (ofNum := fun n => .n n none) (num? := AS.num?) (by norm_num) hln
    arrCalc_numbers (fun _ => rfl) arrCalc_plain (v := ⟨5, 2⟩) ⟨_, ⟨_, rfl, rfl, rfl⟩, rfl⟩ rfl (by norm_num) (by norm_num) 0⟩

/-- `log(8, 2)`. -/
example : ∃ ln, Rounded 30 ln ∧ ∃ r, call arrCalc (opLog (σ := ℕ) 30 ln AS.num? (fun n => .n n none) sumLib) [numV 8, numV 2] 0
      = (.ok r, 0) ∧ IsPlainSuch arrCalc (fun n => .n n none) [numV 8, numV 2] r (fun q =>
        |(q : ℝ) - Real.logb (2 : ℚ) (Number.val ⟨8, 1⟩)| * 10 ^ 30
          ≤ 37 * ((Real.log (8 : ℤ) + Real.log (1 : ℤ)) / |Real.log (2 : ℚ)|)) := by
  obtain ⟨ln, hln⟩ := rounded_exists (p := 30) (by norm_num)
  exact ⟨ln, hln, C87_call_base_partial (p := 30) (σ := ℕ) (L := sumLib) (ofNum := fun n => .n n none) (num? := AS.num?) (by norm_num) hln
    arrCalc_numbers (fun _ => rfl) arrCalc_plain (v := ⟨8, 1⟩) (w := ⟨2, 1⟩) ⟨_, isNum_numV 8, rfl⟩ ⟨_, isNum_numV 2, rfl⟩ rfl rfl
    (by norm_num) (by norm_num) (b := 2) (by norm_num) (by norm_num) (by norm_num [Number.val])
    ⟨2, 0, by norm_num, by norm_num⟩ rfl 0⟩

end MC.Props
