import Verif.Model.Log
import Verif.Lemmas.Number2
import Mathlib.Analysis.SpecialFunctions.Log.Basic

/-! # Lemmas for logarithms -/

namespace MC.Number
open MC

theorem near_aux {u Q X : ℚ} (hu0 : 0 < u) (hu : u ≤ 1 / 20) (hQ : 0 < Q) (hup : X ≤ (1 + u) ^ 2 * Q)
    (hlow : (1 - u) ^ 2 * Q ≤ X) : |Q - X| ≤ 12 / 5 * u * X := by
  have k0 : (9025 / 10000 : ℚ) ≤ (1 - u) ^ 2 := by nlinarith
  have k1 : 9025 / 10000 * Q ≤ X := (mul_le_mul_of_nonneg_right k0 hQ.le).trans hlow
  have k2 : u * (9025 / 10000 * Q) ≤ u * X := mul_le_mul_of_nonneg_left k1 hu0.le
  have k3 : u * u * Q ≤ 1 / 20 * (u * Q) := by
    have : u * u ≤ 1 / 20 * u := mul_le_mul_of_nonneg_right hu hu0.le
    nlinarith
  have k4 : 0 ≤ u * u * Q := by positivity
  have e1 : (1 + u) ^ 2 * Q = Q + 2 * (u * Q) + u * u * Q := by ring
  have e2 : (1 - u) ^ 2 * Q = Q - 2 * (u * Q) + u * u * Q := by ring
  rw [e1] at hup
  rw [e2] at hlow
  have e3 : 12 / 5 * u * X = 12 / 5 * (u * X) := by ring
  rw [abs_le, e3]
  constructor <;> linarith

/-- A decimal number of `p` digits becomes a fraction that differs from it by rounding only. -/
theorem mk'_near {p : ℕ} (hp : 2 ≤ p) {q : ℚ} (hq : Fits p q) :
    ∃ r, mk' p q 1 = .ok r ∧ 0 < r.den ∧ |r.val - q| * 10 ^ p ≤ 12 * |q| := by
  obtain ⟨r, hr⟩ := mk'_ok_iff (p := p) (n := q) (d := 1).mpr one_ne_zero
  refine ⟨r, hr, mk'_den_pos (by omega) hr, ?_⟩
  by_cases hi : q.den = 1
  · -- a whole number
    have h1 : r = ⟨q.num, q.den⟩ := by
      have := mk'_lit (p := p) q (by rw [hi]; exact_mod_cast Nat.one_lt_pow (by omega) (by norm_num))
      rw [hr] at this
      exact Except.ok.inj this
    have : r.val = q := by rw [h1, val]; exact Rat.num_div_den q
    rw [this]; simp
  · have hnum : |q.num| < 10 ^ p := by
      obtain ⟨m, e, hme, hm⟩ := hq
      have he : e < 0 := by
        by_contra h
        push Not at h
        obtain ⟨k, rfl⟩ := Int.eq_ofNat_of_zero_le h
        apply hi
        have : q = ((m * 10 ^ k : ℤ) : ℚ) := by rw [hme]; push_cast; simp
        rw [this]; exact Rat.den_intCast _
      obtain ⟨k, rfl⟩ : ∃ k : ℕ, e = -(k : ℤ) := ⟨(-e).toNat, by omega⟩
      have hq' : q = (m : ℚ) / ((10 ^ k : ℤ) : ℚ) := by rw [hme, zpow_neg, zpow_natCast]; push_cast; rfl
      have hdvd : q.num ∣ m := by
        rw [hq', ← Rat.divInt_eq_div]
        exact Rat.num_dvd (b := 10 ^ k) m (pow_ne_zero k (by norm_num))
      by_cases hm0 : m = 0
      · rw [hme, hm0]; simp
      · have := Int.le_of_dvd (abs_pos.mpr hm0) ((abs_dvd_abs _ _).mpr hdvd)
        omega
    have hden : (0 : ℚ) < q.den := by exact_mod_cast q.den_pos
    have hP : (100 : ℚ) ≤ 10 ^ p := by
      calc (100 : ℚ) = 10 ^ 2 := by norm_num
        _ ≤ 10 ^ p := pow_le_pow_right₀ (by norm_num) hp
    obtain ⟨D, hD⟩ := rnd_intCast_isInt p (q.den : ℤ)
    have hD1 : rnd p (1 * (q.den : ℚ)) = (D : ℚ) := by rw [one_mul, ← hD]; push_cast; rfl
    have hDpos : (0 : ℚ) < D := by rw [← hD1, one_mul]; exact rnd_pos (by omega) hden
    have hDpos' : 0 < D := by exact_mod_cast hDpos
    have herr1 : |(q.den : ℚ) - D| * 10 ^ p ≤ 5 * q.den := by
      have := rnd_rel_error p (q.den : ℚ)
      rw [← one_mul (q.den : ℚ), hD1, one_mul, abs_of_pos hden] at this
      exact this
    -- run the constructor
    unfold mk' at hr
    rw [if_neg one_ne_zero] at hr
    have hb1 : (q.den == 1) = false := by simpa using hi
    have hb2 : ((D : ℚ).den == 1) = true := by simp
    simp only [isInt, hD1, hb1, hb2, Bool.false_eq_true, if_false, if_true, if_neg (not_lt.mpr hDpos.le),
      truncQ_intCast] at hr
    set g : ℕ := Int.gcd q.num D with hg
    have hgpos : 0 < g := Int.gcd_pos_of_ne_zero_right _ hDpos'.ne'
    obtain ⟨a, ha⟩ : (g : ℤ) ∣ q.num := Int.gcd_dvd_left ..
    obtain ⟨b, hb⟩ : (g : ℤ) ∣ D := Int.gcd_dvd_right ..
    have hgq : (0 : ℚ) < g := by exact_mod_cast hgpos
    have haq : (q.num : ℚ) / g = (a : ℚ) := by rw [ha]; push_cast; field_simp
    have hbq : (D : ℚ) / g = (b : ℚ) := by rw [hb]; push_cast; field_simp
    have hapos : |a| < 10 ^ p := by
      rw [ha, abs_mul] at hnum
      have h1 : (1 : ℤ) ≤ |(g : ℤ)| := by rw [abs_of_nonneg (by positivity)]; exact_mod_cast hgpos
      nlinarith [abs_nonneg a]
    have hbpos : (0 : ℚ) < b := by rw [← hbq]; positivity
    obtain ⟨B, hB⟩ := rnd_intCast_isInt p b
    have hBpos : (0 : ℚ) < B := by rw [← hB]; exact rnd_pos (by omega) hbpos
    have herr2 : |(b : ℚ) - B| * 10 ^ p ≤ 5 * b := by
      have := rnd_rel_error p (b : ℚ)
      rwa [hB, abs_of_pos hbpos] at this
    have hr' : ∃ B' : ℤ, r = ⟨a, B'⟩ ∧ (0 : ℚ) < B' ∧ |(b : ℚ) - B'| * 10 ^ p ≤ 5 * b := by
      by_cases hg1 : 1 < g
      · rw [if_pos hg1, if_pos hg1, haq, hbq, rnd_int hapos, hB] at hr
        simp only [rhu_intCast, Except.ok.injEq] at hr
        exact ⟨B, hr.symm, hBpos, herr2⟩
      · have : g = 1 := by omega
        rw [if_neg hg1, if_neg hg1] at hr
        simp only [rhu_intCast, Except.ok.injEq] at hr
        rw [this] at ha hb
        simp only [Nat.cast_one, one_mul] at ha hb
        refine ⟨b, ?_, hbpos, ?_⟩
        · rw [← hr, ha, hb]
        · rw [sub_self, abs_zero, zero_mul]; positivity
    obtain ⟨B', rfl, hB', herr3⟩ := hr'
    have hqa : q = (g : ℚ) * a / q.den := by
      have : (q.num : ℚ) = g * a := by rw [ha]; push_cast; rfl
      rw [← this, Rat.num_div_den]
    have hDb : (D : ℚ) = g * b := by rw [hb]; push_cast; rfl
    rw [hDb] at herr1
    show |(a : ℚ) / B' - q| * 10 ^ p ≤ 12 * |q|
    set P : ℚ := 10 ^ p with hPdef
    have hP0 : 0 < P := by positivity
    -- relative errors of the denominators
    have h1 := abs_le.mp (show |((q.den : ℚ) - g * b)| ≤ 5 * q.den / P by rw [le_div_iff₀ hP0]; exact herr1)
    have h3 := abs_le.mp (show |((b : ℚ) - B')| ≤ 5 * b / P by rw [le_div_iff₀ hP0]; exact herr3)
    have hu : (5 : ℚ) / P ≤ 1 / 20 := by rw [div_le_div_iff₀ hP0 (by norm_num)]; linarith
    set u : ℚ := 5 / P with hudef
    have hu0 : 0 < u := by positivity
    have e1 : 5 * (q.den : ℚ) / P = u * q.den := by rw [hudef]; ring
    have e3 : 5 * (b : ℚ) / P = u * b := by rw [hudef]; ring
    rw [e1] at h1; rw [e3] at h3
    have hgb : (0 : ℚ) < g * b := by positivity
    have hden2 : (g : ℚ) * B' ≤ (1 + u) * (g * b) := by nlinarith [h3.1]
    have hden3 : (1 - u) * (g * b) ≤ (g : ℚ) * B' := by nlinarith [h3.2]
    have hup : (g : ℚ) * B' ≤ (1 + u) ^ 2 * q.den := by nlinarith [h1.1]
    have hlow : (1 - u) ^ 2 * q.den ≤ (g : ℚ) * B' := by nlinarith [h1.2]
    have hgB : (0 : ℚ) < g * B' := by positivity
    have e : (a : ℚ) / B' - q = q * ((q.den - g * B') / (g * B')) := by
      have hqd : q * (q.den : ℚ) = g * a := by
        have : (q.num : ℚ) = g * a := by rw [ha]; push_cast; rfl
        rw [← this, Rat.mul_den_eq_num]
      clear hqa
      generalize (q.den : ℚ) = Q at *
      rw [div_sub' hB'.ne', mul_div_assoc', div_eq_div_iff hB'.ne' hgB.ne']
      linear_combination (- (B' : ℚ)) * hqd
    rw [e, abs_mul]
    have hlast : |((q.den : ℚ) - g * B') / (g * B')| ≤ 12 / P := by
      rw [abs_div, abs_of_pos hgB, div_le_iff₀ hgB]
      have h12 : (12 : ℚ) / P = 12 / 5 * u := by rw [hudef]; ring
      rw [h12]
      exact near_aux hu0 hu hden hup hlow
    calc |q| * |((q.den : ℚ) - g * B') / (g * B')| * P ≤ |q| * (12 / P) * P := by gcongr
      _ = 12 * |q| := by field_simp

end MC.Number

namespace MC.Log
open MC MC.Number

/-- `ln` answers the natural logarithm rounded to `p` digits, as `Decimal.ln` does. -/
structure Rounded (p : ℕ) (ln : ℚ → ℚ) : Prop where
  fits : ∀ q, 0 < q → Fits p (ln q)
  close : ∀ q : ℚ, 0 < q → |(ln q : ℝ) - Real.log q| * 10 ^ p ≤ 5 * |Real.log q|

theorem diff_aux {u N D n d l : ℝ} (hu0 : 0 < u) (hu : u ≤ 1 / 20) (hN : 0 ≤ N) (hD : 0 ≤ D)
    (hn : |n - N| ≤ u * N) (hd : |d - D| ≤ u * D) (hl : |n - d - l| ≤ u * |n - d|) :
    |l - (N - D)| ≤ 41 / 20 * (u * (N + D)) := by
  have hnd : |n - d| ≤ 21 / 20 * (N + D) := by
    have h1 := abs_le.mp hn
    have h2 := abs_le.mp hd
    rw [abs_le]
    constructor <;> nlinarith
  have h3 : |n - d - l| ≤ u * (21 / 20 * (N + D)) := hl.trans (mul_le_mul_of_nonneg_left hnd hu0.le)
  have h1 := abs_le.mp hn
  have h2 := abs_le.mp hd
  have h4 := abs_le.mp h3
  rw [abs_le]
  constructor <;> nlinarith

theorem quot_aux {u B X l Λ b t : ℝ} (hu0 : 0 < u) (hu : u ≤ 1 / 20) (hB : 0 ≤ B) (hX : |X| ≤ B)
    (hl : |l - X| ≤ 41 / 20 * (u * B)) (hΛ : Λ ≠ 0) (hb : |b - Λ| ≤ u * |Λ|) (ht : |l / b - t| ≤ u * |l / b|) :
    |t - X / Λ| ≤ 44 / 10 * (u * (B / |Λ|)) := by
  have hw : 0 < |Λ| := abs_pos.mpr hΛ
  have hb' : 19 / 20 * |Λ| ≤ |b| := by
    have h1 : |Λ| - |b| ≤ |b - Λ| := by rw [abs_sub_comm]; exact abs_sub_abs_le_abs_sub Λ b
    nlinarith
  have hb0 : 0 < |b| := by linarith [mul_pos (by norm_num : (0:ℝ) < 19 / 20) hw]
  have hbne : b ≠ 0 := abs_pos.mp hb0
  have hq : |l / b - X / Λ| ≤ 322 / 100 * (u * (B / |Λ|)) := by
    have e : l / b - X / Λ = ((l - X) + X * ((Λ - b) / Λ)) / b := by field_simp; ring
    rw [e, abs_div, div_le_iff₀ hb0]
    have h1 : |X * ((Λ - b) / Λ)| ≤ u * B := by
      rw [abs_mul, abs_div]
      have : |Λ - b| / |Λ| ≤ u := by rw [div_le_iff₀ hw, abs_sub_comm]; exact hb
      calc |X| * (|Λ - b| / |Λ|) ≤ B * u := by gcongr
        _ = u * B := mul_comm _ _
    have h2 : |l - X + X * ((Λ - b) / Λ)| ≤ 61 / 20 * (u * B) := by
      refine (abs_add_le _ _).trans ?_
      linarith
    refine h2.trans ?_
    have h3 : 322 / 100 * (u * (B / |Λ|)) * (19 / 20 * |Λ|) ≤ 322 / 100 * (u * (B / |Λ|)) * |b| :=
      mul_le_mul_of_nonneg_left hb' (by positivity)
    refine le_trans ?_ h3
    have : 322 / 100 * (u * (B / |Λ|)) * (19 / 20 * |Λ|) = 322 / 100 * (19 / 20) * (u * B) := by field_simp
    rw [this]
    nlinarith [mul_nonneg hu0.le hB]
  have hC : 0 ≤ B / |Λ| := by positivity
  have hXΛ : |X / Λ| ≤ B / |Λ| := by rw [abs_div]; gcongr
  have hlb : |l / b| ≤ 1161 / 1000 * (B / |Λ|) := by
    have : |l / b| ≤ |X / Λ| + |l / b - X / Λ| := by
      have := abs_add_le (X / Λ) (l / b - X / Λ)
      simpa using this
    nlinarith
  have h5 : |l / b - t| ≤ u * (1161 / 1000 * (B / |Λ|)) := ht.trans (mul_le_mul_of_nonneg_left hlb hu0.le)
  have h6 : |t - X / Λ| ≤ |l / b - t| + |l / b - X / Λ| := by
    have := abs_add_le (-(l / b - t)) (l / b - X / Λ)
    rw [abs_neg] at this
    have e : -(l / b - t) + (l / b - X / Λ) = t - X / Λ := by ring
    rwa [e] at this
  nlinarith [mul_nonneg hu0.le hC]

theorem final_aux {u B X l r c : ℝ} (hu0 : 0 < u) (hu : u ≤ 1 / 20) (hB : 0 ≤ B) (hX : |X| ≤ B) (hc : c ≤ 44 / 10)
    (hl : |l - X| ≤ c * (u * B)) (hr : |r - l| ≤ 12 / 5 * (u * |l|)) :
    |r - X| ≤ (c + 3) * (u * B) := by
  have h1 : |l| ≤ |X| + |l - X| := by
    have := abs_add_le X (l - X)
    simpa using this
  have h0 : 0 ≤ u * B := by positivity
  have h4 : u * B ≤ 1 / 20 * B := mul_le_mul_of_nonneg_right hu hB
  have h2 : |l| ≤ 122 / 100 * B := by nlinarith
  have h3 : |r - X| ≤ |r - l| + |l - X| := abs_sub_le r l X
  have h5 : u * |l| ≤ u * (122 / 100 * B) := mul_le_mul_of_nonneg_left h2 hu0.le
  nlinarith

theorem unit_pos {p : ℕ} (hp : 2 ≤ p) : (0 : ℝ) < 5 / 10 ^ p ∧ (5 : ℝ) / 10 ^ p ≤ 1 / 20 := by
  have hP : (100 : ℝ) ≤ 10 ^ p := by
    calc (100 : ℝ) = 10 ^ 2 := by norm_num
      _ ≤ 10 ^ p := pow_le_pow_right₀ (by norm_num) hp
  refine ⟨by positivity, ?_⟩
  rw [div_le_div_iff₀ (by positivity) (by norm_num)]
  linarith

theorem per_unit {p : ℕ} {a b c : ℝ} (h : a * 10 ^ p ≤ c * b) : a ≤ c / 5 * (5 / 10 ^ p * b) := by
  have hP : (0 : ℝ) < 10 ^ p := by positivity
  have : a ≤ c * b / 10 ^ p := by rwa [le_div_iff₀ hP]
  refine this.trans (le_of_eq ?_)
  ring

theorem rnd_real {p : ℕ} (q : ℚ) : |(q : ℝ) - (rnd p q : ℚ)| ≤ 5 / 10 ^ p * |(q : ℝ)| := by
  have := rnd_rel_error p q
  have h : |(q : ℝ) - (rnd p q : ℚ)| * 10 ^ p ≤ 5 * |(q : ℝ)| := by exact_mod_cast this
  have := per_unit h
  simpa using this

/-- The difference of the logarithms of numerator and denominator. -/
theorem log_diff {p : ℕ} (hp : 2 ≤ p) {ln : ℚ → ℚ} (hln : Rounded p ln) {x : Number} (hn : 0 < x.num) (hd : 0 < x.den) :
    |((rnd p (ln x.num - ln x.den) : ℚ) : ℝ) - (Real.log x.num - Real.log x.den)|
      ≤ 41 / 20 * (5 / 10 ^ p * (Real.log x.num + Real.log x.den)) := by
  obtain ⟨hu0, hu⟩ := unit_pos hp
  have key : ∀ z : ℤ, 0 < z → 0 ≤ Real.log z ∧ |((ln z : ℚ) : ℝ) - Real.log z| ≤ 5 / 10 ^ p * Real.log z := by
    intro z hz
    have h1 : 0 ≤ Real.log z := Real.log_nonneg (by exact_mod_cast hz)
    refine ⟨h1, ?_⟩
    have h2 := hln.close z (by exact_mod_cast hz)
    have h3 := per_unit h2
    rw [Rat.cast_intCast, abs_of_nonneg h1] at h3
    simpa using h3
  obtain ⟨a1, a2⟩ := key _ hn
  obtain ⟨b1, b2⟩ := key _ hd
  refine diff_aux hu0 hu a1 b1 a2 b2 ?_
  have := rnd_real (p := p) (ln x.num - ln x.den)
  push_cast at this ⊢
  exact this

end MC.Log
