import Mathlib.Analysis.SpecialFunctions.Pow.Real
import Verif.Lemmas.Number2
import Verif.Spec.Power

/-! # Relative errors, of fractions and of powers -/

namespace MC.Props
open MC.Number

section
variable {K : Type} [Field K] [LinearOrder K] [IsStrictOrderedRing K] {u a b c d : K} {i j k : ℕ}

/-- `a` and `b` differ by at most `k` factors between `1 - u` and its inverse. -/
def Within (u : K) (k : ℕ) (a b : K) : Prop := 0 < a ∧ 0 < b ∧ a * (1 - u) ^ k ≤ b ∧ b * (1 - u) ^ k ≤ a

theorem Within.refl (ha : 0 < a) : Within u 0 a a := ⟨ha, ha, by simp, by simp⟩

theorem Within.symm (h : Within u k a b) : Within u k b a := ⟨h.2.1, h.1, h.2.2.2, h.2.2.1⟩

theorem Within.trans (hu : u < 1) (h : Within u i a b) (h' : Within u j b c) : Within u (i + j) a c := by
  have hu' : 0 < 1 - u := sub_pos.mpr hu
  refine ⟨h.1, h'.2.1, ?_, ?_⟩
  · rw [pow_add, ← mul_assoc]
    exact (mul_le_mul_of_nonneg_right h.2.2.1 (by positivity)).trans h'.2.2.1
  · rw [pow_add, mul_comm ((1 - u) ^ i), ← mul_assoc]
    exact (mul_le_mul_of_nonneg_right h'.2.2.2 (by positivity)).trans h.2.2.2

theorem Within.mul (hu : u < 1) (h : Within u i a b) (h' : Within u j c d) : Within u (i + j) (a * c) (b * d) := by
  have hu' : 0 < 1 - u := sub_pos.mpr hu
  have h1 := h.1; have h2 := h.2.1; have h3 := h'.1; have h4 := h'.2.1
  refine ⟨by positivity, by positivity, ?_, ?_⟩
  · calc a * c * (1 - u) ^ (i + j) = a * (1 - u) ^ i * (c * (1 - u) ^ j) := by rw [pow_add]; ring
      _ ≤ b * d := mul_le_mul h.2.2.1 h'.2.2.1 (by positivity) h2.le
  · calc b * d * (1 - u) ^ (i + j) = b * (1 - u) ^ i * (d * (1 - u) ^ j) := by rw [pow_add]; ring
      _ ≤ a * c := mul_le_mul h.2.2.2 h'.2.2.2 (by positivity) h1.le

theorem Within.inv (h : Within u k a b) : Within u k a⁻¹ b⁻¹ := by
  have h1 := h.1; have h2 := h.2.1
  refine ⟨by positivity, by positivity, ?_, ?_⟩
  · rw [inv_mul_le_iff₀ h1, ← div_eq_mul_inv, le_div_iff₀ h2, mul_comm]; exact h.2.2.2
  · rw [inv_mul_le_iff₀ h2, ← div_eq_mul_inv, le_div_iff₀ h1, mul_comm]; exact h.2.2.1

theorem Within.div (hu : u < 1) (h : Within u i a b) (h' : Within u j c d) : Within u (i + j) (a / c) (b / d) := by
  rw [div_eq_mul_inv, div_eq_mul_inv]
  exact h.mul hu h'.inv

theorem Within.mono (hu0 : 0 ≤ u) (hu : u < 1) (h : Within u i a b) (hij : i ≤ j) : Within u j a b := by
  have hu' : 0 ≤ 1 - u := by linarith
  have : (1 - u) ^ j ≤ (1 - u) ^ i := pow_le_pow_of_le_one hu' (by linarith) hij
  exact ⟨h.1, h.2.1, (mul_le_mul_of_nonneg_left this h.1.le).trans h.2.2.1,
    (mul_le_mul_of_nonneg_left this h.2.1.le).trans h.2.2.2⟩

theorem within_one (hu0 : 0 ≤ u) (ha : 0 < a) (hb : 0 < b) (h : |a - b| ≤ u * a) : Within u 1 a b := by
  obtain ⟨h1, h2⟩ := abs_le.mp h
  refine ⟨ha, hb, by rw [pow_one]; linarith, ?_⟩
  rw [pow_one]
  by_cases hu : u ≤ 1
  · have : b ≤ a + u * a := by linarith
    have := mul_le_mul_of_nonneg_right this (sub_nonneg.mpr hu)
    have : 0 ≤ u * u * a := by positivity
    nlinarith
  · have : b * (1 - u) ≤ 0 := mul_nonpos_of_nonneg_of_nonpos hb.le (by linarith)
    linarith

theorem within_three (hu0 : 0 ≤ u) (hu : u ≤ 1 / 20) (ha : 0 < a) (hb : 0 < b) (h : |b - a| ≤ 2 * u * a) :
    Within u 3 a b := by
  obtain ⟨h1, h2⟩ := abs_le.mp h
  have hc : (1 - u) ^ 3 ≤ 1 - 2 * u := by nlinarith [mul_nonneg hu0 hu0]
  refine ⟨ha, hb, ?_, ?_⟩
  · have := mul_le_mul_of_nonneg_left hc ha.le
    linarith
  · have h3 := mul_le_mul_of_nonneg_left hc hb.le
    have h4 : b ≤ a + 2 * u * a := by linarith
    have h5 := mul_le_mul_of_nonneg_right h4 (show 0 ≤ 1 - 2 * u by linarith)
    have : 0 ≤ u * u * a := by positivity
    nlinarith

theorem Within.error (hu0 : 0 ≤ u) (hk : (k : K) * u ≤ 1 / 2) (hu : u < 1) (h : Within u k a b) :
    |b - a| ≤ 2 * (k * u) * a := by
  have hb : 1 - (k : K) * u ≤ (1 - u) ^ k := by
    have := one_add_mul_le_pow (a := -u) (by linarith) k
    rw [← sub_eq_add_neg] at this
    linarith
  have hku : 0 ≤ (k : K) * u := by positivity
  have h1 := h.1; have h2 := h.2.1
  rw [abs_le]
  constructor
  · have := (mul_le_mul_of_nonneg_left hb h1.le).trans h.2.2.1
    nlinarith
  · have h3 := (mul_le_mul_of_nonneg_left hb h2.le).trans h.2.2.2
    have h4 : b * (1 / 2) ≤ b * (1 - k * u) := by gcongr; linarith
    have h5 : b * (k * u) ≤ 2 * a * (k * u) := by gcongr; linarith
    nlinarith

theorem Within.cast {u a b : ℚ} (h : Within u k a b) : Within (u : ℝ) k (a : ℝ) (b : ℝ) := by
  obtain ⟨h1, h2, h3, h4⟩ := h
  exact ⟨by exact_mod_cast h1, by exact_mod_cast h2, by exact_mod_cast h3, by exact_mod_cast h4⟩

end

/-- Half a unit of the last of `p` digits, relative to the smallest number with that unit. -/
def half (p : ℕ) : ℚ := 5 / 10 ^ p

theorem half_pos (p : ℕ) : 0 < half p := by unfold half; positivity

theorem half_le {p : ℕ} (hp : 2 ≤ p) : half p ≤ 1 / 20 := by
  unfold half
  have : (10:ℚ) ^ 2 ≤ 10 ^ p := pow_le_pow_right₀ (by norm_num) hp
  rw [div_le_div_iff₀ (by positivity) (by norm_num)]
  linarith

theorem rnd_within {p : ℕ} (hp : 1 ≤ p) {x : ℚ} (hx : 0 < x) : Within (half p) 1 x (rnd p x) := by
  refine within_one (half_pos p).le hx (rnd_pos hp hx) ?_
  have := rnd_rel_error p x
  rw [abs_of_pos hx] at this
  unfold half
  rw [div_mul_eq_mul_div, le_div_iff₀ (by positivity)]
  exact this

/-- The fraction made of two positive numbers is their quotient up to four roundings. -/
theorem mk'_within {p : ℕ} (hp : 2 ≤ p) {n d : ℚ} (hn : 0 < n) (hd : 0 < d) :
    ∃ r, mk' p n d = .ok r ∧ 0 < r.num ∧ 0 < r.den ∧ Within (half p) 4 (n / d) r.val := by
  have hu : half p < 1 := lt_of_le_of_lt (half_le hp) (by norm_num)
  have hu0 := (half_pos p).le
  have p1 : 1 ≤ p := by omega
  -- the numerator made an integer
  obtain ⟨n1, d1, hn1, hd1, e1, f1⟩ : ∃ (n1 : ℤ) (d1 : ℚ), 0 < n1 ∧
      (if isInt n then n else (n.num : ℚ)) = n1 ∧
      (if isInt n then d else rnd p (d * n.den)) = d1 ∧ Within (half p) 1 (n / d) (n1 / d1) := by
    by_cases h : isInt n
    · obtain ⟨m, rfl⟩ := (isInt_iff n).mp h
      refine ⟨m, d, by exact_mod_cast hn, by simp [h], by simp [h], ?_⟩
      exact (Within.refl (by positivity)).mono hu0 hu (by omega)
    · refine ⟨n.num, rnd p (d * n.den), Rat.num_pos.mpr hn, by simp [h], by simp [h], ?_⟩
      have hden : (0:ℚ) < n.den := by exact_mod_cast n.den_pos
      have e : n / d = n.num / (d * n.den) := by
        rw [div_eq_div_iff hd.ne' (by positivity)]
        nth_rewrite 1 [← Rat.num_div_den n]
        field_simp
      rw [e]
      have hnum : (0:ℚ) < n.num := by exact_mod_cast Rat.num_pos.mpr hn
      have := (Within.refl (u := half p) hnum).div hu (rnd_within p1 (show 0 < d * n.den by positivity))
      simpa using this
  have hn1q : (0:ℚ) < n1 := by exact_mod_cast hn1
  have hd1p : 0 < d1 := by
    have := f1.2.1
    rcases div_pos_iff.mp this with h | h
    · exact h.2
    · linarith [h.1]
  -- the denominator made an integer
  obtain ⟨n2, d2, hn2, hd2, e2, e3, f2⟩ : ∃ (n2 d2 : ℤ), 0 < n2 ∧ 0 < d2 ∧
      (if isInt d1 then d1 else (d1.num : ℚ)) = d2 ∧
      (if isInt d1 then (n1 : ℚ) else rnd p (n1 * d1.den)) = n2 ∧ Within (half p) 1 ((n1 : ℚ) / d1) (n2 / d2) := by
    by_cases h : isInt d1
    · obtain ⟨m, hm⟩ := (isInt_iff d1).mp h
      refine ⟨n1, m, hn1, by rw [hm] at hd1p; exact_mod_cast hd1p, by simp [h, hm], by simp [h], ?_⟩
      rw [hm]
      exact (Within.refl (by rw [← hm]; positivity)).mono hu0 hu (by omega)
    · obtain ⟨m, hm⟩ := rnd_intCast_isInt p (n1 * d1.den)
      push_cast at hm
      have hden : (0:ℚ) < d1.den := by exact_mod_cast d1.den_pos
      have hpos : 0 < rnd p ((n1 : ℚ) * d1.den) := rnd_pos p1 (by positivity)
      refine ⟨m, d1.num, by rw [hm] at hpos; exact_mod_cast hpos, Rat.num_pos.mpr hd1p, by simp [h], by simp [h, hm], ?_⟩
      have hnum : (0:ℚ) < d1.num := by exact_mod_cast Rat.num_pos.mpr hd1p
      have e : (n1 : ℚ) / d1 = n1 * d1.den / d1.num := by
        have h2 : d1 * d1.den = d1.num := Rat.mul_den_eq_num d1
        rw [div_eq_div_iff hd1p.ne' hnum.ne', ← h2]
        ring
      rw [e, ← hm]
      have := (rnd_within p1 (show 0 < (n1 : ℚ) * d1.den by positivity)).div hu (Within.refl (u := half p) hnum)
      simpa using this
  have hn2q : (0:ℚ) < n2 := by exact_mod_cast hn2
  have hd2q : (0:ℚ) < d2 := by exact_mod_cast hd2
  -- the common divisor
  obtain ⟨n3, d3, hn3, hd3, e4, e5, f3⟩ : ∃ n3 d3 : ℤ, 0 < n3 ∧ 0 < d3 ∧
      (if 1 < Int.gcd n2 d2 then rnd p ((n2 : ℚ) / (Int.gcd n2 d2 : ℚ)) else (n2 : ℚ)) = n3 ∧
      (if 1 < Int.gcd n2 d2 then rnd p ((d2 : ℚ) / (Int.gcd n2 d2 : ℚ)) else (d2 : ℚ)) = d3 ∧
      Within (half p) 2 ((n2 : ℚ) / d2) (n3 / d3) := by
    by_cases h : 1 < Int.gcd n2 d2
    · obtain ⟨a, ha⟩ : ((Int.gcd n2 d2 : ℕ) : ℤ) ∣ n2 := Int.gcd_dvd_left ..
      obtain ⟨b, hb⟩ : ((Int.gcd n2 d2 : ℕ) : ℤ) ∣ d2 := Int.gcd_dvd_right ..
      set g := Int.gcd n2 d2 with hg
      have hgq : (0:ℚ) < g := by exact_mod_cast (by omega : 0 < g)
      have haq : (n2 : ℚ) / g = a := by rw [ha]; push_cast; field_simp
      have hbq : (d2 : ℚ) / g = b := by rw [hb]; push_cast; field_simp
      have ha0 : (0:ℚ) < a := by rw [← haq]; positivity
      have hb0 : (0:ℚ) < b := by rw [← hbq]; positivity
      obtain ⟨a', ha'⟩ := rnd_intCast_isInt p a
      obtain ⟨b', hb'⟩ := rnd_intCast_isInt p b
      have h1 := rnd_pos p1 ha0
      have h2 := rnd_pos p1 hb0
      refine ⟨a', b', by rw [ha'] at h1; exact_mod_cast h1, by rw [hb'] at h2; exact_mod_cast h2,
        by rw [if_pos h, haq, ha'], by rw [if_pos h, hbq, hb'], ?_⟩
      have e : (n2 : ℚ) / d2 = a / b := by rw [← haq, ← hbq]; field_simp
      rw [e, ← ha', ← hb']
      exact (rnd_within p1 ha0).div hu (rnd_within p1 hb0)
    · exact ⟨n2, d2, hn2, hd2, by rw [if_neg h], by rw [if_neg h],
        (Within.refl (by positivity)).mono hu0 hu (by omega)⟩
  refine ⟨⟨n3, d3⟩, ?_, hn3, hd3, (f1.trans hu f2).trans hu f3⟩
  unfold mk'
  rw [if_neg hd.ne']
  simp only [hd1, e1, e2, e3, if_neg (not_lt.mpr hd2q.le), truncQ_intCast, e4, e5, rhu_intCast]

theorem half_real {p : ℕ} (hp : 2 ≤ p) : (0:ℝ) ≤ ((half p : ℚ) : ℝ) ∧ ((half p : ℚ) : ℝ) ≤ 1 / 20 := by
  refine ⟨by exact_mod_cast (half_pos p).le, ?_⟩
  have := (Rat.cast_le (K := ℝ)).mpr (half_le hp)
  push_cast at this
  exact this

theorem decPow_within {p : ℕ} (hp : 2 ≤ p) {powF : ℚ → ℚ → Except Err ℚ} (hw : Spec.AnswersPowers p powF) {x y : ℚ}
    (hx : 1 ≤ x) (hy : 0 ≤ y) : (∃ q, decPow powF p x y = .ok q ∧ 0 < q ∧
      Within ((half p : ℚ) : ℝ) 3 ((x : ℝ) ^ (y : ℝ)) (q : ℝ)) ∨
      ∃ e, decPow powF p x y = .error e ∧ powF x y = .error e := by
  obtain ⟨hu0, hu⟩ := half_real hp
  have hx0 : 0 < x := by linarith
  have hxr : (0:ℝ) < x := by exact_mod_cast hx0
  unfold decPow
  by_cases h : isInt y ∧ 0 ≤ y
  · rw [if_pos h, if_neg (by rintro ⟨h1, -⟩; exact hx0.ne' h1)]
    refine .inl ⟨_, rfl, rnd_pos (by omega) (by positivity), ?_⟩
    obtain ⟨m, rfl⟩ := (isInt_iff y).mp h.1
    obtain ⟨k, rfl⟩ := Int.eq_ofNat_of_zero_le (show 0 ≤ m by exact_mod_cast hy)
    have := (rnd_within (p := p) (by omega) (show 0 < x ^ k by positivity)).cast
    have e : ((x : ℝ) ^ (((((k : ℤ) : ℚ)) : ℝ))) = ((x ^ k : ℚ) : ℝ) := by
      push_cast
      exact Real.rpow_natCast _ _
    rw [e]
    have e2 : ((k : ℤ) : ℚ).num.toNat = k := by simp
    rw [e2]
    exact this.mono hu0 (by linarith) (by omega)
  · rw [if_neg h]
    cases hq : powF x y with
    | error e => exact .inr ⟨e, rfl, rfl⟩
    | ok q =>
      obtain ⟨h2, h3⟩ := hw x y q hx hy hq
      refine .inl ⟨q, rfl, h2, within_three hu0 hu (Real.rpow_pos_of_pos hxr _) (by exact_mod_cast h2) ?_⟩
      unfold half
      push_cast
      have : (2:ℝ) * (5 / 10 ^ p) * (x : ℝ) ^ (y : ℝ) = 10 * (x : ℝ) ^ (y : ℝ) / 10 ^ p := by ring
      rw [this, le_div_iff₀ (by positivity)]
      exact h3

/-- Powers of positive numbers: ten roundings. -/
theorem pow_within {p : ℕ} (hp : 2 ≤ p) {powF : ℚ → ℚ → Except Err ℚ} (hw : Spec.AnswersPowers p powF) {a b : Number}
    (hn : 0 < a.num) (hd : 0 < a.den) : (∃ r, pow p powF a b = .ok r ∧ 0 < r.num ∧ 0 < r.den ∧
      Within ((half p : ℚ) : ℝ) 10 ((a.val : ℝ) ^ ((toDecimal p b : ℚ) : ℝ)) (r.val : ℝ)) ∨
      ∃ e, pow p powF a b = .error e ∧
        (powF a.num |toDecimal p b| = .error e ∨ powF a.den |toDecimal p b| = .error e) := by
  have hu : ((half p : ℚ) : ℝ) < 1 := by linarith [(half_real hp).2]
  have hnq : (1:ℚ) ≤ a.num := by exact_mod_cast hn
  have hdq : (1:ℚ) ≤ a.den := by exact_mod_cast hd
  have hnr : (0:ℝ) < a.num := by exact_mod_cast hn
  have hdr : (0:ℝ) < a.den := by exact_mod_cast hd
  set t := toDecimal p b with ht
  unfold pow
  simp only [← ht]
  by_cases h : t < 0
  · rw [if_pos h]
    have hf : rnd p (-t) = -t := by
      rw [ht, rnd_neg]
      congr 1
      exact rnd_idem (by omega) _
    rw [hf, abs_of_neg h]
    rcases decPow_within hp hw hdq (y := -t) (by linarith) with ⟨q1, h1, p1, w1⟩ | ⟨e, h1, h2⟩
    · rcases decPow_within hp hw hnq (y := -t) (by linarith) with ⟨q2, h2, p2, w2⟩ | ⟨e, h2, h3⟩
      · obtain ⟨r, h3, h4, h5, w3⟩ := mk'_within hp p1 p2
        refine .inl ⟨r, by rw [h1, h2]; exact h3, h4, h5, ?_⟩
        have w := (w1.div hu w2).trans hu (by have := w3.cast; push_cast at this; exact this)
        have e : ((a.val : ℚ) : ℝ) ^ ((t : ℚ) : ℝ) = ((a.den : ℚ) : ℝ) ^ (((-t : ℚ)) : ℝ) / ((a.num : ℚ) : ℝ) ^ (((-t : ℚ)) : ℝ) := by
          rw [Number.val]
          push_cast
          rw [← Real.div_rpow hdr.le hnr.le, Real.rpow_neg (by positivity), ← Real.inv_rpow (by positivity), inv_div]
        rw [e]
        exact w
      · exact .inr ⟨e, by rw [h1, h2]; rfl, .inl h3⟩
    · exact .inr ⟨e, by rw [h1]; rfl, .inr h2⟩
  · rw [if_neg h, abs_of_nonneg (not_lt.mp h)]
    rcases decPow_within hp hw hnq (y := t) (not_lt.mp h) with ⟨q1, h1, p1, w1⟩ | ⟨e, h1, h2⟩
    · rcases decPow_within hp hw hdq (y := t) (not_lt.mp h) with ⟨q2, h2, p2, w2⟩ | ⟨e, h2, h3⟩
      · obtain ⟨r, h3, h4, h5, w3⟩ := mk'_within hp p1 p2
        refine .inl ⟨r, by rw [h1, h2]; exact h3, h4, h5, ?_⟩
        have w := (w1.div hu w2).trans hu (by have := w3.cast; push_cast at this; exact this)
        have e : ((a.val : ℚ) : ℝ) ^ ((t : ℚ) : ℝ) = ((a.num : ℚ) : ℝ) ^ ((t : ℚ) : ℝ) / ((a.den : ℚ) : ℝ) ^ ((t : ℚ) : ℝ) := by
          rw [Number.val]
          push_cast
          rw [Real.div_rpow hnr.le hdr.le]
        rw [e]
        exact w
      · exact .inr ⟨e, by rw [h1, h2]; rfl, .inr h3⟩
    · exact .inr ⟨e, by rw [h1]; rfl, .inl h2⟩

/-- An error relative to one number, as an error relative to another. -/
theorem rel_shift {r P Q α δ : ℝ} (hQ : 0 < Q) (hα : 0 ≤ α) (hδ : |δ| ≤ 1 / 4) (hP : P = Q * Real.exp δ) (h : |r - P| ≤ α * P) :
    |r - Q| ≤ (3 / 2 * α + 2 * |δ|) * Q := by
  have he := Real.abs_exp_sub_one_le (x := δ) (by linarith)
  have h1 : |P - Q| ≤ 2 * |δ| * Q := by
    have : P - Q = (Real.exp δ - 1) * Q := by rw [hP]; ring
    rw [this, abs_mul, abs_of_pos hQ]
    gcongr
  have h2 : P ≤ 3 / 2 * Q := by
    have := (abs_le.mp h1).2
    nlinarith
  calc |r - Q| ≤ |r - P| + |P - Q| := abs_sub_le ..
    _ ≤ α * (3 / 2 * Q) + 2 * |δ| * Q := add_le_add (h.trans (by gcongr)) h1
    _ = _ := by ring

/-- Powers of positive numbers, to the working precision. -/
theorem pow_real {p : ℕ} (hp : 2 ≤ p) {powF : ℚ → ℚ → Except Err ℚ} (hw : Spec.AnswersPowers p powF) {a b : Number}
    (hn : 0 < a.num) (hd : 0 < a.den) (hb : |(b.val : ℝ) * Real.log a.val| * 20 ≤ 10 ^ p) :
    (∃ r, pow p powF a b = .ok r ∧ 0 < r.den ∧
      |(r.val : ℝ) - (a.val : ℝ) ^ (b.val : ℝ)| * 10 ^ p
        ≤ (150 + 10 * |(b.val : ℝ) * Real.log a.val|) * (a.val : ℝ) ^ (b.val : ℝ)) ∨
      ∃ e, pow p powF a b = .error e ∧
        (powF a.num |toDecimal p b| = .error e ∨ powF a.den |toDecimal p b| = .error e) := by
  rcases pow_within (b := b) hp hw hn hd with ⟨r, h1, -, h3, h4⟩ | h
  · refine .inl ⟨r, h1, h3, ?_⟩
    obtain ⟨hu0, hu⟩ := half_real hp
    have hv : (0:ℝ) < a.val := by
      have h1 : (0:ℚ) < a.num := by exact_mod_cast hn
      have h2 : (0:ℚ) < a.den := by exact_mod_cast hd
      have : 0 < a.val := by unfold Number.val; positivity
      exact_mod_cast this
    have h5 := h4.error hu0 (by push_cast; linarith) (by linarith)
    have hT : (0:ℝ) < 10 ^ p := by positivity
    have hr : |((toDecimal p b : ℚ) : ℝ) - b.val| ≤ 5 * |(b.val : ℝ)| / 10 ^ p := by
      have h := rnd_rel_error p b.val
      rw [le_div_iff₀ hT, abs_sub_comm]
      have h' := (Rat.cast_le (K := ℝ)).mpr h
      push_cast at h'
      exact h'
    have hδ : |(((toDecimal p b : ℚ) : ℝ) - b.val) * Real.log a.val| ≤ 5 * |(b.val : ℝ) * Real.log a.val| / 10 ^ p := by
      rw [abs_mul, abs_mul]
      calc _ ≤ 5 * |(b.val : ℝ)| / 10 ^ p * |Real.log a.val| := by gcongr
        _ = _ := by ring
    have h6 := rel_shift (Q := (a.val : ℝ) ^ (b.val : ℝ)) (α := 100 / 10 ^ p)
      (δ := (((toDecimal p b : ℚ) : ℝ) - b.val) * Real.log a.val)
      (Real.rpow_pos_of_pos hv _) (by positivity) (hδ.trans (by rw [div_le_iff₀ hT]; linarith))
      (by
        rw [Real.rpow_def_of_pos hv, Real.rpow_def_of_pos hv, ← Real.exp_add]
        congr 1
        ring) (h5.trans (by
          unfold half
          push_cast
          apply le_of_eq
          ring))
    have hQ := Real.rpow_pos_of_pos hv (b.val : ℝ)
    rw [← le_div_iff₀ hT]
    refine h6.trans ?_
    rw [mul_div_right_comm]
    apply mul_le_mul_of_nonneg_right _ hQ.le
    calc _ ≤ 3 / 2 * (100 / 10 ^ p) + 2 * (5 * |(b.val : ℝ) * Real.log a.val| / 10 ^ p) := by gcongr
      _ = _ := by ring
  · exact .inr h

end MC.Props
