import Verif.Lemmas.Number2

namespace MC
namespace Number

theorem rhu_scaled_nonneg {p : ℕ} (hp : 1 ≤ p) {m d : ℤ} (n : ℕ) (hd : 0 < d) (hm : 0 ≤ m)
    (h : 10 ^ (n+1) * |m| < 10 ^ p) :
    rhu (rnd p ((m:ℚ) / d) * 10 ^ n) = rhu ((m:ℚ) / d * 10 ^ n) := by
  have hdq : (0:ℚ) < d := by exact_mod_cast hd
  have hmq : (0:ℚ) ≤ m := by exact_mod_cast hm
  have hx : (0:ℚ) ≤ (m:ℚ) / d := by positivity
  have hr : 0 ≤ rnd p ((m:ℚ) / d) := rnd_nonneg p hx
  have hT : (0:ℚ) < 10 ^ n := by positivity
  have hgen : ∀ y : ℚ, 0 ≤ y → rhu y = ⌊y + 1/2⌋ := fun y hy => by unfold rhu; rw [if_pos hy]
  rw [hgen _ (by positivity), hgen _ (by positivity)]
  set x := (m:ℚ) / d with hxd
  set k := ⌊x * 10 ^ n + 1/2⌋ with hk
  have k1 := Int.floor_le (x * 10 ^ n + 1/2)
  have k2 := Int.lt_floor_add_one (x * 10 ^ n + 1/2)
  rw [← hk] at k1 k2
  have hk0 : 0 ≤ k := by rw [hk]; positivity
  have hxm : x ≤ m := by
    rw [hxd]; apply div_le_self hmq; exact_mod_cast hd
  have hb : 5 * |m| * (2 * 10 ^ n) < 10 ^ p := by
    calc 5 * |m| * (2 * 10 ^ n) = 10 ^ (n+1) * |m| := by rw [pow_succ]; ring
      _ < _ := h
  have hN : (0:ℤ) < 2 * 10 ^ n := by positivity
  have hTT : (((2 * 10 ^ n : ℤ)):ℚ) = 2 * 10 ^ n := by push_cast; rfl
  rw [Int.floor_eq_iff]
  constructor
  · have hfit : Fits p (((2*k-1 : ℤ):ℚ) / ((2 * 10 ^ n : ℤ) : ℚ)) := by
      refine ⟨5 * (2*k-1), -((n+1 : ℕ):ℤ), ?_, ?_⟩
      · rw [zpow_neg, zpow_natCast, pow_succ]; push_cast; field_simp; ring
      · have h1 : ((5 * (2*k-1) : ℤ):ℚ) < 10 ^ p := by
          have h2 : ((5 * (2*k-1) : ℤ):ℚ) ≤ 10 * (x * 10 ^ n) := by push_cast; linarith
          have h3 : 10 * (x * 10 ^ n) ≤ 10 ^ (n+1) * |(m:ℚ)| := by
            rw [pow_succ, abs_of_nonneg hmq]; nlinarith
          have h4 : (10:ℚ) ^ (n+1) * |(m:ℚ)| < 10 ^ p := by exact_mod_cast h
          linarith
        have h1' : 5 * (2*k-1) < 10 ^ p := by exact_mod_cast h1
        have h10 : (10:ℤ) ≤ 10 ^ p := by
          calc (10:ℤ) = 10 ^ 1 := by norm_num
            _ ≤ 10 ^ p := pow_le_pow_right₀ (by norm_num) hp
        rw [abs_lt]; constructor <;> linarith
    have hle : ((2*k-1 : ℤ):ℚ) / ((2 * 10 ^ n : ℤ) : ℚ) ≤ x := by
      rw [hTT, div_le_iff₀ (by positivity)]; push_cast; linarith
    have := rnd_mono hp hle
    rw [rnd_of_fits hfit, hTT, div_le_iff₀ (by positivity)] at this
    push_cast at this
    linarith
  · have hlt : x < ((2*k+1 : ℤ):ℚ) / ((2 * 10 ^ n : ℤ) : ℚ) := by
      rw [hTT, lt_div_iff₀ (by positivity)]; push_cast; linarith
    have := rnd_lt_grid (p := p) hd hN hb hlt
    rw [← hxd, hTT, lt_div_iff₀ (by positivity)] at this
    push_cast at this
    linarith

theorem rhu_scaled {p : ℕ} (hp : 1 ≤ p) {m d : ℤ} (n : ℕ) (hd : 0 < d)
    (h : 10 ^ (n+1) * |m| < 10 ^ p) :
    rhu (rnd p ((m:ℚ) / d) * 10 ^ n) = rhu ((m:ℚ) / d * 10 ^ n) := by
  rcases le_total 0 m with hm | hm
  · exact rhu_scaled_nonneg hp n hd hm h
  · have := rhu_scaled_nonneg (p := p) hp (m := -m) n hd (by omega) (by rwa [abs_neg])
    push_cast at this
    rw [neg_div, rnd_neg, neg_mul, neg_mul, rhu_neg, rhu_neg] at this
    omega

theorem rhu_isNearestInt (x : ℚ) : IsNearestInt x (rhu x) := by
  refine ⟨fun j => rhu_nearest x j, fun j hj => ?_⟩
  by_cases he : j = rhu x
  · rw [he]
  have h1 := rhu_abs_sub_le x
  have h2 : (1:ℚ) ≤ |(j:ℚ) - rhu x| := by
    have : (1:ℤ) ≤ |j - rhu x| := Int.one_le_abs (by omega)
    exact_mod_cast this
  have h3 : |(j:ℚ) - rhu x| ≤ |x - j| + |x - rhu x| := by
    have := abs_sub_le (j:ℚ) x (rhu x); rwa [abs_sub_comm (j:ℚ) x] at this
  have ht : |x - (rhu x:ℚ)| = 1/2 := by linarith
  have h4 := rhu_tie_away x ht
  -- j lies on the other side of x
  have hq : |(j:ℚ)| ≤ |(rhu x:ℚ)| := by
    by_contra hc; push Not at hc
    rw [ht] at hj
    have hs : (0 ≤ x ∧ (0:ℚ) ≤ rhu x) ∨ (x < 0 ∧ (rhu x:ℚ) ≤ 0) := by
      rcases le_or_gt 0 x with h0 | h0
      · exact Or.inl ⟨h0, by exact_mod_cast rhu_nonneg h0⟩
      · refine Or.inr ⟨h0, ?_⟩
        have := rhu_nonneg (x := -x) (by linarith)
        rw [rhu_neg] at this
        have : rhu x ≤ 0 := by omega
        exact_mod_cast this
    rcases hs with ⟨s1, s2⟩ | ⟨s1, s2⟩ <;>
    rcases abs_cases (x - (rhu x:ℚ)) with ⟨a1, _⟩ | ⟨a1, _⟩ <;>
    rcases abs_cases (x - (j:ℚ)) with ⟨a2, _⟩ | ⟨a2, _⟩
    all_goals first
      | (have : (j:ℚ) = rhu x := by linarith
         exact he (by exact_mod_cast this))
      | (rcases abs_cases x with ⟨b1, _⟩ | ⟨b1, _⟩ <;>
         rcases abs_cases (rhu x:ℚ) with ⟨b2, _⟩ | ⟨b2, _⟩ <;>
         rcases abs_cases (j:ℚ) with ⟨b3, _⟩ | ⟨b3, _⟩ <;> linarith)
  exact_mod_cast hq

/-- `round(a, n)` is exact half-up rounding under the digit bound. -/
theorem round_exact {p : ℕ} (hp : 1 ≤ p) {a : Number} (n : ℕ) (ha : 0 < a.den)
    (h : 10 ^ (n+1) * |a.num| < 10 ^ p) (hn : n < p) :
    round p a n = .ok ⟨((rhu (a.val * 10 ^ n) : ℚ) / 10 ^ n).num, ((rhu (a.val * 10 ^ n) : ℚ) / 10 ^ n).den⟩ := by
  have hdq : (0:ℚ) < a.den := by exact_mod_cast ha
  have hb : |rhu (a.val * 10 ^ n)| < 10 ^ p := by
    by_cases h0 : a.num = 0
    · unfold val; rw [h0]; simp [rhu_zero]
    have h1 := rhu_abs_sub_le (a.val * 10 ^ n)
    have h2 : |a.val * 10 ^ n| ≤ 10 ^ n * |(a.num:ℚ)| := by
      unfold val; rw [abs_mul, abs_div, abs_of_pos hdq, abs_of_pos (by positivity : (0:ℚ) < 10 ^ n), mul_comm]
      apply mul_le_mul_of_nonneg_left _ (by positivity)
      apply div_le_self (abs_nonneg _); exact_mod_cast ha
    have hn1 : (1:ℚ) ≤ |(a.num:ℚ)| := by exact_mod_cast Int.one_le_abs h0
    have h4 : (10:ℚ) ^ (n+1) * |(a.num:ℚ)| < 10 ^ p := by exact_mod_cast h
    have hT : (1:ℚ) ≤ 10 ^ n := one_le_pow₀ (by norm_num)
    have h5 : |(rhu (a.val * 10 ^ n) : ℚ)| ≤ |a.val * 10 ^ n| + 1/2 := by
      have := abs_sub_abs_le_abs_sub (rhu (a.val * 10 ^ n) : ℚ) (a.val * 10 ^ n)
      rw [abs_sub_comm] at this; linarith
    have : |(rhu (a.val * 10 ^ n) : ℚ)| < 10 ^ p := by
      rw [pow_succ] at h4
      nlinarith
    exact_mod_cast this
  unfold round decRound toDecimal
  rw [rhu_scaled hp n ha h]
  change (do let x ← (if (10:ℤ) ^ p ≤ |rhu (a.val * 10 ^ n)| then _ else _); mk' p x 1) = _
  rw [if_neg (not_le.mpr hb)]
  show mk' p _ 1 = _
  apply mk'_lit
  have hdvd : (((rhu (a.val * 10 ^ n) : ℚ) / 10 ^ n).den : ℤ) ∣ 10 ^ n := by
    have := Rat.den_dvd (rhu (a.val * 10 ^ n)) (10 ^ n)
    rw [Rat.divInt_eq_div] at this
    push_cast at this; exact this
  calc _ ≤ (10:ℤ) ^ n := Int.le_of_dvd (by positivity) hdvd
    _ < 10 ^ p := pow_lt_pow_right₀ (by norm_num) hn

/-- The remainder is computed exactly. -/
theorem mod_exact {p : ℕ} {a b : Number} (ha : a.Canonical) (hb : b.Canonical) (hb0 : b.val ≠ 0)
    (h1 : |a.num * (Int.lcm a.den b.den : ℤ)| < 10 ^ p)
    (h2 : |b.num * (Int.lcm a.den b.den : ℤ)| < 10 ^ p)
    (h3 : (Int.lcm a.den b.den : ℤ) < 10 ^ p) :
    ∃ r, mod p a b = .ok r ∧ r.Canonical ∧ r.val = a.val - b.val * truncQ (a.val / b.val) := by
  obtain ⟨d1, d2, hl, hle⟩ := lcm_facts ha.1 hb.1
  set l : ℤ := (Int.lcm a.den b.den : ℤ) with hld
  have n1 := normalise_num (p := p) ha.1 d1 h1
  have n2 := normalise_num (p := p) hb.1 d2 h2
  obtain ⟨e1, c1⟩ := n1
  obtain ⟨e2, c2⟩ := n2
  set A : ℤ := a.num * (l / a.den) with hA
  set B : ℤ := b.num * (l / b.den) with hB
  have hlq : (0:ℚ) < l := by exact_mod_cast hl
  have vA : (A:ℚ) = a.val * l := by
    have : a.den * (l / a.den) = l := Int.mul_ediv_cancel' d1
    have t : ((a.den:ℚ)) * ((l / a.den : ℤ) : ℚ) = l := by exact_mod_cast this
    have := ha.den_ne
    rw [hA]; unfold val; push_cast; rw [← t]; field_simp
  have vB : (B:ℚ) = b.val * l := by
    have : b.den * (l / b.den) = l := Int.mul_ediv_cancel' d2
    have t : ((b.den:ℚ)) * ((l / b.den : ℤ) : ℚ) = l := by exact_mod_cast this
    have := hb.den_ne
    rw [hB]; unfold val; push_cast; rw [← t]; field_simp
  have hBq : (B:ℚ) ≠ 0 := by rw [vB]; exact mul_ne_zero hb0 hlq.ne'
  have hB0 : B ≠ 0 := by exact_mod_cast hBq
  have hquot : (A:ℚ) / B = a.val / b.val := by rw [vA, vB]; field_simp
  have htr : |truncQ ((A:ℚ) / B)| ≤ |A| := by
    have key : ∀ y : ℚ, |(truncQ y : ℚ)| ≤ |y| := by
      intro y; unfold truncQ; split
      · rename_i hy
        rw [abs_of_nonneg (by exact_mod_cast Int.floor_nonneg.mpr hy), abs_of_nonneg hy]; exact Int.floor_le _
      · rename_i hy; push Not at hy
        have hy' : 0 ≤ -y := by linarith
        push_cast
        rw [abs_neg, abs_of_nonneg (by exact_mod_cast Int.floor_nonneg.mpr hy'), abs_of_neg hy]; exact Int.floor_le _
    have h := key ((A:ℚ)/B)
    have hB1 : (1:ℚ) ≤ |(B:ℚ)| := by exact_mod_cast Int.one_le_abs hB0
    have : |(A:ℚ) / B| ≤ |(A:ℚ)| := by rw [abs_div]; exact div_le_self (abs_nonneg _) hB1
    have := h.trans this
    exact_mod_cast this
  have hrem : |A - B * truncQ ((A:ℚ) / B)| ≤ |A| := by
    have key : ∀ y : ℚ, |y - truncQ y| ≤ |y| := by
      intro y; unfold truncQ; split
      · rename_i hy
        have := Int.floor_le y
        have h0 : (0:ℚ) ≤ ⌊y⌋ := by exact_mod_cast Int.floor_nonneg.mpr hy
        rw [abs_of_nonneg (by linarith), abs_of_nonneg hy]; linarith
      · rename_i hy; push Not at hy
        have hy' : 0 ≤ -y := by linarith
        have := Int.floor_le (-y)
        have h0 : (0:ℚ) ≤ ⌊-y⌋ := by exact_mod_cast Int.floor_nonneg.mpr hy'
        push_cast
        rw [abs_of_nonpos (by linarith), abs_of_neg hy]; linarith
    have h := key ((A:ℚ)/B)
    have e : (A:ℚ) - B * truncQ ((A:ℚ)/B) = B * ((A:ℚ)/B - truncQ ((A:ℚ)/B)) := by field_simp
    have : |(A:ℚ) - B * truncQ ((A:ℚ)/B)| ≤ |(A:ℚ)| := by
      rw [e, abs_mul]
      calc _ ≤ |(B:ℚ)| * |(A:ℚ)/B| := mul_le_mul_of_nonneg_left h (abs_nonneg _)
        _ = |(A:ℚ)| := by rw [abs_div]; field_simp
    exact_mod_cast this
  unfold mod normalise decMod
  simp only
  have hl' : ((Int.lcm a.den b.den : ℕ) : ℚ) = (l:ℚ) := by rw [hld]; push_cast; rfl
  rw [hl', e1, e2, if_neg hBq, if_neg (by push Not; omega)]
  show ∃ r, mk' p (rnd p ((A:ℚ) - B * truncQ ((A:ℚ)/B))) l = .ok r ∧ _
  have hint : ((A:ℚ) - B * truncQ ((A:ℚ)/B)) = ((A - B * truncQ ((A:ℚ)/B) : ℤ) : ℚ) := by push_cast; rfl
  rw [hint, rnd_int (by omega)]
  obtain ⟨r, hr, hc, hv⟩ := mk'_int (p := p) (n := A - B * truncQ ((A:ℚ)/B)) (d := l) hl.ne' (by omega) (by rwa [abs_of_pos hl])
  refine ⟨r, hr, hc, ?_⟩
  rw [hv, ← hint, hquot, vA, vB]; field_simp

theorem num_le_of_val {r : Number} (hr : r.Canonical) {n d : ℤ} (hd : d ≠ 0)
    (h : r.val = (n:ℚ) / d) : |r.num| ≤ |n| := by
  rw [(canonical_val_num hr).1, h]
  have hdv := Rat.num_dvd n hd
  rw [Rat.divInt_eq_div] at hdv
  by_cases hn : n = 0
  · rw [hn]; simp
  · exact Int.le_of_dvd (abs_pos.mpr hn) ((abs_dvd_abs _ _).mpr hdv)

theorem toDecimal_int {p : ℕ} {z : ℤ} (h : |z| < 10 ^ p) : toDecimal p ⟨z, 1⟩ = z := by
  unfold toDecimal; simp [rnd_int h]

theorem decPow_nat {p : ℕ} (powF) {x : ℤ} {k : ℕ} (h0 : x ≠ 0 ∨ k ≠ 0) (h : |x| ^ k < 10 ^ p) :
    decPow powF p (x:ℚ) (k:ℚ) = .ok ((x ^ k : ℤ) : ℚ) := by
  unfold decPow
  have hi : isInt (k:ℚ) := by rw [isInt_iff]; exact ⟨k, by simp⟩
  have hk : (0:ℚ) ≤ k := by positivity
  rw [if_pos ⟨hi, hk⟩, if_neg (by
    rintro ⟨h1, h2⟩
    rcases h0 with h | h
    · exact h (by exact_mod_cast h1)
    · exact h (by exact_mod_cast h2))]
  have : ((k:ℚ)).num.toNat = k := by simp
  rw [this, ← Int.cast_pow, rnd_int (by rwa [abs_pow])]

end Number
end MC
