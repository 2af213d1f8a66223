import Verif.Lemmas.Number3
import Verif.Props.Number

/-!
# C07 (quotient and remainder), C08 (powers), C09 (rounding functions), C12 (mixed fractions)
-/

namespace MC.Props
open MC Number

/-! ## C07 Quotient and remainder -/

/-- `a \ b` is the floor of the exact quotient. -/
theorem C07_floordiv (p : ℕ) (hp : 1 ≤ p) (a b : Number) (ha : a.Canonical) (hb : b.Canonical)
    (hb0 : b.val ≠ 0) (h1 : 5 * |a.num * b.den| < 10 ^ p) (h2 : |a.den * b.num| < 10 ^ p) :
    ∃ q, floordiv p a b = .ok q ∧ q.Canonical ∧ q.val = ⌊a.val / b.val⌋ := by
  have h1' : |a.num * b.den| < 10 ^ p := by
    have := abs_nonneg (a.num * b.den); omega
  obtain ⟨r, hr, hc, hv⟩ := C02_div_exact p a b ha hb hb0 h1' h2
  have hb0' : b.num ≠ 0 := by rintro h; apply hb0; unfold val; rw [h]; simp
  have hv' : r.val = ((a.num * b.den : ℤ):ℚ) / ((a.den * b.num : ℤ):ℚ) := by
    rw [hv]; unfold val; have := ha.den_ne; have := hb.den_ne
    have : (b.num:ℚ) ≠ 0 := by exact_mod_cast hb0'
    push_cast; field_simp
  have hn := num_le_of_val hc (mul_ne_zero ha.1.ne' hb0') hv'
  refine ⟨floor p r, ?_, ?_, ?_⟩
  · unfold floordiv; rw [hr]; rfl
  · exact ⟨by norm_num [floor], by simp [floor]⟩
  · unfold floor; rw [floor_toDecimal hp hc.1 (by omega), hv]; simp [val]

/-- `a % b` is the dividend minus the divisor times the truncated exact quotient. -/
theorem C07_mod (p : ℕ) (a b : Number) (ha : a.Canonical) (hb : b.Canonical)
    (hb0 : b.val ≠ 0) (h1 : |a.num * (Int.lcm a.den b.den : ℤ)| < 10 ^ p)
    (h2 : |b.num * (Int.lcm a.den b.den : ℤ)| < 10 ^ p)
    (h3 : (Int.lcm a.den b.den : ℤ) < 10 ^ p) :
    ∃ r, mod p a b = .ok r ∧ r.Canonical ∧ |r.val| < |b.val| ∧
      (∃ k : ℤ, a.val = k * b.val + r.val) ∧ (0 ≤ a.val → 0 ≤ r.val) ∧ (a.val ≤ 0 → r.val ≤ 0) := by
  obtain ⟨r, hr, hc, hv⟩ := mod_exact ha hb hb0 h1 h2 h3
  refine ⟨r, hr, hc, ?_, ⟨truncQ (a.val / b.val), by rw [hv]; ring⟩, ?_⟩
  all_goals
    set x := a.val with hx
    set y := b.val with hy
    have hxy : x = y * (x / y) := by field_simp
    have e : r.val = y * (x / y - truncQ (x / y)) := by rw [hv]; field_simp
  · rw [e, abs_mul]
    have hb : |x / y - truncQ (x / y)| < 1 := by
      unfold truncQ; split
      · have := Int.floor_le (x/y); have := Int.lt_floor_add_one (x/y)
        rw [abs_lt]; constructor <;> linarith
      · have := Int.floor_le (-(x/y)); have := Int.lt_floor_add_one (-(x/y))
        push_cast; rw [abs_lt]; constructor <;> linarith
    have := abs_pos.mpr hb0
    nlinarith
  · have hs : (0 ≤ x / y ∧ 0 ≤ x / y - truncQ (x / y)) ∨ (x / y < 0 ∧ x / y - truncQ (x / y) ≤ 0) := by
      unfold truncQ; split
      · rename_i h
        have := Int.floor_le (x/y); exact Or.inl ⟨h, by linarith⟩
      · rename_i h; push Not at h
        have := Int.floor_le (-(x/y)); exact Or.inr ⟨h, by push_cast; linarith⟩
    rw [e]
    rcases hs with ⟨s1, s2⟩ | ⟨s1, s2⟩ <;> rcases lt_or_gt_of_ne hb0 with hy0 | hy0
    · refine ⟨fun h => ?_, fun _ => mul_nonpos_of_nonpos_of_nonneg hy0.le s2⟩
      have hx0 : x = 0 := le_antisymm (by rw [hxy]; exact mul_nonpos_of_nonpos_of_nonneg hy0.le s1) h
      rw [hx0]; simp [truncQ]
    · refine ⟨fun _ => mul_nonneg hy0.le s2, fun h => ?_⟩
      have hx0 : x = 0 := le_antisymm h (by rw [hxy]; exact mul_nonneg hy0.le s1)
      rw [hx0]; simp [truncQ]
    · refine ⟨fun _ => mul_nonneg_of_nonpos_of_nonpos hy0.le s2, fun h => ?_⟩
      have : 0 < x := by rw [hxy]; exact mul_pos_of_neg_of_neg hy0 s1
      linarith
    · refine ⟨fun h => ?_, fun _ => mul_nonpos_of_nonneg_of_nonpos hy0.le s2⟩
      have : x < 0 := by rw [hxy]; exact mul_neg_of_pos_of_neg hy0 s1
      linarith

/-- The division law `a = (a \ b) * b + a % b`, with `|a % b| < |b|`, for operands of
at most `k` digits whose quotient is not negative.  Full statement: the same
without `hs`; it is false, see `C07_law_violation`. -/
theorem C07_law_partial (p k : ℕ) (hk : 3 * k + 1 ≤ p) (a b : Number) (ha : a.Canonical)
    (hb : b.Canonical) (da : a.Digits k) (db : b.Digits k) (hb0 : b.val ≠ 0) (hs : 0 ≤ a.val / b.val) :
    ∃ q r, floordiv p a b = .ok q ∧ mod p a b = .ok r ∧
      a.val = q.val * b.val + r.val ∧ |r.val| < |b.val| := by
  obtain ⟨d1, d2, hl, hle⟩ := lcm_facts ha.1 hb.1
  have hl2 : |(Int.lcm a.den b.den : ℤ)| < 10 ^ (2*k) := by
    rw [abs_of_pos hl]
    exact lt_of_le_of_lt (le_trans hle (le_abs_self _)) (abs_mul_lt da.2 db.2 (by omega))
  have h2k : (10:ℤ) ^ (2*k+1) ≤ 10 ^ p := pow_le_pow_right₀ (by norm_num) (by omega)
  rw [pow_succ] at h2k
  have m1 := abs_mul_lt da.1 db.2 (by omega : k + k ≤ 2 * k)
  have hfl : 5 * |a.num * b.den| < 10 ^ p := by
    have := abs_nonneg (a.num * b.den); omega
  obtain ⟨q, hq, _, hqv⟩ := C07_floordiv p (by omega) a b ha hb hb0 hfl (abs_mul_lt da.2 db.1 (by omega))
  have b1 := abs_mul_lt da.1 hl2 (by omega : k + 2 * k ≤ p)
  have b2 := abs_mul_lt db.1 hl2 (by omega : k + 2 * k ≤ p)
  have b3 : (Int.lcm a.den b.den : ℤ) < 10 ^ p := by
    rw [abs_of_pos hl] at hl2; omega
  obtain ⟨r, hr, _, hrv⟩ := mod_exact ha hb hb0 b1 b2 b3
  obtain ⟨r', hr', _, hlt, _⟩ := C07_mod p a b ha hb hb0 b1 b2 b3
  rw [hr] at hr'; cases hr'
  refine ⟨q, r, hq, hr, ?_, hlt⟩
  rw [hqv, hrv]; unfold truncQ; rw [if_pos hs]; ring

/-- The law fails for operands of different signs: `-7 \ 2` is `-4` and `-7 % 2` is
`-1`, at every precision of two digits or more. -/
theorem C07_law_violation (p : ℕ) (hp : 2 ≤ p) :
    ∃ a b q r : Number, a.Canonical ∧ b.Canonical ∧ b.val ≠ 0 ∧ floordiv p a b = .ok q ∧
      mod p a b = .ok r ∧ a.val ≠ q.val * b.val + r.val := by
  have hca : (⟨-7, 1⟩ : Number).Canonical := ⟨by decide, by decide⟩
  have hcb : (⟨2, 1⟩ : Number).Canonical := ⟨by decide, by decide⟩
  have hb0 : val ⟨2, 1⟩ ≠ 0 := by norm_num [val]
  have h100 : (100:ℤ) ≤ 10 ^ p := by
    calc (100:ℤ) = 10 ^ 2 := by norm_num
      _ ≤ 10 ^ p := pow_le_pow_right₀ (by norm_num) hp
  have hl : ((Int.lcm 1 1 : ℕ) : ℤ) = 1 := by decide
  obtain ⟨q, hq, _, hqv⟩ := C07_floordiv p (by omega) ⟨-7,1⟩ ⟨2,1⟩ hca hcb hb0
    (by norm_num; omega) (by norm_num; omega)
  obtain ⟨r, hr, _, hrv⟩ := mod_exact (p := p) hca hcb hb0 (by simp only [hl]; norm_num; omega)
    (by simp only [hl]; norm_num; omega) (by simp only [hl]; omega)
  refine ⟨_, _, q, r, hca, hcb, hb0, hq, hr, ?_⟩
  have f1 : ⌊(-7/2:ℚ)⌋ = -4 := by rw [Int.floor_eq_iff]; norm_num
  have f2 : truncQ (-7/2) = -3 := by
    unfold truncQ; rw [if_neg (by norm_num)]
    have : ⌊-(-7/2:ℚ)⌋ = 3 := by rw [Int.floor_eq_iff]; norm_num
    rw [this]
  rw [hqv, hrv]
  have e1 : val ⟨-7, 1⟩ / val ⟨2, 1⟩ = -7/2 := by norm_num [val]
  rw [e1, f1, f2]
  norm_num [val]

example : (⟨15, 2⟩ : Number).Canonical ∧ Digits 33 ⟨15, 2⟩ ∧ Digits 33 ⟨2, 1⟩ ∧
    0 ≤ val ⟨15, 2⟩ / val ⟨2, 1⟩ :=
  ⟨⟨by decide, by decide⟩, ⟨by norm_num, by norm_num⟩, ⟨by norm_num, by norm_num⟩, by norm_num [val]⟩

/-- A zero divisor makes both fail, at every size. -/
theorem C07_zero_divisor (p : ℕ) (a b : Number) (hb : b.num = 0) :
    (∃ e, floordiv p a b = .error e) ∧ (∃ e, mod p a b = .error e) := by
  constructor
  · unfold floordiv div mk'
    rw [hb]; simp [rnd_zero]
  · unfold mod normalise decMod
    rw [hb]; simp [rnd_zero]
    exact ⟨_, rfl⟩

/-- `divmod(a, b)`: the floored quotient first, then the remainder, which for operands of the same
sign add up to `a` again. -/
theorem C07_divmod_partial (p k : ℕ) (hk : 3 * k + 1 ≤ p) (a b : Number) (ha : a.Canonical)
    (hb : b.Canonical) (da : a.Digits k) (db : b.Digits k) (hb0 : b.val ≠ 0) (hs : 0 ≤ a.val / b.val) :
    ∃ q r, divmod p a b = .ok (q, r) ∧ a.val = q.val * b.val + r.val ∧ |r.val| < |b.val| := by
  obtain ⟨q, r, h1, h2, h3, h4⟩ := C07_law_partial p k hk a b ha hb da db hb0 hs
  refine ⟨q, r, ?_, h3, h4⟩
  unfold divmod
  rw [h1, h2]; rfl

example : ∃ q r, divmod 10 ⟨7, 1⟩ ⟨2, 1⟩ = .ok (q, r) ∧ val ⟨7, 1⟩ = q.val * val ⟨2, 1⟩ + r.val ∧
    |r.val| < |val ⟨2, 1⟩| :=
  C07_divmod_partial 10 1 (by norm_num) _ _ ⟨by norm_num, by decide⟩ ⟨by norm_num, by decide⟩
    ⟨by norm_num, by norm_num⟩ ⟨by norm_num, by norm_num⟩ (by norm_num [val]) (by norm_num [val])

/-! ## C08 Integer powers -/

/-- Integer powers, positive, zero or negative, are exact and in lowest terms when
both parts of the power fit the precision.  `powF` is never consulted. -/
theorem C08_integer_power (p : ℕ) (powF) (a : Number) (ha : a.Canonical) (z : ℤ)
    (hz : |z| < 10 ^ p) (h0 : a.val ≠ 0 ∨ 0 < z) (h1 : |a.num| ^ z.natAbs < 10 ^ p)
    (h2 : |a.den| ^ z.natAbs < 10 ^ p) :
    ∃ r, pow p powF a ⟨z, 1⟩ = .ok r ∧ r.Canonical ∧ r.val = a.val ^ z := by
  have hnum : a.val ≠ 0 → a.num ≠ 0 := by rintro h rfl'; apply h; unfold val; rw [rfl']; simp
  unfold pow
  rw [toDecimal_int hz]
  simp only
  have hden := ha.1.ne'
  have hdq := ha.den_ne
  rcases lt_or_ge z 0 with hneg | hpos
  · obtain ⟨k, rfl⟩ : ∃ k : ℕ, z = -k := ⟨z.natAbs, by omega⟩
    have hk : k ≠ 0 := by omega
    have ha0 : a.num ≠ 0 := by rcases h0 with h | h; exact hnum h; omega
    have hkk : (-(k:ℤ)).natAbs = k := by omega
    rw [hkk] at h1 h2
    have hlt : ((-(k:ℤ) : ℤ):ℚ) < 0 := by exact_mod_cast hneg
    rw [if_pos hlt]
    have e : rnd p (-((-(k:ℤ) : ℤ):ℚ)) = (k:ℚ) := by
      push_cast; rw [neg_neg]
      have := rnd_int (p := p) (n := (k:ℤ)) (by rwa [abs_neg] at hz)
      exact_mod_cast this
    rw [e, decPow_nat powF (Or.inr hk) h2, decPow_nat powF (Or.inr hk) h1]
    obtain ⟨r, hr, hc, hv⟩ := mk'_int (p := p) (n := a.den ^ k) (d := a.num ^ k) (pow_ne_zero _ ha0)
      (by rwa [abs_pow]) (by rwa [abs_pow])
    refine ⟨r, hr, hc, ?_⟩
    rw [hv, zpow_neg, zpow_natCast]; unfold val; rw [div_pow, inv_div]; push_cast; rfl
  · obtain ⟨k, rfl⟩ : ∃ k : ℕ, z = k := ⟨z.natAbs, by omega⟩
    have hkk : ((k:ℤ)).natAbs = k := by omega
    rw [hkk] at h1 h2
    have hnl : ¬ (((k:ℤ) : ℤ):ℚ) < 0 := by push_cast; push Not; positivity
    rw [if_neg hnl]
    have hc0 : a.num ≠ 0 ∨ k ≠ 0 := by
      rcases h0 with h | h
      · exact Or.inl (hnum h)
      · right; omega
    have e : (((k:ℤ) : ℤ):ℚ) = (k:ℚ) := by push_cast; rfl
    rw [e, decPow_nat powF hc0 h1, decPow_nat powF (Or.inl hden) h2]
    obtain ⟨r, hr, hc, hv⟩ := mk'_int (p := p) (n := a.num ^ k) (d := a.den ^ k) (pow_ne_zero _ hden)
      (by rwa [abs_pow]) (by rwa [abs_pow])
    refine ⟨r, hr, hc, ?_⟩
    rw [hv, zpow_natCast]; unfold val; rw [div_pow]; push_cast; rfl

/-- `a ^ (y + z) = (a ^ y) * (a ^ z)` as stored numbers, when everything fits. -/
theorem C08_exponent_sum (p : ℕ) (powF) (a : Number) (ha : a.Canonical) (y z : ℤ) (h0 : a.val ≠ 0)
    (K : ℕ) (hK : y.natAbs + z.natAbs ≤ K) (hKp : K < 10 ^ p) (h1 : |a.num| ^ K < 10 ^ p)
    (h2 : |a.den| ^ K < 10 ^ p) :
    ∃ u v w, pow p powF a ⟨y, 1⟩ = .ok u ∧ pow p powF a ⟨z, 1⟩ = .ok v ∧
      pow p powF a ⟨y + z, 1⟩ = .ok w ∧ mul p u v = .ok w := by
  have hn0 : a.num ≠ 0 := by rintro h; apply h0; unfold val; rw [h]; simp
  have n1 : 1 ≤ |a.num| := Int.one_le_abs hn0
  have d1 : 1 ≤ |a.den| := Int.one_le_abs ha.1.ne'
  have bn : ∀ j, j ≤ K → |a.num| ^ j < 10 ^ p := fun j hj => lt_of_le_of_lt (pow_le_pow_right₀ n1 hj) h1
  have bd : ∀ j, j ≤ K → |a.den| ^ j < 10 ^ p := fun j hj => lt_of_le_of_lt (pow_le_pow_right₀ d1 hj) h2
  have bz : ∀ t : ℤ, t.natAbs ≤ K → |t| < 10 ^ p := by
    intro t ht
    have : (K:ℤ) < 10 ^ p := by exact_mod_cast hKp
    rw [Int.abs_eq_natAbs]; omega
  have hs : (y+z).natAbs ≤ y.natAbs + z.natAbs := Int.natAbs_add_le y z
  obtain ⟨u, hu, uc, uv⟩ := C08_integer_power p powF a ha y (bz y (by omega)) (Or.inl h0) (bn _ (by omega)) (bd _ (by omega))
  obtain ⟨v, hv, vc, vv⟩ := C08_integer_power p powF a ha z (bz z (by omega)) (Or.inl h0) (bn _ (by omega)) (bd _ (by omega))
  obtain ⟨w, hw, wc, wv⟩ := C08_integer_power p powF a ha (y+z) (bz (y+z) (by omega)) (Or.inl h0) (bn _ (by omega)) (bd _ (by omega))
  refine ⟨u, v, w, hu, hv, hw, ?_⟩
  -- sizes of the parts of an integer power
  have size : ∀ (t : ℤ) (x : Number), x.Canonical → x.val = a.val ^ t →
      |x.num| ≤ (if 0 ≤ t then |a.num| else |a.den|) ^ t.natAbs ∧
      |x.den| ≤ (if 0 ≤ t then |a.den| else |a.num|) ^ t.natAbs := by
    intro t x hx hxv
    rcases le_or_gt 0 t with ht | ht
    · obtain ⟨k, rfl⟩ : ∃ k : ℕ, t = k := ⟨t.natAbs, by omega⟩
      rw [if_pos ht, if_pos ht]
      have e : x.val = ((a.num ^ k : ℤ):ℚ) / ((a.den ^ k : ℤ):ℚ) := by
        rw [hxv, zpow_natCast]; unfold val; rw [div_pow]; push_cast; rfl
      have a1 := num_le_of_val hx (pow_ne_zero _ ha.1.ne') e
      have a2 : |x.den| ≤ |a.den ^ k| := by
        rw [(canonical_val_num hx).2, e]
        have hdv := Rat.den_dvd (a.num ^ k) (a.den ^ k)
        rw [Rat.divInt_eq_div] at hdv
        exact Int.le_of_dvd (abs_pos.mpr (pow_ne_zero _ ha.1.ne')) ((abs_dvd_abs _ _).mpr hdv)
      rw [abs_pow] at a1 a2
      simpa using And.intro a1 a2
    · obtain ⟨k, rfl⟩ : ∃ k : ℕ, t = -k := ⟨t.natAbs, by omega⟩
      rw [if_neg (by omega), if_neg (by omega)]
      have e : x.val = ((a.den ^ k : ℤ):ℚ) / ((a.num ^ k : ℤ):ℚ) := by
        rw [hxv, zpow_neg, zpow_natCast]; unfold val; rw [div_pow, inv_div]; push_cast; rfl
      have a1 := num_le_of_val hx (pow_ne_zero _ hn0) e
      have a2 : |x.den| ≤ |a.num ^ k| := by
        rw [(canonical_val_num hx).2, e]
        have hdv := Rat.den_dvd (a.den ^ k) (a.num ^ k)
        rw [Rat.divInt_eq_div] at hdv
        exact Int.le_of_dvd (abs_pos.mpr (pow_ne_zero _ hn0)) ((abs_dvd_abs _ _).mpr hdv)
      rw [abs_pow] at a1 a2
      simpa using And.intro a1 a2
  have mixed : ∀ m : ℤ, 1 ≤ m → ∀ (m1 m2 : ℤ), 1 ≤ m1 → 1 ≤ m2 → m1 ≤ m → m2 ≤ m → m ^ K < 10 ^ p →
      m1 ^ y.natAbs * m2 ^ z.natAbs < 10 ^ p := by
    intro m hm m1 m2 hm1 hm2 l1 l2 hmk
    calc m1 ^ y.natAbs * m2 ^ z.natAbs ≤ m ^ y.natAbs * m ^ z.natAbs := by
          apply mul_le_mul (pow_le_pow_left₀ (by omega) l1 _) (pow_le_pow_left₀ (by omega) l2 _) (by positivity) (by positivity)
      _ = m ^ (y.natAbs + z.natAbs) := by rw [pow_add]
      _ ≤ m ^ K := pow_le_pow_right₀ hm hK
      _ < _ := hmk
  obtain ⟨su1, su2⟩ := size y u uc uv
  obtain ⟨sv1, sv2⟩ := size z v vc vv
  have hmax : (max |a.num| |a.den|) ^ K < 10 ^ p := by
    rcases max_cases |a.num| |a.den| with ⟨h, _⟩ | ⟨h, _⟩ <;> rw [h] <;> assumption
  have ifb : ∀ (c : Prop) [Decidable c], 1 ≤ (if c then |a.num| else |a.den|) ∧
      (if c then |a.num| else |a.den|) ≤ max |a.num| |a.den| ∧ 1 ≤ (if c then |a.den| else |a.num|) ∧
      (if c then |a.den| else |a.num|) ≤ max |a.num| |a.den| := by
    intro c _; split <;> simp [n1, d1]
  have i1 := ifb (0 ≤ y)
  have i2 := ifb (0 ≤ z)
  have hm1 : 1 ≤ max |a.num| |a.den| := le_max_of_le_left n1
  have bnum : |u.num * v.num| < 10 ^ p := by
    rw [abs_mul]
    refine lt_of_le_of_lt (mul_le_mul su1 sv1 (abs_nonneg _) ?_) (mixed _ hm1 _ _ i1.1 i2.1 i1.2.1 i2.2.1 hmax)
    exact pow_nonneg (by omega) _
  have bden : u.den * v.den < 10 ^ p := by
    refine lt_of_le_of_lt (le_abs_self _) ?_
    rw [abs_mul]
    refine lt_of_le_of_lt (mul_le_mul su2 sv2 (abs_nonneg _) ?_) (mixed _ hm1 _ _ i1.2.2.1 i2.2.2.1 i1.2.2.2 i2.2.2.2 hmax)
    exact pow_nonneg (by omega) _
  obtain ⟨r, hr, rc, rv⟩ := C02_mul_exact p u v uc vc bnum bden
  rw [hr]; congr 1
  exact C01_unique _ _ rc wc (by rw [rv, uv, vv, wv, zpow_add₀ h0])

/-- Zero to a negative power, and `0 ^ 0`, raise an error. -/
theorem C08_zero_base (p : ℕ) (powF) (a : Number) (ha : a.num = 0) (z : ℤ) (hz : |z| < 10 ^ p)
    (h : z ≤ 0) : ∃ e, pow p powF a ⟨z, 1⟩ = .error e := by
  unfold pow
  rw [toDecimal_int hz]
  simp only
  rcases lt_or_eq_of_le h with hn | hn
  · obtain ⟨k, rfl⟩ : ∃ k : ℕ, z = -k := ⟨z.natAbs, by omega⟩
    have hk : k ≠ 0 := by omega
    have hlt : ((-(k:ℤ) : ℤ):ℚ) < 0 := by exact_mod_cast hn
    have e : rnd p (-((-(k:ℤ) : ℤ):ℚ)) = (k:ℚ) := by
      push_cast; rw [neg_neg]
      have := rnd_int (p := p) (n := (k:ℤ)) (by rwa [abs_neg] at hz)
      exact_mod_cast this
    rw [if_pos hlt, e]
    have hi : isInt (k:ℚ) := by rw [isInt_iff]; exact ⟨k, by simp⟩
    have hk0 : (0:ℚ) ≤ k := by positivity
    have e2 : decPow powF p (a.num:ℚ) (k:ℚ) = .ok 0 := by
      unfold decPow
      rw [if_pos ⟨hi, hk0⟩, if_neg (by rintro ⟨_, h2⟩; exact hk (by exact_mod_cast h2)), ha]
      have : ((k:ℚ)).num.toNat = k := by simp
      rw [this]; simp [hk, rnd_zero]
    rw [e2]
    have e3 : ∃ y, decPow powF p (a.den:ℚ) (k:ℚ) = .ok y := by
      unfold decPow
      rw [if_pos ⟨hi, hk0⟩, if_neg (by rintro ⟨_, h2⟩; exact hk (by exact_mod_cast h2))]
      exact ⟨_, rfl⟩
    obtain ⟨y, hy⟩ := e3
    rw [hy]
    show ∃ e, mk' p y 0 = .error e
    unfold mk'; rw [if_pos rfl]; exact ⟨_, rfl⟩
  · subst hn
    rw [if_neg (by simp)]
    have : decPow powF p (a.num:ℚ) ((0:ℤ):ℚ) = .error (.py "InvalidOperation") := by
      unfold decPow
      rw [if_pos ⟨by rw [isInt_iff]; exact ⟨0, by simp⟩, by simp⟩, if_pos (by simp [ha])]
    rw [this]
    exact ⟨_, rfl⟩

example : (⟨-2, 3⟩ : Number).Canonical ∧ val ⟨-2, 3⟩ ≠ 0 ∧ ((-3:ℤ).natAbs + (2:ℤ).natAbs ≤ 5) ∧
    |(-2:ℤ)| ^ 5 < 10 ^ 100 ∧ |(3:ℤ)| ^ 5 < 10 ^ 100 :=
  ⟨⟨by decide, by decide⟩, by norm_num [val], by decide, by norm_num, by norm_num⟩

/-! ## C09 Rounding functions -/

theorem C09_floor (p : ℕ) (hp : 1 ≤ p) (a : Number) (ha : a.Canonical) (h : 5 * |a.num| < 10 ^ p) :
    (floor p a).Canonical ∧ (floor p a).val = ⌊a.val⌋ := by
  refine ⟨⟨by norm_num [floor], by simp [floor]⟩, ?_⟩
  unfold floor; rw [floor_toDecimal hp ha.1 h]; simp [val]

theorem C09_ceil (p : ℕ) (hp : 1 ≤ p) (a : Number) (ha : a.Canonical) (h : 5 * |a.num| < 10 ^ p) :
    (ceil p a).Canonical ∧ (ceil p a).val = ⌈a.val⌉ := by
  refine ⟨⟨by norm_num [ceil], by simp [ceil]⟩, ?_⟩
  unfold ceil; rw [ceil_toDecimal hp ha.1 h]; simp [val]

/-- `int`/`trunc`: the integer of the same sign, not larger in size, less than one away. -/
theorem C09_trunc (p : ℕ) (hp : 1 ≤ p) (a : Number) (ha : a.Canonical) (h : 5 * |a.num| < 10 ^ p) :
    (trunc p a).Canonical ∧ ∃ k : ℤ, (trunc p a).val = k ∧ toInt p a = k ∧
      (0 ≤ a.val → k = ⌊a.val⌋) ∧ (a.val ≤ 0 → k = ⌈a.val⌉) := by
  refine ⟨⟨by norm_num [trunc], by simp [trunc]⟩, truncQ a.val, ?_, ?_, ?_, ?_⟩
  · unfold trunc; rw [trunc_toDecimal hp ha.1 h]; simp [val]
  · unfold toInt; exact trunc_toDecimal hp ha.1 h
  · intro h0; unfold truncQ; rw [if_pos h0]
  · intro h0; unfold truncQ; split
    · rename_i h1
      have : a.val = 0 := le_antisymm h0 h1
      rw [this]; simp
    · rw [Int.floor_neg]; simp

/-- `round(a, n)`: the multiple of `10^-n` nearest to the exact value, ties away from zero. -/
theorem C09_round (p : ℕ) (a : Number) (ha : a.Canonical) (n : ℕ) (hn : n < p)
    (h : 10 ^ (n+1) * |a.num| < 10 ^ p) :
    ∃ r, round p a n = .ok r ∧ r.Canonical ∧
      ∃ k : ℤ, r.val = (k:ℚ) / 10 ^ n ∧ IsNearestInt (a.val * 10 ^ n) k := by
  refine ⟨_, round_exact (by omega) n ha.1 h hn, canonical_ofRat _, rhu (a.val * 10 ^ n), ?_, rhu_isNearestInt _⟩
  rw [val_ofRat]

/-- Rounding an already rounded number changes nothing. -/
theorem C09_round_idempotent (p : ℕ) (a : Number) (ha : a.Canonical) (n : ℕ) (hn : n < p)
    (h : 10 ^ (n+1) * |a.num| < 10 ^ p) (k : ℤ) (hk : a.val = (k:ℚ) / 10 ^ n) :
    round p a n = .ok a := by
  rw [round_exact (by omega) n ha.1 h hn]
  congr 1
  refine C01_unique _ _ (canonical_ofRat _) ha ?_
  rw [val_ofRat, hk]
  have : (k:ℚ) / 10 ^ n * 10 ^ n = k := by field_simp
  rw [this, rhu_intCast]

/-- `floor`, `ceil` and `trunc` always return an integer, at every size, and for an
input that is an integer within the precision they return it unchanged. -/
theorem C09_integers (p : ℕ) (z : ℤ) (hz : |z| < 10 ^ p) :
    floor p ⟨z, 1⟩ = ⟨z, 1⟩ ∧ ceil p ⟨z, 1⟩ = ⟨z, 1⟩ ∧ trunc p ⟨z, 1⟩ = ⟨z, 1⟩ := by
  unfold floor ceil trunc
  rw [toDecimal_int hz]
  simp [truncQ_intCast]

/-- The number nearest an exact quotient can be past an integer: with the numerator
at full precision `floor` is off by one.  `floor(10^p - 1 / 10^p ...)`: here the
value `1 - 10^(-p-1)` is below 1 and its floor is reported as 1. -/
theorem C09_floor_beyond_precision (p : ℕ) (hp : 1 ≤ p) :
    (⟨10 ^ (p+1) - 1, 10 ^ (p+1)⟩ : Number).Canonical ∧
    val ⟨10 ^ (p+1) - 1, 10 ^ (p+1)⟩ < 1 ∧ floor p ⟨10 ^ (p+1) - 1, 10 ^ (p+1)⟩ = ⟨1, 1⟩ := by
  have hT : (0:ℤ) < 10 ^ (p+1) := by positivity
  have hTq : (0:ℚ) < 10 ^ (p+1) := by positivity
  refine ⟨⟨hT, ?_⟩, ?_, ?_⟩
  · have h1 : ((Int.gcd ((10:ℤ) ^ (p+1) - 1) (10 ^ (p+1)) : ℕ) : ℤ) ∣ 1 := by
      have e : (1:ℤ) = 10 ^ (p+1) - (10 ^ (p+1) - 1) := by ring
      have h := dvd_sub (Int.gcd_dvd_right ((10:ℤ) ^ (p+1) - 1) (10 ^ (p+1))) (Int.gcd_dvd_left ((10:ℤ) ^ (p+1) - 1) (10 ^ (p+1)))
      rwa [← e] at h
    have := Int.eq_one_of_dvd_one (by positivity) h1
    exact_mod_cast this
  · unfold val; push_cast; rw [div_lt_one hTq]; linarith
  · have key : toDecimal p ⟨10 ^ (p+1) - 1, 10 ^ (p+1)⟩ = 1 := by
      unfold toDecimal; push_cast
      have hx : ((10:ℚ) ^ (p+1) - 1) / 10 ^ (p+1) = 1 - 1 / 10 ^ (p+1) := by field_simp
      have hs : (1:ℚ) / 10 ^ (p+1) ≤ 1/100 := by
        rw [div_le_div_iff_of_pos_left (by norm_num) hTq (by norm_num)]
        calc (100:ℚ) = 10 ^ 2 := by norm_num
          _ ≤ 10 ^ (p+1) := pow_le_pow_right₀ (by norm_num) (by omega)
      have hs0 : (0:ℚ) < 1 / 10 ^ (p+1) := by positivity
      rw [hx]
      have hle : lastExp p (1 - 1 / 10 ^ (p+1)) = -(p:ℤ) := by
        rw [lastExp_eq_of_bounds p (k := -1)]
        · ring
        · rw [abs_of_pos (by linarith), zpow_neg_one]; linarith
        · rw [abs_of_pos (by linarith)]; norm_num
      unfold rnd; rw [if_neg (by linarith), hle, zpow_neg, zpow_natCast]
      have hr : rhu ((1 - 1 / 10 ^ (p+1)) / ((10:ℚ) ^ p)⁻¹) = 10 ^ p := by
        have : (1 - 1 / 10 ^ (p+1)) / ((10:ℚ) ^ p)⁻¹ = 10 ^ p - 1/10 := by
          rw [pow_succ]; field_simp
        rw [this]
        have h1 : (1:ℚ) ≤ 10 ^ p := one_le_pow₀ (by norm_num)
        unfold rhu; rw [if_pos (by linarith), Int.floor_eq_iff]
        push_cast; constructor <;> linarith
      rw [hr]; push_cast; field_simp
    unfold floor; rw [key]; simp

example : (⟨-7, 3⟩ : Number).Canonical ∧ 5 * |(-7:ℤ)| < 10 ^ 100 ∧ 10 ^ (2+1) * |(-7:ℤ)| < 10 ^ 100 :=
  ⟨⟨by decide, by decide⟩, by norm_num, by norm_num⟩

/-! ## C12 Mixed fractions -/

/-- `as_fraction`: whole part, remainder and denominator recombine to the number;
the fraction is proper and both parts have the sign of the number. -/
theorem C12_as_fraction (p : ℕ) (a : Number) (ha : a.Canonical) (h : |a.num| < 10 ^ p) :
    ∃ w r : ℤ, asFraction p a = .ok ((w:ℚ), (r:ℚ), a.den) ∧ a.val = w + r / a.den ∧ |r| < a.den ∧
      (0 ≤ a.val → 0 ≤ w ∧ 0 ≤ r) ∧ (a.val ≤ 0 → w ≤ 0 ∧ r ≤ 0) := by
  have hd := ha.den_pos
  have hdne := ha.den_ne
  set t := truncQ ((a.num:ℚ) / a.den) with ht
  have hcase : (0 ≤ (a.num:ℚ) / a.den ∧ 0 ≤ t ∧ (t:ℚ) ≤ (a.num:ℚ) / a.den ∧ (a.num:ℚ) / a.den < t + 1) ∨
      ((a.num:ℚ) / a.den < 0 ∧ t ≤ 0 ∧ (a.num:ℚ) / a.den ≤ t ∧ (t:ℚ) - 1 < (a.num:ℚ) / a.den) := by
    rcases le_or_gt 0 ((a.num:ℚ) / a.den) with h0 | h0
    · left
      have e : t = ⌊(a.num:ℚ) / a.den⌋ := by rw [ht]; unfold truncQ; rw [if_pos h0]
      refine ⟨h0, ?_, ?_, ?_⟩
      · rw [e]; exact Int.floor_nonneg.mpr h0
      · rw [e]; exact Int.floor_le _
      · rw [e]; exact Int.lt_floor_add_one _
    · right
      have e : t = -⌊-((a.num:ℚ) / a.den)⌋ := by rw [ht]; unfold truncQ; rw [if_neg (not_le.mpr h0)]
      have h1 := Int.floor_le (-((a.num:ℚ) / a.den))
      have h2 := Int.lt_floor_add_one (-((a.num:ℚ) / a.den))
      refine ⟨h0, ?_, ?_, ?_⟩
      · rw [e]; have : 0 ≤ ⌊-((a.num:ℚ) / a.den)⌋ := Int.floor_nonneg.mpr (by linarith)
        omega
      · rw [e]; push_cast; linarith
      · rw [e]; push_cast; linarith
  have hrem : ((a.num - a.den * t : ℤ):ℚ) = a.den * ((a.num:ℚ) / a.den - t) := by push_cast; field_simp
  have hrabs : |a.num - a.den * t| < a.den := by
    have : |((a.num - a.den * t : ℤ):ℚ)| < a.den := by
      rw [hrem, abs_mul, abs_of_pos hd]
      have : |(a.num:ℚ) / a.den - t| < 1 := by
        rcases hcase with ⟨_, _, h1, h2⟩ | ⟨_, _, h1, h2⟩ <;> rw [abs_lt] <;> constructor <;> linarith
      nlinarith
    exact_mod_cast this
  have hmul : a.num = a.den * t + (a.num - a.den * t) := by ring
  have hbt : |t| ≤ |a.num| ∧ |a.num - a.den * t| ≤ |a.num| := by
    have d1 := ha.1
    rcases hcase with ⟨h0, h1, h2, h3⟩ | ⟨h0, h1, h2, h3⟩
    · have n0 : 0 ≤ a.num := by
        rw [le_div_iff₀ hd, zero_mul] at h0; exact_mod_cast h0
      have r0 : a.den * t ≤ a.num := by
        rw [le_div_iff₀ hd] at h2
        have : t * a.den ≤ a.num := by exact_mod_cast h2
        linarith
      have tt : t ≤ a.den * t := by nlinarith
      constructor
      · rw [abs_of_nonneg h1, abs_of_nonneg n0]; linarith
      · rw [abs_of_nonneg (by linarith), abs_of_nonneg n0]; nlinarith
    · have n0 : a.num < 0 := by
        rw [div_lt_iff₀ hd, zero_mul] at h0; exact_mod_cast h0
      have r0 : a.num ≤ a.den * t := by
        rw [div_le_iff₀ hd] at h2
        have : a.num ≤ t * a.den := by exact_mod_cast h2
        linarith
      have tt : a.den * t ≤ t := by nlinarith
      constructor
      · rw [abs_of_nonpos h1, abs_of_neg n0]; linarith
      · rw [abs_of_nonpos (by linarith), abs_of_neg n0]; nlinarith
  refine ⟨t, a.num - a.den * t, ?_, ?_, hrabs, ?_, ?_⟩
  · unfold asFraction decDivmod
    rw [← ht, if_neg hdne, if_neg (by push Not; omega)]
    have e : ((a.num:ℚ) - a.den * t) = ((a.num - a.den * t : ℤ):ℚ) := by push_cast; rfl
    rw [e, rnd_int (by omega)]; rfl
  · rw [hrem]; unfold val; field_simp; ring
  · intro h0; change 0 ≤ (a.num:ℚ) / a.den at h0
    rcases hcase with ⟨_, h1, h2, h3⟩ | ⟨h1, _⟩
    · refine ⟨h1, ?_⟩
      have : (0:ℚ) ≤ ((a.num - a.den * t : ℤ):ℚ) := by
        rw [hrem]; exact mul_nonneg hd.le (by linarith)
      exact_mod_cast this
    · linarith
  · intro h0; change (a.num:ℚ) / a.den ≤ 0 at h0
    rcases hcase with ⟨h00, h1, h2, h3⟩ | ⟨_, h1, h2, h3⟩
    · have z : (a.num:ℚ) / a.den = 0 := le_antisymm h0 h00
      have tz : t = 0 := by rw [ht, z]; simp [truncQ]
      have nz : a.num = 0 := by
        have := (div_eq_zero_iff.mp z).resolve_right hdne; exact_mod_cast this
      rw [tz, nz]; simp
    · refine ⟨h1, ?_⟩
      have : ((a.num - a.den * t : ℤ):ℚ) ≤ 0 := by
        rw [hrem]; exact mul_nonpos_of_nonneg_of_nonpos hd.le (by linarith)
      exact_mod_cast this

example : (⟨-17, 5⟩ : Number).Canonical ∧ |(-17:ℤ)| < 10 ^ 100 := ⟨⟨by decide, by decide⟩, by norm_num⟩

end MC.Props
