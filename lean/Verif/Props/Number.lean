import Verif.Lemmas.Number2

/-!
# C01 - C09, C12: the `Number` class

`p` is the decimal context precision (100 in the program, `numericalengine.py:14`);
all theorems hold for every precision.
-/

namespace MC.Props
open MC Number

/-! ## C01 Lowest terms -/

/-- Integers within the precision: the constructor succeeds, gives lowest terms with
a positive denominator, and denotes exactly the quotient. -/
theorem C01_lowest_terms (p : ℕ) (n d : ℤ) (hd : d ≠ 0) (hn : |n| < 10 ^ p) (hdp : |d| < 10 ^ p) :
    ∃ r, Number.mk' p n d = .ok r ∧ r.Canonical ∧ r.val = (n:ℚ) / d :=
  mk'_int hd hn hdp

/-- Decimal (non-integer) numerator and denominator, e.g. `Number('2.2', '3.3')`. -/
theorem C01_decimal_pair (p : ℕ) (n d : ℚ) (hd : d ≠ 0) (h1 : Representable p (d * n.den))
    (h2 : |n.num * (d * n.den).den| < 10 ^ p) (h3 : |(d * n.den).num| < 10 ^ p) :
    ∃ r, Number.mk' p n d = .ok r ∧ r.Canonical ∧ r.val = n / d :=
  mk'_rat hd h1 h2 h3

/-- A single decimal is stored exactly whatever the length of its numerator. -/
theorem C01_literal (p : ℕ) (x : ℚ) (h : (x.den : ℤ) < 10 ^ p) :
    ∃ r, Number.mk' p x 1 = .ok r ∧ r.Canonical ∧ r.val = x :=
  ⟨_, mk'_lit x h, canonical_ofRat x, val_ofRat x⟩

/-- Lowest terms are unique: two canonical numbers with one value are the same pair. -/
theorem C01_unique (a b : Number) (ha : a.Canonical) (hb : b.Canonical) (h : a.val = b.val) : a = b :=
  canonical_ext ha hb h

/-- Whatever is rounded on the way, a constructed number has a positive denominator. -/
theorem C01_den_pos (p : ℕ) (hp : 1 ≤ p) (n d : ℚ) (r : Number) (h : Number.mk' p n d = .ok r) :
    0 < r.den := mk'_den_pos hp h

/-- Construction fails exactly for a zero denominator. -/
theorem C01_zero_denominator (p : ℕ) (n d : ℚ) : (∃ r, Number.mk' p n d = .ok r) ↔ d ≠ 0 :=
  mk'_ok_iff

example : (10:ℤ) ≠ 0 ∧ |(-25:ℤ)| < 10 ^ 100 ∧ |(10:ℤ)| < 10 ^ 100 := by norm_num
/-- `Number('2.5', -2)` is `-5/4` (`tests/testnumber.py` test_create_22). -/
example : Number.mk' 100 (5/2) (-2) = .ok ⟨-5, 4⟩ := by
  obtain ⟨r, h, hc, hv⟩ := C01_decimal_pair 100 (5/2) (-2) (by norm_num)
    ⟨-4, 0, by decide +kernel, by norm_num⟩ (by decide +kernel) (by decide +kernel)
  rw [h]; congr 1
  exact C01_unique _ _ hc (by constructor <;> decide) (by rw [hv]; norm_num [val])

/-! ## C02 Exact arithmetic -/

/-- Addition: exact and in lowest terms when the integers formed on the way fit. -/
theorem C02_add_exact (p : ℕ) (a b : Number) (ha : a.Canonical) (hb : b.Canonical)
    (h1 : |a.num * (Int.lcm a.den b.den : ℤ)| < 10 ^ p)
    (h2 : |b.num * (Int.lcm a.den b.den : ℤ)| < 10 ^ p)
    (h3 : (Int.lcm a.den b.den : ℤ) < 10 ^ p)
    (h4 : |a.num * ((Int.lcm a.den b.den : ℤ) / a.den)
          + b.num * ((Int.lcm a.den b.den : ℤ) / b.den)| < 10 ^ p) :
    ∃ r, add p a b = .ok r ∧ r.Canonical ∧ r.val = a.val + b.val :=
  add_exact ha.1 hb.1 h1 h2 h3 h4

theorem C02_sub_exact (p : ℕ) (a b : Number) (ha : a.Canonical) (hb : b.Canonical)
    (h1 : |a.num * (Int.lcm a.den b.den : ℤ)| < 10 ^ p)
    (h2 : |b.num * (Int.lcm a.den b.den : ℤ)| < 10 ^ p)
    (h3 : (Int.lcm a.den b.den : ℤ) < 10 ^ p)
    (h4 : |a.num * ((Int.lcm a.den b.den : ℤ) / a.den)
          - b.num * ((Int.lcm a.den b.den : ℤ) / b.den)| < 10 ^ p) :
    ∃ r, sub p a b = .ok r ∧ r.Canonical ∧ r.val = a.val - b.val :=
  sub_exact ha.1 hb.1 h1 h2 h3 h4

theorem C02_mul_exact (p : ℕ) (a b : Number) (ha : a.Canonical) (hb : b.Canonical)
    (h1 : |a.num * b.num| < 10 ^ p) (h2 : a.den * b.den < 10 ^ p) :
    ∃ r, mul p a b = .ok r ∧ r.Canonical ∧ r.val = a.val * b.val :=
  mul_exact ha.1 hb.1 h1 h2

theorem C02_div_exact (p : ℕ) (a b : Number) (ha : a.Canonical) (hb : b.Canonical) (hb0 : b.val ≠ 0)
    (h1 : |a.num * b.den| < 10 ^ p) (h2 : |a.den * b.num| < 10 ^ p) :
    ∃ r, div p a b = .ok r ∧ r.Canonical ∧ r.val = a.val / b.val := by
  refine div_exact ha.1 hb.1 ?_ h1 h2
  rintro h; apply hb0; unfold val; rw [h]; simp

theorem C02_neg_exact (p : ℕ) (a : Number) (ha : a.Canonical) (h : |a.num| < 10 ^ p) :
    (neg p a).Canonical ∧ (neg p a).val = -a.val := by
  have e : neg p a = ⟨-a.num, a.den⟩ := by
    unfold neg; rw [rnd_neg, rnd_int h, rhu_neg, rhu_intCast]
  rw [e]
  refine ⟨⟨ha.1, ?_⟩, ?_⟩
  · show Int.gcd (-a.num) a.den = 1
    rw [Int.neg_gcd]; exact ha.2
  · unfold val; push_cast; rw [neg_div]

theorem C02_abs_exact (p : ℕ) (a : Number) (ha : a.Canonical) (h : |a.num| < 10 ^ p) :
    (Number.abs p a).Canonical ∧ (Number.abs p a).val = |a.val| := by
  have e : Number.abs p a = ⟨|a.num|, a.den⟩ := by
    unfold Number.abs
    rw [show |(a.num:ℚ)| = ((|a.num| : ℤ):ℚ) by push_cast; rfl, rnd_int (by rwa [abs_abs]), rhu_intCast]
  rw [e]
  refine ⟨⟨ha.1, ?_⟩, ?_⟩
  · show Int.gcd |a.num| a.den = 1
    rw [← ha.2]; simp only [Int.gcd, Int.natAbs_abs]
  · unfold val; push_cast; rw [abs_div, abs_of_pos ha.den_pos]

/-- The four operations on numbers of at most `k` digits, `3k+1 ≤ p`; with the
program's precision 100 this covers every number of at most 33 digits. -/
theorem C02_exact_digits (p k : ℕ) (hk : 3 * k + 1 ≤ p) (a b : Number) (ha : a.Canonical)
    (hb : b.Canonical) (da : a.Digits k) (db : b.Digits k) :
    (∃ r, add p a b = .ok r ∧ r.Canonical ∧ r.val = a.val + b.val) ∧
    (∃ r, sub p a b = .ok r ∧ r.Canonical ∧ r.val = a.val - b.val) ∧
    (∃ r, mul p a b = .ok r ∧ r.Canonical ∧ r.val = a.val * b.val) ∧
    (b.val ≠ 0 → ∃ r, div p a b = .ok r ∧ r.Canonical ∧ r.val = a.val / b.val) := by
  obtain ⟨d1, d2, hl, hle⟩ := lcm_facts ha.1 hb.1
  have hdd : |a.den * b.den| < 10 ^ (2*k) := abs_mul_lt da.2 db.2 (by omega)
  have hl2 : |(Int.lcm a.den b.den : ℤ)| < 10 ^ (2*k) := by
    rw [abs_of_pos hl]
    exact lt_of_le_of_lt (le_trans hle (le_abs_self _)) hdd
  have b1 : |a.num * (Int.lcm a.den b.den : ℤ)| < 10 ^ (3*k) := abs_mul_lt da.1 hl2 (by omega)
  have b2 : |b.num * (Int.lcm a.den b.den : ℤ)| < 10 ^ (3*k) := abs_mul_lt db.1 hl2 (by omega)
  have up : ∀ j, j ≤ p → (10:ℤ) ^ j ≤ 10 ^ p := fun j hj => pow_le_pow_right₀ (by norm_num) hj
  have c1 := (normalise_num (p := 3*k) ha.1 d1 b1).2
  have c2 := (normalise_num (p := 3*k) hb.1 d2 b2).2
  have two : (2:ℤ) * 10 ^ (3*k) ≤ 10 ^ p := by
    refine le_trans ?_ (up (3*k+1) hk)
    rw [pow_succ]; nlinarith [show (0:ℤ) < 10 ^ (3*k) by positivity]
  have hl3 : (Int.lcm a.den b.den : ℤ) < 10 ^ p := by
    have := up (2*k) (by omega)
    rw [abs_of_pos hl] at hl2; omega
  refine ⟨?_, ?_, ?_, ?_⟩
  · refine C02_add_exact p a b ha hb (lt_of_lt_of_le b1 (up _ (by omega))) (lt_of_lt_of_le b2 (up _ (by omega))) hl3 ?_
    exact lt_of_le_of_lt (abs_add_le _ _) (by omega)
  · refine C02_sub_exact p a b ha hb (lt_of_lt_of_le b1 (up _ (by omega))) (lt_of_lt_of_le b2 (up _ (by omega))) hl3 ?_
    exact lt_of_le_of_lt (abs_sub _ _) (by omega)
  · refine C02_mul_exact p a b ha hb (abs_mul_lt da.1 db.1 (by omega)) ?_
    exact lt_of_le_of_lt (le_abs_self _) (abs_mul_lt da.2 db.2 (by omega))
  · intro h0
    exact C02_div_exact p a b ha hb h0 (abs_mul_lt da.1 db.2 (by omega)) (abs_mul_lt da.2 db.1 (by omega))

/-- Hence `(a / b) * b = a` exactly, as in the README's and tests' `10 / 3 * 3 = 10`. -/
theorem C02_div_mul_cancel (p k : ℕ) (hk : 6 * k + 1 ≤ p) (a b : Number) (ha : a.Canonical)
    (hb : b.Canonical) (da : a.Digits k) (db : b.Digits k) (hb0 : b.val ≠ 0) :
    ∃ q, div p a b = .ok q ∧ mul p q b = .ok a := by
  obtain ⟨q, hq, hqc, hqv⟩ := (C02_exact_digits p k (by omega) a b ha hb da db).2.2.2 hb0
  refine ⟨q, hq, ?_⟩
  have hb0' : b.num ≠ 0 := by rintro h; apply hb0; unfold val; rw [h]; simp
  have hq2 : q.val = ((a.num * b.den : ℤ) : ℚ) / ((a.den * b.num : ℤ)) := by
    rw [hqv]; unfold val
    have := ha.den_ne; have := hb.den_ne
    have : (b.num:ℚ) ≠ 0 := by exact_mod_cast hb0'
    push_cast; field_simp
  have hne : a.den * b.num ≠ 0 := mul_ne_zero ha.1.ne' hb0'
  obtain ⟨qn, qd⟩ := canonical_val_num hqc
  have n0 : a.num * b.den ≠ 0 ∨ a.num * b.den = 0 := (em _).symm
  have dq : q.Digits (2*k) := by
    constructor
    · rw [qn, hq2]
      have := Rat.num_dvd (a.num * b.den) hne
      rw [Rat.divInt_eq_div] at this
      rcases n0 with h | h
      · refine lt_of_le_of_lt ?_ (abs_mul_lt da.1 db.2 (by omega : k + k ≤ 2*k))
        exact Int.le_of_dvd (abs_pos.mpr h) ((abs_dvd_abs _ _).mpr this)
      · rw [h]; simp
    · rw [qd, hq2]
      have := Rat.den_dvd (a.num * b.den) (a.den * b.num)
      rw [Rat.divInt_eq_div] at this
      refine lt_of_le_of_lt ?_ (abs_mul_lt da.2 db.1 (by omega : k + k ≤ 2*k))
      exact Int.le_of_dvd (abs_pos.mpr hne) ((abs_dvd_abs _ _).mpr this)
  have up : ∀ i j : ℕ, i ≤ j → (10:ℤ) ^ i ≤ 10 ^ j := fun i j hj => pow_le_pow_right₀ (by norm_num) hj
  have db2 : b.Digits (2*k) := ⟨lt_of_lt_of_le db.1 (up _ _ (by omega)), lt_of_lt_of_le db.2 (up _ _ (by omega))⟩
  obtain ⟨r, hr, hrc, hrv⟩ := (C02_exact_digits p (2*k) (by omega) q b hqc hb dq db2).2.2.1
  rw [hr]; congr 1
  refine C01_unique _ _ hrc ha ?_
  rw [hrv, hqv]; field_simp

example : (⟨11, 6⟩ : Number).Canonical ∧ (⟨3, 10⟩ : Number).Canonical ∧ Digits 33 ⟨11, 6⟩ ∧
    Digits 33 ⟨3, 10⟩ ∧ 3 * 33 + 1 ≤ 100 := by
  refine ⟨⟨by decide, by decide⟩, ⟨by decide, by decide⟩, ⟨?_, ?_⟩, ⟨?_, ?_⟩, ?_⟩ <;> norm_num

/-- Division (`/`) raises exactly when the divisor is zero, at every size. -/
theorem C02_div_by_zero (p : ℕ) (hp : 1 ≤ p) (a b : Number) (ha : a.Canonical) :
    (∃ r, div p a b = .ok r) ↔ b.num ≠ 0 := by
  unfold div
  rw [mk'_ok_iff, Ne, rnd_eq_zero_iff hp]
  have := ha.den_ne
  simp [this]

/-- Beyond the precision exactness fails: adding 1 to `10^p` gives `10^p` back. -/
theorem C02_beyond_precision (p : ℕ) (hp : 1 ≤ p) :
    add p ⟨10 ^ p, 1⟩ ⟨1, 1⟩ = .ok ⟨10 ^ p, 1⟩ := by
  obtain ⟨q, rfl⟩ : ∃ q, p = q + 1 := ⟨p - 1, by omega⟩
  have f1 : ∀ e : ℕ, rnd (q+1) ((10:ℚ) ^ e) = 10 ^ e := fun e =>
    rnd_of_fits ⟨1, e, by simp, by rw [abs_one]; exact one_lt_pow₀ (by norm_num) (by omega)⟩
  have f2 : rnd (q+1) (1:ℚ) = 1 := by have := f1 0; simpa using this
  have big : rnd (q+1) ((10:ℚ) ^ (q+1) + 1) = 10 ^ (q+1) := by
    have hpos : (0:ℚ) < 10 ^ (q+1) + 1 := by positivity
    have hle : lastExp (q+1) ((10:ℚ)^(q+1) + 1) = 1 := by
      rw [lastExp_eq_of_bounds (q+1) (k := ((q+1:ℕ):ℤ))]
      · push_cast; ring
      · rw [abs_of_pos hpos, zpow_natCast]; linarith
      · rw [abs_of_pos hpos, zpow_add₀ (by norm_num), zpow_natCast]
        have : (1:ℚ) ≤ 10 ^ (q+1) := one_le_pow₀ (by norm_num)
        norm_num; linarith
    unfold rnd; rw [if_neg hpos.ne', hle]
    have : rhu (((10:ℚ)^(q+1) + 1) / 10 ^ (1:ℤ)) = 10 ^ q := by
      unfold rhu; rw [if_pos (by positivity), Int.floor_eq_iff]
      rw [pow_succ]; push_cast; constructor <;> norm_num <;> linarith [show (0:ℚ) ≤ 10^q by positivity]
    rw [this]; push_cast; rw [pow_succ]
  unfold add normalise
  have l1 : (Int.lcm (1:ℤ) 1) = 1 := by decide
  simp only [l1]
  push_cast
  simp only [mul_one, div_one, f1, f2, big]
  have := mk'_lit (p := q+1) ((10:ℚ)^(q+1)) (by
    have : ((10:ℚ)^(q+1)).den = 1 := by
      rw [show (10:ℚ)^(q+1) = ((10^(q+1) : ℤ) : ℚ) by push_cast; rfl]; simp
    rw [this]; exact_mod_cast one_lt_pow₀ (by norm_num : (1:ℤ) < 10) (by omega : q + 1 ≠ 0))
  rw [this]
  congr 1
  have e : (10:ℚ)^(q+1) = ((10^(q+1) : ℤ) : ℚ) := by push_cast; rfl
  rw [e]; simp

/-! ## C03 Rounding -/

/-- A rounded value has at most `p` digits, and no value with `p` digits is closer. -/
theorem C03_nearest (p : ℕ) (hp : 1 ≤ p) (x : ℚ) :
    Representable p (rnd p x) ∧ ∀ y, Representable p y → |x - rnd p x| ≤ |x - y| :=
  ⟨fits_rnd hp x, fun y hy => rnd_nearest hp x y hy⟩

/-- Values with at most `p` digits are not changed. -/
theorem C03_exact (p : ℕ) (x : ℚ) (h : Representable p x) : rnd p x = x := rnd_of_fits h

/-- The error is at most half a unit of the last kept digit; with the leading digit
of `x` at `10^k` that unit is `10^(k+1-p)`. -/
theorem C03_half_unit (p : ℕ) (x : ℚ) (k : ℤ) (h1 : (10:ℚ) ^ k ≤ |x|) (h2 : |x| < 10 ^ (k+1)) :
    |x - rnd p x| ≤ 1/2 * 10 ^ (k + 1 - p) := by
  have := rnd_error p x
  rwa [lastExp_eq_of_bounds p h1 h2] at this

/-- Ties are resolved away from zero. -/
theorem C03_tie (p : ℕ) (x : ℚ) (k : ℤ) (h1 : (10:ℚ) ^ k ≤ |x|) (h2 : |x| < 10 ^ (k+1))
    (ht : |x - rnd p x| = 1/2 * 10 ^ (k + 1 - p)) : |x| < |rnd p x| := by
  have hx : x ≠ 0 := by
    rintro rfl; simp at h1; exact absurd h1 (not_le.mpr (ten_pos k))
  have hle := lastExp_eq_of_bounds p h1 h2
  unfold rnd at ht ⊢
  rw [if_neg hx, hle] at ht
  rw [if_neg hx, hle]
  set t : ℚ := 10 ^ (k + 1 - p : ℤ) with htd
  have htp : 0 < t := ten_pos _
  have e : x - (rhu (x / t) : ℚ) * t = (x / t - rhu (x / t)) * t := by field_simp
  rw [e, abs_mul, abs_of_pos htp] at ht
  have ht' : |x / t - rhu (x / t)| = 1/2 := mul_right_cancel₀ htp.ne' ht
  have := rhu_tie_away _ ht'
  rw [abs_mul, abs_of_pos htp]
  rw [abs_div, abs_of_pos htp, div_lt_iff₀ htp] at this
  exact this

/-- Rounding never reverses an order, and is symmetric in sign. -/
theorem C03_monotone (p : ℕ) (hp : 1 ≤ p) (x y : ℚ) (h : x ≤ y) : rnd p x ≤ rnd p y := rnd_mono hp h
theorem C03_symmetric (p : ℕ) (x : ℚ) : rnd p (-x) = -rnd p x := rnd_neg p x

example : ((10:ℚ) ^ (0:ℤ) ≤ |(5/2:ℚ)|) ∧ |(5/2:ℚ)| < 10 ^ ((0:ℤ)+1) ∧
    |(5/2:ℚ) - rnd 1 (5/2)| = 1/2 * 10 ^ ((0:ℤ) + 1 - (1:ℕ)) := by
  have h : rnd 1 (5/2) = 3 := by
    have hle : lastExp 1 (5/2) = 0 := by
      rw [lastExp_eq_of_bounds 1 (k := 0)] <;> norm_num
    unfold rnd; rw [hle]; unfold rhu; norm_num
  rw [h]; norm_num

/-! ## C04 Commutativity without size bounds -/

theorem C04_add_comm (p : ℕ) (a b : Number) : add p a b = add p b a := by
  unfold add normalise
  simp only [Int.lcm_comm a.den b.den]
  rw [add_comm]

theorem C04_mul_comm (p : ℕ) (a b : Number) : mul p a b = mul p b a := by
  unfold mul; rw [mul_comm (a.num:ℚ), mul_comm (a.den:ℚ)]

/-! ## C05 Comparisons -/

/-- Exactly one of `<`, `==`, `>` holds, and the other operators agree. -/
theorem C05_trichotomy (p : ℕ) (a b : Number) :
    (lt p a b = true ∧ eq p a b = false ∧ gt p a b = false) ∨
    (lt p a b = false ∧ eq p a b = true ∧ gt p a b = false) ∨
    (lt p a b = false ∧ eq p a b = false ∧ gt p a b = true) := by
  unfold lt eq gt
  rcases lt_trichotomy (toDecimal p a) (toDecimal p b) with h | h | h
  · left; simp [h, h.ne, h.le]
  · right; left; simp [h]
  · right; right; simp [h, h.ne', h.le]

theorem C05_derived (p : ℕ) (a b : Number) :
    le p a b = (lt p a b || eq p a b) ∧ ge p a b = (gt p a b || eq p a b) ∧
    ne p a b = !eq p a b ∧ gt p a b = lt p b a ∧ ge p a b = le p b a := by
  unfold le lt eq ge gt ne
  refine ⟨?_, ?_, ?_, ?_, ?_⟩
  · rw [Bool.eq_iff_iff, Bool.or_eq_true, decide_eq_true_iff, decide_eq_true_iff, decide_eq_true_iff]
    exact le_iff_lt_or_eq
  · rw [Bool.eq_iff_iff, Bool.or_eq_true, decide_eq_true_iff, decide_eq_true_iff, decide_eq_true_iff]
    exact le_iff_lt_or_eq.trans (or_congr Iff.rfl eq_comm)
  · simp
  · simp
  · simp

theorem C05_equivalence (p : ℕ) : (∀ a, eq p a a = true) ∧ (∀ a b, eq p a b = true → eq p b a = true) ∧
    (∀ a b c, eq p a b = true → eq p b c = true → eq p a c = true) := by
  unfold eq
  refine ⟨by simp, ?_, ?_⟩
  · intro a b h; simp at h ⊢; exact h.symm
  · intro a b c h1 h2; simp at h1 h2 ⊢; exact h1.trans h2

theorem C05_transitive (p : ℕ) (a b c : Number) (h1 : lt p a b = true) (h2 : lt p b c = true) :
    lt p a c = true := by
  unfold lt at *; simp at *; exact h1.trans h2

/-- A reported strict order is the true order of the exact values; and a true order
is never reported reversed. -/
theorem C05_sound (p : ℕ) (hp : 1 ≤ p) (a b : Number) :
    (lt p a b = true → a.val < b.val) ∧ (a.val ≤ b.val → le p a b = true) := by
  unfold lt le toDecimal val
  constructor
  · intro h; simp at h
    by_contra hc; push Not at hc
    have := rnd_mono hp hc; linarith
  · intro h; simp; exact rnd_mono hp h

/-- Numbers whose quotients need at most `p` digits are compared exactly. -/
theorem C05_exact (p : ℕ) (a b : Number) (ha : Representable p a.val) (hb : Representable p b.val) :
    (lt p a b = true ↔ a.val < b.val) ∧ (eq p a b = true ↔ a.val = b.val) := by
  have e1 : toDecimal p a = a.val := rnd_of_fits ha
  have e2 : toDecimal p b = b.val := rnd_of_fits hb
  unfold lt eq; rw [e1, e2]; simp

/-- Values that differ by more than one part in `10^(p-1)` are told apart. -/
theorem C05_separation (p : ℕ) (a b : Number) (h : 5 * (|a.val| + |b.val|) < (b.val - a.val) * 10 ^ p) :
    lt p a b = true := by
  have ea := rnd_rel_error p a.val
  have eb := rnd_rel_error p b.val
  unfold lt toDecimal
  simp only [decide_eq_true_eq]
  change rnd p a.val < rnd p b.val
  have hp : (0:ℚ) < 10 ^ p := by positivity
  have h1 : (rnd p a.val - a.val) * 10 ^ p ≤ 5 * |a.val| := by
    refine le_trans (mul_le_mul_of_nonneg_right ?_ hp.le) ea
    rw [← abs_neg]; refine le_trans ?_ (le_abs_self _); linarith
  have h2 : (b.val - rnd p b.val) * 10 ^ p ≤ 5 * |b.val| :=
    le_trans (mul_le_mul_of_nonneg_right (le_abs_self _) hp.le) eb
  by_contra hc; push Not at hc
  have : (rnd p b.val - rnd p a.val) * 10 ^ p ≤ 0 :=
    mul_nonpos_of_nonpos_of_nonneg (by linarith) hp.le
  nlinarith

example : 5 * (|val ⟨1,3⟩| + |val ⟨1,2⟩|) < (val ⟨1,2⟩ - val ⟨1,3⟩) * 10 ^ 100 := by
  norm_num [val]

/-! ## C06 Hashing -/

/-- Full statement: `∀ a b, a.Canonical → b.Canonical → eq p a b → hash a = hash b`.
It is false of the code: at every precision `1/3` equals its `p`-digit truncation,
a different canonical pair, so every injective hash tells them apart. -/
theorem C06_hash_violation (p : ℕ) (hp : 1 ≤ p) :
    ∃ a b : Number, a.Canonical ∧ b.Canonical ∧ eq p a b = true ∧
      ∀ {α : Type} (H : ℤ × ℤ → α), Function.Injective H → hash H a ≠ hash H b := by
  obtain ⟨q, rfl⟩ : ∃ q, p = q + 1 := ⟨p - 1, by omega⟩
  obtain ⟨t, ht⟩ : ∃ t : ℤ, 10 ^ (q+1) = 3 * t + 1 := by
    have : ∀ n : ℕ, ∃ t : ℤ, 10 ^ n = 3 * t + 1 := by
      intro n; induction n with
      | zero => exact ⟨0, by norm_num⟩
      | succ n ih => obtain ⟨t, h⟩ := ih; exact ⟨10 * t + 3, by rw [pow_succ, h]; ring⟩
    exact this _
  have hq0 : (0:ℤ) < 10 ^ q := by positivity
  have ht0 : 0 < t := by rw [pow_succ] at ht; omega
  have htb : t < 10 ^ (q+1) := by omega
  have hcop : Int.gcd t (10 ^ (q+1)) = 1 := by
    have h1 : ((Int.gcd t (10 ^ (q+1)) : ℕ) : ℤ) ∣ 1 := by
      have e : (1:ℤ) = 10 ^ (q+1) - 3 * t := by rw [ht]; ring
      rw [e]
      exact dvd_sub (Int.gcd_dvd_right ..) ((Int.gcd_dvd_left ..).mul_left _)
    have := Int.eq_one_of_dvd_one (by positivity) h1
    exact_mod_cast this
  refine ⟨⟨1, 3⟩, ⟨t, 10 ^ (q+1)⟩, ⟨by norm_num, by decide⟩, ⟨by positivity, hcop⟩, ?_, ?_⟩
  · unfold eq toDecimal
    simp only [decide_eq_true_eq]
    have hfit : Fits (q+1) ((t:ℚ) / ((10 ^ (q+1) : ℤ) : ℚ)) :=
      ⟨t, -((q+1 : ℕ) : ℤ), by rw [zpow_neg, zpow_natCast]; push_cast; rw [div_eq_mul_inv],
        by rwa [abs_of_pos ht0]⟩
    rw [rnd_of_fits hfit]
    have hle : lastExp (q+1) (((1:ℤ):ℚ) / ((3:ℤ):ℚ)) = -((q+1 : ℕ) : ℤ) := by
      rw [lastExp_eq_of_bounds (q+1) (k := -1)]
      · push_cast; ring
      · norm_num [abs_of_pos]
      · norm_num [abs_of_pos]
    unfold rnd; rw [if_neg (by norm_num), hle]
    have hr : rhu (((1:ℤ):ℚ) / ((3:ℤ):ℚ) / 10 ^ (-((q+1 : ℕ) : ℤ))) = t := by
      have : ((1:ℤ):ℚ) / ((3:ℤ):ℚ) / 10 ^ (-((q+1 : ℕ) : ℤ)) = t + 1/3 := by
        rw [zpow_neg, zpow_natCast]
        have : ((10:ℚ)^(q+1)) = 3 * t + 1 := by exact_mod_cast ht
        rw [this]; push_cast; field_simp
      rw [this]
      have ht0q : (0:ℚ) < t := by exact_mod_cast ht0
      unfold rhu; rw [if_pos (by linarith), Int.floor_eq_iff]
      constructor <;> linarith
    rw [hr, zpow_neg, zpow_natCast]; push_cast; rw [div_eq_mul_inv]
  · intro α H hH h
    have := hH h
    simp only [Prod.mk.injEq] at this
    have h1 : (3:ℤ) = 10 ^ (q+1) := this.2
    rw [pow_succ] at h1; omega

/-- What holds: numbers whose quotients need at most `p` digits hash consistently.
Missing from the full statement: numbers whose decimal expansion is longer. -/
theorem C06_hash_partial (p : ℕ) {α : Type} (H : ℤ × ℤ → α) (a b : Number) (ha : a.Canonical)
    (hb : b.Canonical) (fa : Representable p a.val) (fb : Representable p b.val)
    (h : eq p a b = true) : hash H a = hash H b := by
  have := canonical_ext ha hb ((C05_exact p a b fa fb).2.mp h)
  rw [this]

example : Representable 100 (val ⟨5, 4⟩) := ⟨125, -2, by norm_num [val], by norm_num⟩

end MC.Props
