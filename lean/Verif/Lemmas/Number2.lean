import Verif.Lemmas.Number

namespace MC

/-- `k` is `x` rounded to the nearest integer, ties away from zero. -/
theorem rhu_nearest (x : ℚ) (k : ℤ) : |x - (rhu x : ℚ)| ≤ |x - k| := by
  by_cases h : k = rhu x
  · rw [h]
  · have h1 := rhu_abs_sub_le x
    have h2 : (1:ℚ) ≤ |(k:ℚ) - rhu x| := by
      have : (1:ℤ) ≤ |k - rhu x| := Int.one_le_abs (sub_ne_zero.mpr h)
      exact_mod_cast this
    have h3 : |(k:ℚ) - rhu x| ≤ |x - k| + |x - (rhu x:ℚ)| := by
      have := abs_sub_abs_le_abs_sub (0:ℚ) 0
      calc |(k:ℚ) - rhu x| = |-(x - k) + (x - rhu x)| := by congr 1; ring
        _ ≤ |-(x - k)| + |x - rhu x| := abs_add_le _ _
        _ = _ := by rw [abs_neg]
    linarith

theorem rhu_tie_away (x : ℚ) (h : |x - (rhu x : ℚ)| = 1/2) : |x| < |(rhu x : ℚ)| := by
  have key : ∀ y : ℚ, 0 ≤ y → |y - (rhu y : ℚ)| = 1/2 → y < (rhu y : ℚ) := by
    intro y hy ht
    unfold rhu at ht ⊢; rw [if_pos hy] at ht ⊢
    have h1 := Int.floor_le (y + 1/2)
    have h2 := Int.lt_floor_add_one (y + 1/2)
    rcases (abs_eq (by norm_num)).mp ht with h | h <;> linarith
  rcases le_total 0 x with h0 | h0
  · have := key x h0 h
    rw [abs_of_nonneg h0]; exact lt_of_lt_of_le this (le_abs_self _)
  · have h' : |-x - (rhu (-x) : ℚ)| = 1/2 := by
      rw [rhu_neg]; push_cast; rw [← abs_neg, ← h]; congr 1; ring
    have := key (-x) (by linarith) h'
    rw [rhu_neg] at this; push_cast at this
    rw [abs_of_nonpos h0]; rw [← abs_neg ((rhu x : ℚ))]
    exact lt_of_lt_of_le this (le_abs_self _)

/-- The rounded value is at least as close as every value with `p` digits. -/
theorem rnd_nearest {p : ℕ} (hp : 1 ≤ p) (x y : ℚ) (hy : Fits p y) :
    |x - rnd p x| ≤ |x - y| := by
  by_cases hx : x = 0
  · subst hx; rw [rnd_zero]; simp
  -- it is enough to treat multiples of the last unit
  have grid : ∀ k : ℤ, |x - rnd p x| ≤ |x - k * 10 ^ lastExp p x| := by
    intro k
    unfold rnd; rw [if_neg hx]
    have h := rhu_nearest (x / 10 ^ lastExp p x) k
    have hpos := ten_pos (lastExp p x)
    have e : ∀ z : ℚ, |x - z * 10 ^ lastExp p x| = |x / 10 ^ lastExp p x - z| * 10 ^ lastExp p x := by
      intro z
      rw [← abs_of_pos hpos, ← abs_mul, abs_of_pos hpos]
      congr 1; field_simp
    rw [e, e]
    exact mul_le_mul_of_nonneg_right h hpos.le
  obtain ⟨m, f, rfl, hm⟩ := hy
  by_cases hf : lastExp p x ≤ f
  · obtain ⟨k, hk⟩ : ∃ k : ℕ, f = lastExp p x + k := ⟨(f - lastExp p x).toNat, by omega⟩
    have := grid (m * 10 ^ k)
    rw [hk, zpow_add₀ (by norm_num), zpow_natCast]
    convert this using 2
    push_cast; ring
  · push Not at hf
    obtain ⟨h1, _⟩ := log_bounds hx
    have hmq : |(m:ℚ)| ≤ 10 ^ p := by exact_mod_cast hm.le
    have hlt : |(m:ℚ) * 10 ^ f| ≤ (10:ℚ) ^ Int.log 10 |x| := by
      rw [abs_mul, abs_of_pos (ten_pos f)]
      calc |(m:ℚ)| * 10 ^ f ≤ 10 ^ p * 10 ^ f := mul_le_mul_of_nonneg_right hmq (ten_pos f).le
        _ = (10:ℚ) ^ ((p:ℤ) + f) := by rw [zpow_add₀ (by norm_num), zpow_natCast]
        _ ≤ _ := zpow_le_zpow_right₀ (by norm_num) (by unfold lastExp at hf; omega)
    obtain ⟨q, rfl⟩ : ∃ q, p = q + 1 := ⟨p - 1, by omega⟩
    have hpow : (10:ℚ) ^ Int.log 10 |x| = ((10 ^ q : ℤ) : ℚ) * 10 ^ lastExp (q+1) x := by
      push_cast
      rw [← zpow_natCast (10:ℚ) q, ← zpow_add₀ (by norm_num)]
      congr 1; unfold lastExp; push_cast; ring
    rcases lt_or_gt_of_ne hx with hneg | hpos
    · have g := grid (-(10 ^ q))
      have : ((-(10 ^ q) : ℤ) : ℚ) * 10 ^ lastExp (q+1) x = -(10:ℚ) ^ Int.log 10 |x| := by
        rw [hpow]; push_cast; ring
      rw [this] at g
      refine le_trans g ?_
      rw [abs_of_neg hneg] at h1 hlt ⊢
      have h2 := (abs_le.mp hlt).1
      rw [abs_of_nonpos (by linarith), abs_of_nonpos (by linarith)]
      linarith
    · have g := grid (10 ^ q)
      rw [← hpow] at g
      refine le_trans g ?_
      rw [abs_of_pos hpos] at h1 hlt ⊢
      have h2 := (abs_le.mp hlt).2
      rw [abs_of_nonneg (by linarith), abs_of_nonneg (by linarith)]
      linarith

namespace Number

/-- The constructor on a rational numerator and denominator 1, e.g. a literal. -/
theorem mk'_lit {p : ℕ} (x : ℚ) (h : (x.den : ℤ) < 10 ^ p) :
    mk' p x 1 = .ok ⟨x.num, x.den⟩ := by
  have hdp : |(x.den : ℤ)| < 10 ^ p := by rwa [abs_of_nonneg (by positivity)]
  have hr : rnd p (1 * (x.den:ℚ)) = ((x.den : ℤ) : ℚ) := by
    rw [one_mul, ← rnd_int hdp]; push_cast; rfl
  have hden : 0 < x.den := x.den_pos
  have tr : ∀ n : ℤ, truncQ (n:ℚ) = n := truncQ_intCast
  unfold mk'
  rw [if_neg (by norm_num)]
  by_cases hi : isInt x = true
  · obtain ⟨n, rfl⟩ := (isInt_iff x).mp hi
    simp only [hi, if_true]
    have h1 : isInt (1:ℚ) = true := by rfl
    have hg : Int.gcd (truncQ (n:ℚ)) (truncQ (1:ℚ)) = 1 := by
      rw [tr, show truncQ (1:ℚ) = 1 from tr 1]; simp
    simp only [h1, if_true]
    rw [if_neg (by norm_num : ¬ (1:ℚ) < 0), if_neg (by norm_num : ¬ (1:ℚ) < 0), hg]
    simp only [lt_irrefl, if_false, rhu_intCast]
    rw [show rhu (1:ℚ) = 1 from rhu_intCast 1]
    simp
  · simp only [Bool.not_eq_true] at hi
    simp only [hi, Bool.false_eq_true, if_false]
    rw [hr]
    simp only [isInt_intCast, if_true]
    have hn : ¬ (((x.den:ℤ):ℚ) < 0) := by push_cast; push Not; positivity
    rw [if_neg hn, if_neg hn, tr, tr]
    have hg : Int.gcd x.num (x.den:ℤ) = 1 := x.reduced
    rw [hg]
    simp only [lt_irrefl, if_false, rhu_intCast]

/-- Exactness of the constructor on decimal arguments. -/
theorem mk'_rat {p : ℕ} {n d : ℚ} (hd : d ≠ 0) (h1 : Fits p (d * n.den))
    (h2 : |n.num * (d * n.den).den| < 10 ^ p) (h3 : |(d * n.den).num| < 10 ^ p) :
    ∃ r, mk' p n d = .ok r ∧ r.Canonical ∧ r.val = n / d := by
  set d1 := d * n.den with hd1
  have hnd : (n.den : ℚ) ≠ 0 := by exact_mod_cast n.den_nz
  have hd10 : d1 ≠ 0 := mul_ne_zero hd hnd
  have hn0 : d1.num ≠ 0 := Rat.num_ne_zero.mpr hd10
  obtain ⟨r, hr, hc, hv⟩ := mk'_int hn0 h2 h3
  have hval : ((n.num * d1.den : ℤ) : ℚ) / (d1.num : ℤ) = n / d := by
    have e1 : (n.num : ℚ) = n * n.den := by rw [Rat.mul_den_eq_num]
    have e2 : (d1.num : ℚ) = d1 * d1.den := by rw [Rat.mul_den_eq_num]
    have hd1d : (d1.den:ℚ) ≠ 0 := by exact_mod_cast d1.den_nz
    push_cast
    rw [e1, e2, hd1]
    rw [← hd1]
    rw [hd1, div_eq_div_iff (mul_ne_zero (mul_ne_zero hd hnd) (by rw [← hd1]; exact hd1d)) hd]
    ring
  rw [hval] at hv
  refine ⟨r, ?_, hc, hv⟩
  rw [← hr]
  have hnd1 : isInt n = true → d1 = d := by
    intro hi
    obtain ⟨m, rfl⟩ := (isInt_iff n).mp hi
    rw [hd1]; simp
  have en1 : (if isInt n then n else (n.num:ℚ)) = (n.num : ℚ) := by
    split
    · rename_i hi; obtain ⟨m, rfl⟩ := (isInt_iff n).mp hi; simp
    · rfl
  have ed1 : (if isInt n then d else rnd p d1) = d1 := by
    split
    · rename_i hi; exact (hnd1 hi).symm
    · exact rnd_of_fits h1
  have en2 : (if isInt d1 then (n.num:ℚ) else rnd p (n.num * d1.den)) = ((n.num * d1.den : ℤ):ℚ) := by
    split
    · rename_i hi; obtain ⟨m, hm⟩ := (isInt_iff d1).mp hi; rw [hm]; simp
    · rw [← rnd_int h2]; push_cast; rfl
  have ed2 : (if isInt d1 then d1 else (d1.num:ℚ)) = (d1.num : ℚ) := by
    split
    · rename_i hi; obtain ⟨m, hm⟩ := (isInt_iff d1).mp hi; rw [hm]; simp
    · rfl
  have hn0' : ¬ ((d1.num : ℚ) = 0) := by exact_mod_cast hn0
  unfold mk'
  rw [if_neg hd, if_neg hn0']
  simp only [← hd1, en1, ed1, en2, ed2, isInt_intCast, if_true]

theorem add_exact {p : ℕ} {a b : Number} (ha : 0 < a.den) (hb : 0 < b.den)
    (h1 : |a.num * (Int.lcm a.den b.den : ℤ)| < 10 ^ p)
    (h2 : |b.num * (Int.lcm a.den b.den : ℤ)| < 10 ^ p)
    (h3 : (Int.lcm a.den b.den : ℤ) < 10 ^ p)
    (h4 : |a.num * ((Int.lcm a.den b.den : ℤ) / a.den) + b.num * ((Int.lcm a.den b.den : ℤ) / b.den)| < 10 ^ p) :
    ∃ r, add p a b = .ok r ∧ r.Canonical ∧ r.val = a.val + b.val := by
  obtain ⟨d1, d2, hl, _⟩ := lcm_facts ha hb
  have hn := normalise_exact (p := p) ha hb h1 h2
  simp only at hn d1 d2 hl
  unfold add
  rw [hn]
  set l : ℤ := (Int.lcm a.den b.den : ℤ) with hldef
  simp only
  rw [← Int.cast_add, rnd_int h4]
  obtain ⟨r, hr, hc, hv⟩ := mk'_int (p := p) hl.ne' h4 (by rwa [abs_of_pos hl])
  refine ⟨r, hr, hc, ?_⟩
  rw [hv, ← scaled_val ha hl d1, ← scaled_val hb hl d2]
  push_cast; ring

theorem sub_exact {p : ℕ} {a b : Number} (ha : 0 < a.den) (hb : 0 < b.den)
    (h1 : |a.num * (Int.lcm a.den b.den : ℤ)| < 10 ^ p)
    (h2 : |b.num * (Int.lcm a.den b.den : ℤ)| < 10 ^ p)
    (h3 : (Int.lcm a.den b.den : ℤ) < 10 ^ p)
    (h4 : |a.num * ((Int.lcm a.den b.den : ℤ) / a.den) - b.num * ((Int.lcm a.den b.den : ℤ) / b.den)| < 10 ^ p) :
    ∃ r, sub p a b = .ok r ∧ r.Canonical ∧ r.val = a.val - b.val := by
  obtain ⟨d1, d2, hl, _⟩ := lcm_facts ha hb
  have hn := normalise_exact (p := p) ha hb h1 h2
  simp only at hn d1 d2 hl
  unfold sub
  rw [hn]
  set l : ℤ := (Int.lcm a.den b.den : ℤ) with hldef
  simp only
  rw [← Int.cast_sub, rnd_int h4]
  obtain ⟨r, hr, hc, hv⟩ := mk'_int (p := p) hl.ne' h4 (by rwa [abs_of_pos hl])
  refine ⟨r, hr, hc, ?_⟩
  rw [hv, ← scaled_val ha hl d1, ← scaled_val hb hl d2]
  push_cast; ring

theorem mul_exact {p : ℕ} {a b : Number} (ha : 0 < a.den) (hb : 0 < b.den)
    (h1 : |a.num * b.num| < 10 ^ p) (h2 : a.den * b.den < 10 ^ p) :
    ∃ r, mul p a b = .ok r ∧ r.Canonical ∧ r.val = a.val * b.val := by
  have hpos : 0 < a.den * b.den := mul_pos ha hb
  unfold mul
  rw [← Int.cast_mul, ← Int.cast_mul, rnd_int h1, rnd_int (by rwa [abs_of_pos hpos])]
  obtain ⟨r, hr, hc, hv⟩ := mk'_int (p := p) hpos.ne' h1 (by rwa [abs_of_pos hpos])
  refine ⟨r, hr, hc, ?_⟩
  rw [hv]; unfold val
  have h1 : (a.den:ℚ) ≠ 0 := by exact_mod_cast ha.ne'
  have h2 : (b.den:ℚ) ≠ 0 := by exact_mod_cast hb.ne'
  push_cast; field_simp

theorem div_exact {p : ℕ} {a b : Number} (ha : 0 < a.den) (hb : 0 < b.den) (hb0 : b.num ≠ 0)
    (h1 : |a.num * b.den| < 10 ^ p) (h2 : |a.den * b.num| < 10 ^ p) :
    ∃ r, div p a b = .ok r ∧ r.Canonical ∧ r.val = a.val / b.val := by
  unfold div
  rw [← Int.cast_mul, ← Int.cast_mul, rnd_int h1, rnd_int h2]
  obtain ⟨r, hr, hc, hv⟩ := mk'_int (p := p) (mul_ne_zero ha.ne' hb0) h1 h2
  refine ⟨r, hr, hc, ?_⟩
  rw [hv]; unfold val
  have h1 : (a.den:ℚ) ≠ 0 := by exact_mod_cast ha.ne'
  have h2 : (b.den:ℚ) ≠ 0 := by exact_mod_cast hb.ne'
  have h3 : (b.num:ℚ) ≠ 0 := by exact_mod_cast hb0
  push_cast; field_simp

theorem abs_mul_lt {x y : ℤ} {i j k : ℕ} (hx : |x| < 10 ^ i) (hy : |y| < 10 ^ j) (h : i + j ≤ k) :
    |x * y| < 10 ^ k := by
  rw [abs_mul]
  calc |x| * |y| < 10 ^ i * 10 ^ j := by
        apply mul_lt_mul'' hx hy (abs_nonneg _) (abs_nonneg _)
    _ = 10 ^ (i + j) := by rw [pow_add]
    _ ≤ 10 ^ k := pow_le_pow_right₀ (by norm_num) h

theorem floor_toDecimal {p : ℕ} (hp : 1 ≤ p) {a : Number} (ha : 0 < a.den) (h : 5 * |a.num| < 10 ^ p) :
    ⌊toDecimal p a⌋ = ⌊a.val⌋ := by
  unfold toDecimal val
  have hdq : (0:ℚ) < a.den := by exact_mod_cast ha
  have hfl : |(a.num:ℚ) / a.den| ≤ |(a.num:ℚ)| := by
    rw [abs_div, abs_of_pos hdq]
    apply div_le_self (abs_nonneg _)
    exact_mod_cast ha
  have hlow : |⌊(a.num:ℚ) / a.den⌋| < 10 ^ p := by
    by_cases h0 : a.num = 0
    · rw [h0]; simp
    have h1 := Int.floor_le ((a.num:ℚ) / a.den)
    have h2 := Int.lt_floor_add_one ((a.num:ℚ) / a.den)
    have hn1 : (1:ℤ) ≤ |a.num| := Int.one_le_abs h0
    have hb' : (5:ℚ) * |(a.num:ℚ)| < 10 ^ p := by exact_mod_cast h
    have hn1' : (1:ℚ) ≤ |(a.num:ℚ)| := by exact_mod_cast hn1
    have := abs_le.mp hfl
    have : |((⌊(a.num:ℚ) / a.den⌋ : ℤ):ℚ)| < 10 ^ p := by
      rw [abs_lt]; constructor <;> linarith
    exact_mod_cast this
  rw [Int.floor_eq_iff]
  constructor
  · have := rnd_mono hp (Int.floor_le ((a.num:ℚ) / a.den))
    rwa [rnd_int hlow] at this
  · have h3 := Int.lt_floor_add_one ((a.num:ℚ) / a.den)
    have := rnd_lt_grid (p := p) (n := a.num) (d := a.den) (k := ⌊(a.num:ℚ) / a.den⌋ + 1) (N := 1)
      ha (by norm_num) (by linarith) (by push_cast; rw [div_one]; exact h3)
    push_cast at this; rwa [div_one] at this

theorem neg_toDecimal (p : ℕ) (n d : ℤ) :
    toDecimal p ⟨-n, d⟩ = - toDecimal p ⟨n, d⟩ := by
  unfold toDecimal; push_cast; rw [neg_div, rnd_neg]

theorem ceil_toDecimal {p : ℕ} (hp : 1 ≤ p) {a : Number} (ha : 0 < a.den) (h : 5 * |a.num| < 10 ^ p) :
    ⌈toDecimal p a⌉ = ⌈a.val⌉ := by
  have h1 := floor_toDecimal (p := p) hp (a := ⟨-a.num, a.den⟩) ha (by simpa using h)
  rw [neg_toDecimal] at h1
  have h2 : val ⟨-a.num, a.den⟩ = - a.val := by unfold val; push_cast; rw [neg_div]
  rw [h2, Int.floor_neg, Int.floor_neg] at h1
  have : (⟨a.num, a.den⟩ : Number) = a := rfl
  rw [this] at h1
  linarith

theorem toDecimal_sign {p : ℕ} (hp : 1 ≤ p) (a : Number) : 0 ≤ toDecimal p a ↔ 0 ≤ a.val := by
  unfold toDecimal val
  constructor
  · intro h; by_contra hc; push Not at hc
    have := rnd_neg_of_neg hp hc; linarith
  · exact rnd_nonneg p

theorem trunc_toDecimal {p : ℕ} (hp : 1 ≤ p) {a : Number} (ha : 0 < a.den) (h : 5 * |a.num| < 10 ^ p) :
    truncQ (toDecimal p a) = truncQ a.val := by
  unfold truncQ
  simp only [toDecimal_sign hp]
  split
  · exact floor_toDecimal hp ha h
  · rw [Int.floor_neg, Int.floor_neg, ceil_toDecimal hp ha h]

end Number
end MC
