import Verif.Lemmas.Decimal
import Verif.Spec.Number

namespace MC
namespace Number

theorem Canonical.den_ne {a : Number} (h : a.Canonical) : (a.den : ℚ) ≠ 0 := by
  have := h.1; exact_mod_cast this.ne'

theorem Canonical.den_pos {a : Number} (h : a.Canonical) : (0:ℚ) < a.den := by
  exact_mod_cast h.1

theorem canonical_val_num {c : Number} (hc : c.Canonical) :
    c.num = c.val.num ∧ c.den = c.val.den := by
  have h1 := Rat.num_div_eq_of_coprime (a := c.num) hc.1 hc.2
  have h2 := Rat.den_div_eq_of_coprime (a := c.num) hc.1 hc.2
  exact ⟨h1.symm, h2.symm⟩

/-- Lowest terms are unique. -/
theorem canonical_ext {a b : Number} (ha : a.Canonical) (hb : b.Canonical) (h : a.val = b.val) :
    a = b := by
  obtain ⟨a1, a2⟩ := canonical_val_num ha
  obtain ⟨b1, b2⟩ := canonical_val_num hb
  have h1 : a.num = b.num := by rw [a1, b1, h]
  have h2 : a.den = b.den := by rw [a2, b2, h]
  cases a; cases b; simp only at h1 h2; rw [h1, h2]

theorem canonical_ofRat (q : ℚ) : Canonical ⟨q.num, q.den⟩ := by
  constructor
  · show (0:ℤ) < (q.den : ℤ)
    exact_mod_cast q.den_pos
  · exact q.reduced

theorem val_ofRat (q : ℚ) : val ⟨q.num, q.den⟩ = q := by
  simp [val, Rat.num_div_den]

/-- The constructor on integers within the precision. -/
theorem mk'_int {p : ℕ} {n d : ℤ} (hd : d ≠ 0) (hn : |n| < 10 ^ p) (hdp : |d| < 10 ^ p) :
    ∃ r, mk' p n d = .ok r ∧ r.Canonical ∧ r.val = (n:ℚ) / d := by
  have hd' : (d:ℚ) ≠ 0 := by exact_mod_cast hd
  unfold mk'
  rw [if_neg hd']
  simp only [isInt_intCast, if_true]
  have e1 : (if (d:ℚ) < 0 then rnd p (-(d:ℚ)) else d) = ((|d| : ℤ) : ℚ) := by
    split
    · rename_i h
      rw [rnd_neg, rnd_int hdp, abs_of_neg (by exact_mod_cast h)]; push_cast; rfl
    · rename_i h; push Not at h
      rw [abs_of_nonneg (by exact_mod_cast h)]
  obtain ⟨n3, hn3, hn3a, hv⟩ : ∃ n3 : ℤ, (if (d:ℚ) < 0 then rnd p (-(n:ℚ)) else n) = (n3:ℚ) ∧
      |n3| = |n| ∧ (n3:ℚ) / |(d:ℚ)| = n / d := by
    split
    · rename_i h
      refine ⟨-n, by rw [rnd_neg, rnd_int hn]; push_cast; rfl, by rw [abs_neg], ?_⟩
      rw [abs_of_neg h]; push_cast; rw [neg_div_neg_eq]
    · rename_i h; push Not at h
      exact ⟨n, rfl, rfl, by rw [abs_of_nonneg h]⟩
  rw [e1, hn3, truncQ_intCast, truncQ_intCast]
  set g := Int.gcd n3 |d| with hg
  have hdp0 : 0 < |d| := abs_pos.mpr hd
  have hgpos : 0 < g := Int.gcd_pos_of_ne_zero_right _ hdp0.ne'
  obtain ⟨a, ha⟩ : (g:ℤ) ∣ n3 := Int.gcd_dvd_left ..
  obtain ⟨b, hb⟩ : (g:ℤ) ∣ |d| := Int.gcd_dvd_right ..
  have hgq : (g:ℚ) ≠ 0 := by exact_mod_cast hgpos.ne'
  have hn4 : rhu (if 1 < g then rnd p ((n3:ℚ) / g) else n3) = a := by
    split
    · have : (n3:ℚ) / g = (a:ℤ) := by rw [div_eq_iff hgq, ha]; push_cast; ring
      rw [this, rnd_int, rhu_intCast]
      calc |a| ≤ |n3| := by
            rw [ha, abs_mul]
            have : (1:ℤ) ≤ |(g:ℤ)| := by rw [abs_of_pos (by exact_mod_cast hgpos)]; exact_mod_cast hgpos
            nlinarith [abs_nonneg a]
        _ < 10 ^ p := by rw [hn3a]; exact hn
    · have : g = 1 := by omega
      rw [rhu_intCast, ha, this]; simp
  have hd4 : rhu (if 1 < g then rnd p (((|d| : ℤ):ℚ) / g) else ((|d|:ℤ):ℚ)) = b := by
    split
    · have : (((|d| : ℤ)):ℚ) / g = (b:ℤ) := by rw [div_eq_iff hgq, hb]; push_cast; ring
      rw [this, rnd_int, rhu_intCast]
      calc |b| ≤ |(|d|)| := by
            rw [hb, abs_mul]
            have : (1:ℤ) ≤ |(g:ℤ)| := by rw [abs_of_pos (by exact_mod_cast hgpos)]; exact_mod_cast hgpos
            nlinarith [abs_nonneg b]
        _ < 10 ^ p := by rw [abs_abs]; exact hdp
    · have : g = 1 := by omega
      rw [rhu_intCast, hb, this]; simp
  refine ⟨⟨a, b⟩, ?_, ?_, ?_⟩
  · rw [hn4, hd4]
  · constructor
    · have : 0 < (g:ℤ) * b := by rw [← hb]; exact hdp0
      exact pos_of_mul_pos_right this (by positivity)
    · have h1 : Int.gcd ((g:ℤ) * a) ((g:ℤ) * b) = g * Int.gcd a b := by
        rw [Int.gcd_mul_left]; simp
      rw [← ha, ← hb, ← hg] at h1
      have : g * Int.gcd a b = g * 1 := by omega
      exact Nat.eq_of_mul_eq_mul_left hgpos this
  · have hbq : (b:ℚ) ≠ 0 := by
      intro h
      have : b = 0 := by exact_mod_cast h
      rw [this] at hb; simp at hb; exact hd hb
    have h2 : |(d:ℚ)| = (g:ℚ) * b := by
      have : ((|d| : ℤ) : ℚ) = (((g:ℤ) * b : ℤ) : ℚ) := by rw [← hb]
      push_cast at this; exact this
    rw [← hv, h2, ha]
    unfold val; push_cast
    field_simp

/-- Every constructed number has a positive denominator, whatever was rounded. -/
theorem mk'_den_pos {p : ℕ} (hp : 1 ≤ p) {n d : ℚ} {r : Number} (h : mk' p n d = .ok r) :
    0 < r.den := by
  unfold mk' at h
  split at h
  · cases h
  rename_i hd
  simp only [Except.ok.injEq] at h
  subst h
  simp only
  set d1 : ℚ := if isInt n then d else rnd p (d * n.den) with hd1
  have h1 : d1 ≠ 0 := by
    rw [hd1]; split
    · exact hd
    · rw [Ne, rnd_eq_zero_iff hp]
      exact mul_ne_zero hd (by exact_mod_cast n.den_nz)
  obtain ⟨d2, hd2, hd20⟩ : ∃ m : ℤ, (if isInt d1 then d1 else (d1.num : ℚ)) = m ∧ m ≠ 0 := by
    split
    · rename_i hi
      obtain ⟨m, hm⟩ := (isInt_iff d1).mp hi
      exact ⟨m, hm, by rintro rfl; simp at hm; exact h1 hm⟩
    · exact ⟨d1.num, rfl, Rat.num_ne_zero.mpr h1⟩
  rw [hd2]
  obtain ⟨d3, hd3, hd30⟩ : ∃ m : ℤ, (if (d2:ℚ) < 0 then rnd p (-(d2:ℚ)) else d2) = m ∧ 0 < m := by
    split
    · rename_i hneg
      obtain ⟨m, hm⟩ := rnd_intCast_isInt p (-d2)
      push_cast at hm
      refine ⟨m, hm, ?_⟩
      have := rnd_pos hp (x := -(d2:ℚ)) (by linarith)
      rw [hm] at this; exact_mod_cast this
    · rename_i hneg
      refine ⟨d2, rfl, ?_⟩
      push Not at hneg
      have : 0 ≤ d2 := by exact_mod_cast hneg
      omega
  rw [hd3]
  set g := Int.gcd _ (truncQ (d3:ℚ)) with hg
  rw [truncQ_intCast] at hg
  split
  · have hgd : (g:ℤ) ∣ d3 := by rw [hg]; exact Int.gcd_dvd_right ..
    obtain ⟨c, hc⟩ := hgd
    have hg0 : (g:ℚ) ≠ 0 := by
      have : 0 < g := by omega
      exact_mod_cast this.ne'
    have e : (d3:ℚ) / g = (c:ℤ) := by rw [div_eq_iff hg0, hc]; push_cast; ring
    have hcpos : 0 < c := by
      have : 0 < (g:ℤ) * c := by rw [← hc]; exact hd30
      exact pos_of_mul_pos_right this (by positivity)
    rw [e]
    obtain ⟨m, hm⟩ := rnd_intCast_isInt p c
    rw [hm, rhu_intCast]
    have := rnd_pos hp (x := (c:ℚ)) (by exact_mod_cast hcpos)
    rw [hm] at this; exact_mod_cast this
  · rw [rhu_intCast]; exact hd30

theorem mk'_ok_iff {p : ℕ} {n d : ℚ} : (∃ r, mk' p n d = .ok r) ↔ d ≠ 0 := by
  unfold mk'
  split
  · rename_i h; simp [h]
  · rename_i h; simp [h]

/-- The quotient of the common denominator by one denominator, as an integer. -/
theorem normalise_num {p : ℕ} {n d l : ℤ} (hd : 0 < d) (hdvd : d ∣ l)
    (hb : |n * l| < 10 ^ p) :
    rnd p (rnd p ((n:ℚ) * l) / d) = ((n * (l / d) : ℤ) : ℚ) ∧ |n * (l / d)| ≤ |n * l| := by
  obtain ⟨k, rfl⟩ := hdvd
  have hk : d * k / d = k := by rw [Int.mul_ediv_cancel_left _ hd.ne']
  have hle : |n * k| ≤ |n * (d * k)| := by
    rw [show n * (d * k) = d * (n * k) by ring, abs_mul d, abs_of_pos hd]
    nlinarith [abs_nonneg (n * k)]
  rw [hk]
  refine ⟨?_, hle⟩
  have h1 : rnd p ((n:ℚ) * ((d * k : ℤ):ℚ)) = ((n * (d * k) : ℤ) : ℚ) := by
    rw [← rnd_int hb]; push_cast; rfl
  rw [h1]
  have hdq : (d:ℚ) ≠ 0 := by exact_mod_cast hd.ne'
  have h2 : ((n * (d * k) : ℤ) : ℚ) / d = ((n * k : ℤ) : ℚ) := by
    push_cast; field_simp
  rw [h2, rnd_int (lt_of_le_of_lt hle hb)]

theorem lcm_facts {a b : Number} (ha : 0 < a.den) (hb : 0 < b.den) :
    let l : ℤ := Int.lcm a.den b.den
    a.den ∣ l ∧ b.den ∣ l ∧ 0 < l ∧ l ≤ a.den * b.den := by
  intro l
  have h1 : a.den ∣ l := Int.dvd_lcm_left ..
  have h2 : b.den ∣ l := Int.dvd_lcm_right ..
  have h3 : l ∣ a.den * b.den := Int.coe_lcm_dvd (Dvd.intro _ rfl) (Dvd.intro_left _ rfl)
  have hpos : 0 < a.den * b.den := mul_pos ha hb
  have h4 : 0 < l := by
    have : 0 < Int.lcm a.den b.den := Int.lcm_pos ha.ne' hb.ne'
    show (0:ℤ) < ((Int.lcm a.den b.den : ℕ) : ℤ)
    exact_mod_cast this
  exact ⟨h1, h2, h4, Int.le_of_dvd hpos h3⟩

theorem normalise_exact {p : ℕ} {a b : Number} (ha : 0 < a.den) (hb : 0 < b.den)
    (h1 : |a.num * (Int.lcm a.den b.den : ℤ)| < 10 ^ p)
    (h2 : |b.num * (Int.lcm a.den b.den : ℤ)| < 10 ^ p) :
    let l : ℤ := Int.lcm a.den b.den
    normalise p a b = ((l:ℚ), ((a.num * (l / a.den) : ℤ):ℚ), ((b.num * (l / b.den) : ℤ):ℚ)) := by
  intro l
  obtain ⟨d1, d2, _, _⟩ := lcm_facts ha hb
  have e1 := (normalise_num ha d1 h1).1
  have e2 := (normalise_num hb d2 h2).1
  unfold normalise
  simp only
  push_cast at e1 e2 ⊢
  refine Prod.ext rfl (Prod.ext ?_ ?_)
  · exact_mod_cast e1
  · exact_mod_cast e2

theorem scaled_val {a : Number} {l : ℤ} (ha : 0 < a.den) (hl : 0 < l) (hd : a.den ∣ l) :
    ((a.num * (l / a.den) : ℤ):ℚ) / l = a.val := by
  obtain ⟨k, rfl⟩ := hd
  rw [Int.mul_ediv_cancel_left _ ha.ne']
  have hdq : (a.den:ℚ) ≠ 0 := by exact_mod_cast ha.ne'
  have hk : (k:ℚ) ≠ 0 := by
    rintro h
    have : k = 0 := by exact_mod_cast h
    subst this; simp at hl
  unfold val
  push_cast
  field_simp

/-- `|q - rnd p q| ≤ 5 |q| / 10^p`. -/
theorem rnd_rel_error (p : ℕ) (q : ℚ) : |q - rnd p q| * 10 ^ p ≤ 5 * |q| := by
  by_cases hq : q = 0
  · subst hq; simp [rnd_zero]
  have h1 := rnd_error p q
  have h2 := (log_bounds hq).1
  have : (10:ℚ) ^ lastExp p q * 10 ^ p = 10 * 10 ^ Int.log 10 |q| := by
    unfold lastExp
    rw [← zpow_natCast (10:ℚ) p, ← zpow_add₀ (by norm_num)]
    rw [show Int.log 10 |q| + 1 - (p:ℤ) + p = Int.log 10 |q| + 1 by ring,
      zpow_add₀ (by norm_num)]; ring
  have h3 : |q - rnd p q| * 10 ^ p ≤ (1/2 * 10 ^ lastExp p q) * 10 ^ p :=
    mul_le_mul_of_nonneg_right h1 (by positivity)
  calc _ ≤ _ := h3
    _ = 1/2 * ((10:ℚ) ^ lastExp p q * 10 ^ p) := by ring
    _ = 5 * 10 ^ Int.log 10 |q| := by rw [this]; ring
    _ ≤ 5 * |q| := by linarith

/-- Rounding `n/d` does not move it past a point `k/N`, when `5·|n|·N < 10^p`. -/
theorem rnd_lt_grid {p : ℕ} {n d k N : ℤ} (hd : 0 < d) (hN : 0 < N)
    (hb : 5 * |n| * N < 10 ^ p) (h : (n:ℚ) / d < (k:ℚ) / N) : rnd p ((n:ℚ) / d) < (k:ℚ) / N := by
  have hdq : (0:ℚ) < d := by exact_mod_cast hd
  have hNq : (0:ℚ) < N := by exact_mod_cast hN
  have hgap : (1:ℚ) / (d * N) ≤ (k:ℚ) / N - n / d := by
    have h1 : n * N < k * d := by
      have := (div_lt_div_iff₀ hdq hNq).mp h
      exact_mod_cast this
    have h2 : (n * N + 1 : ℚ) ≤ k * d := by exact_mod_cast h1
    have : (k:ℚ) / N - n / d = (k * d - n * N) / (d * N) := by field_simp
    rw [this]
    exact div_le_div_of_nonneg_right (by linarith) (by positivity)
  have herr := rnd_rel_error p ((n:ℚ) / d)
  have hb' : (5:ℚ) * |(n:ℚ)| * N < 10 ^ p := by exact_mod_cast hb
  have hpp : (0:ℚ) < 10 ^ p := by positivity
  have hsmall : |(n:ℚ)/d - rnd p ((n:ℚ)/d)| < 1 / (d * N) := by
    rw [abs_div, abs_of_pos hdq] at herr
    rw [lt_div_iff₀ (by positivity)]
    by_contra hc
    push Not at hc
    have h4 : (10:ℚ) ^ p ≤ |(n:ℚ)/d - rnd p ((n:ℚ)/d)| * (d * N) * 10 ^ p := by nlinarith
    have h5 : |(n:ℚ)/d - rnd p ((n:ℚ)/d)| * (d * N) * 10 ^ p ≤ 5 * (|(n:ℚ)| / d) * (d * N) := by
      have : 0 < (d:ℚ) * N := by positivity
      nlinarith
    have h6 : 5 * (|(n:ℚ)| / d) * (d * N) = 5 * |(n:ℚ)| * N := by field_simp
    linarith
  have := (abs_lt.mp hsmall).1
  linarith

theorem rnd_gt_grid {p : ℕ} {n d k N : ℤ} (hd : 0 < d) (hN : 0 < N)
    (hb : 5 * |n| * N < 10 ^ p) (h : (k:ℚ) / N < (n:ℚ) / d) : (k:ℚ) / N < rnd p ((n:ℚ) / d) := by
  have := rnd_lt_grid (p := p) (n := -n) (d := d) (k := -k) (N := N) hd hN (by rwa [abs_neg])
    (by push_cast; rw [neg_div, neg_div]; linarith)
  push_cast at this
  rw [neg_div, neg_div, rnd_neg] at this
  linarith

/-- Rounding preserves the comparison with the points `k/N` exactly. -/
theorem rnd_lt_grid_iff {p : ℕ} (hp : 1 ≤ p) {n d k N : ℤ} (hd : 0 < d) (hN : 0 < N)
    (hb : 5 * |n| * N < 10 ^ p) (hk : Fits p ((k:ℚ) / N)) :
    rnd p ((n:ℚ) / d) < (k:ℚ) / N ↔ (n:ℚ) / d < (k:ℚ) / N := by
  constructor
  · intro h
    by_contra hc
    push Not at hc
    have := rnd_mono hp hc
    rw [rnd_of_fits hk] at this
    linarith
  · exact rnd_lt_grid hd hN hb

end Number
end MC
