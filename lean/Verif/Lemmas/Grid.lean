import Verif.Lemmas.Number3

/-! Exactness of arithmetic on numbers that are multiples of `1/D`. -/

namespace MC
namespace Number

theorem grid_den {a : Number} (ha : a.Canonical) {A D : ℤ} (h : a.val = (A:ℚ) / D) : a.den ∣ D := by
  rw [(canonical_val_num ha).2, h]
  have := Rat.den_dvd A D
  rwa [Rat.divInt_eq_div] at this

theorem grid_lcm {a b : Number} (ha : a.Canonical) (hb : b.Canonical) {A B D : ℤ} (hD : 0 < D)
    (h1 : a.val = (A:ℚ) / D) (h2 : b.val = (B:ℚ) / D) :
    (Int.lcm a.den b.den : ℤ) ≤ D ∧ 0 < (Int.lcm a.den b.den : ℤ) := by
  obtain ⟨_, _, hl, _⟩ := lcm_facts ha.1 hb.1
  exact ⟨Int.le_of_dvd hD (Int.coe_lcm_dvd (grid_den ha h1) (grid_den hb h2)), hl⟩

theorem grid_scaled {a b : Number} (ha : a.Canonical) (hb : b.Canonical) {A B D : ℤ} (hD : 0 < D)
    (h1 : a.val = (A:ℚ) / D) (h2 : b.val = (B:ℚ) / D) :
    |a.num * ((Int.lcm a.den b.den : ℤ) / a.den)| ≤ |A| ∧
    |b.num * ((Int.lcm a.den b.den : ℤ) / b.den)| ≤ |B| := by
  obtain ⟨d1, d2, hl, _⟩ := lcm_facts ha.1 hb.1
  obtain ⟨hle, _⟩ := grid_lcm ha hb hD h1 h2
  have key : ∀ (c : Number) (C : ℤ), c.Canonical → c.val = (C:ℚ) / D → c.den ∣ (Int.lcm a.den b.den : ℤ) →
      |c.num * ((Int.lcm a.den b.den : ℤ) / c.den)| ≤ |C| := by
    intro c C hc hv hd
    set l : ℤ := (Int.lcm a.den b.den : ℤ)
    have e : c.den * (l / c.den) = l := Int.mul_ediv_cancel' hd
    have e' : (c.den:ℚ) * ((l / c.den : ℤ):ℚ) = l := by exact_mod_cast e
    have hDq : (0:ℚ) < D := by exact_mod_cast hD
    have hlq : (0:ℚ) < l := by exact_mod_cast hl
    have hle' : (l:ℚ) ≤ D := by exact_mod_cast hle
    have e2 : ((c.num * (l / c.den) : ℤ):ℚ) = C / D * l := by
      rw [← hv]; unfold val; have := hc.den_ne
      push_cast; rw [← e']; field_simp
    have : |((c.num * (l / c.den) : ℤ):ℚ)| ≤ |(C:ℚ)| := by
      rw [e2, abs_mul, abs_div, abs_of_pos hDq, abs_of_pos hlq, div_mul_eq_mul_div, div_le_iff₀ hDq]
      exact mul_le_mul_of_nonneg_left hle' (abs_nonneg _)
    exact_mod_cast this
  exact ⟨key a A ha h1 d1, key b B hb h2 d2⟩

/-- Common bounds for `add`, `sub` and `mod` on a grid. -/
theorem grid_bounds {p : ℕ} {a b : Number} (ha : a.Canonical) (hb : b.Canonical) {A B D : ℤ} (hD : 0 < D)
    (h1 : a.val = (A:ℚ) / D) (h2 : b.val = (B:ℚ) / D) (hA : |A| * D < 10 ^ p) (hB : |B| * D < 10 ^ p)
    (hDp : D < 10 ^ p) :
    |a.num * (Int.lcm a.den b.den : ℤ)| < 10 ^ p ∧ |b.num * (Int.lcm a.den b.den : ℤ)| < 10 ^ p ∧
    (Int.lcm a.den b.den : ℤ) < 10 ^ p := by
  obtain ⟨hle, hl⟩ := grid_lcm ha hb hD h1 h2
  have n1 := num_le_of_val ha hD.ne' h1
  have n2 := num_le_of_val hb hD.ne' h2
  refine ⟨?_, ?_, by omega⟩
  · rw [abs_mul, abs_of_pos hl]
    exact lt_of_le_of_lt (mul_le_mul n1 hle hl.le (abs_nonneg _)) hA
  · rw [abs_mul, abs_of_pos hl]
    exact lt_of_le_of_lt (mul_le_mul n2 hle hl.le (abs_nonneg _)) hB

theorem add_grid {p : ℕ} {a b : Number} (ha : a.Canonical) (hb : b.Canonical) {A B D : ℤ} (hD : 0 < D)
    (h1 : a.val = (A:ℚ) / D) (h2 : b.val = (B:ℚ) / D) (hA : |A| * D < 10 ^ p) (hB : |B| * D < 10 ^ p)
    (hDp : D < 10 ^ p) (hs : |A| + |B| < 10 ^ p) :
    ∃ r, add p a b = .ok r ∧ r.Canonical ∧ r.val = ((A + B : ℤ):ℚ) / D := by
  obtain ⟨b1, b2, b3⟩ := grid_bounds (p := p) ha hb hD h1 h2 hA hB hDp
  obtain ⟨s1, s2⟩ := grid_scaled ha hb hD h1 h2
  obtain ⟨r, hr, hc, hv⟩ := add_exact ha.1 hb.1 b1 b2 b3 (lt_of_le_of_lt (abs_add_le _ _) (by omega))
  exact ⟨r, hr, hc, by rw [hv, h1, h2]; push_cast; ring⟩

theorem sub_grid {p : ℕ} {a b : Number} (ha : a.Canonical) (hb : b.Canonical) {A B D : ℤ} (hD : 0 < D)
    (h1 : a.val = (A:ℚ) / D) (h2 : b.val = (B:ℚ) / D) (hA : |A| * D < 10 ^ p) (hB : |B| * D < 10 ^ p)
    (hDp : D < 10 ^ p) (hs : |A| + |B| < 10 ^ p) :
    ∃ r, sub p a b = .ok r ∧ r.Canonical ∧ r.val = ((A - B : ℤ):ℚ) / D := by
  obtain ⟨b1, b2, b3⟩ := grid_bounds (p := p) ha hb hD h1 h2 hA hB hDp
  obtain ⟨s1, s2⟩ := grid_scaled ha hb hD h1 h2
  obtain ⟨r, hr, hc, hv⟩ := sub_exact ha.1 hb.1 b1 b2 b3 (lt_of_le_of_lt (abs_sub _ _) (by omega))
  exact ⟨r, hr, hc, by rw [hv, h1, h2]; push_cast; ring⟩

theorem ofInt_eq {p : ℕ} (hp : 1 ≤ p) (z : ℤ) : ofInt p z = .ok ⟨z, 1⟩ := by
  unfold ofInt
  have := mk'_lit (p := p) (z:ℚ) (by simp; exact_mod_cast one_lt_pow₀ (by norm_num : (1:ℤ) < 10) (by omega))
  simpa using this

theorem canonical_int (z : ℤ) : (⟨z, 1⟩ : Number).Canonical := ⟨by norm_num, by simp⟩

theorem val_int (z : ℤ) : (⟨z, 1⟩ : Number).val = z := by simp [val]

/-- A power of a base, with the exact number it is. -/
theorem pow_base {p : ℕ} (powF) {b : ℕ} (hb : 2 ≤ b) {j : ℤ} (hj : b ^ j.natAbs < 10 ^ p) :
    Number.pow p powF ⟨(b:ℤ), 1⟩ ⟨j, 1⟩ =
      .ok (if 0 ≤ j then ⟨(b:ℤ) ^ j.natAbs, 1⟩ else ⟨1, (b:ℤ) ^ j.natAbs⟩) := by
  have hjp : |j| < 10 ^ p := by
    have h1 : j.natAbs < b ^ j.natAbs := Nat.lt_pow_self (by omega)
    have h2 : j.natAbs < 10 ^ p := by omega
    rw [Int.abs_eq_natAbs]; exact_mod_cast h2
  have hb0 : ((b:ℤ)) ≠ 0 := by omega
  have hbj : |((b:ℤ))| ^ j.natAbs < 10 ^ p := by
    rw [Nat.abs_cast]; exact_mod_cast hj
  have h1j : |(1:ℤ)| ^ j.natAbs < 10 ^ p := by
    rw [abs_one, one_pow]
    have : 1 ≤ b ^ j.natAbs := Nat.one_le_pow _ _ (by omega)
    exact_mod_cast lt_of_le_of_lt this hj
  have hone : (1:ℤ) < 10 ^ p := by simpa using h1j
  unfold Number.pow
  rw [toDecimal_int hjp]
  simp only
  rcases lt_or_ge j 0 with hn | hn
  · obtain ⟨k, rfl⟩ : ∃ k : ℕ, j = -k := ⟨j.natAbs, by omega⟩
    have hk : k ≠ 0 := by omega
    have hkk : (-(k:ℤ)).natAbs = k := by omega
    rw [hkk] at hbj h1j
    have hlt : ((-(k:ℤ) : ℤ):ℚ) < 0 := by exact_mod_cast hn
    have e : rnd p (-((-(k:ℤ) : ℤ):ℚ)) = (k:ℚ) := by
      push_cast; rw [neg_neg]
      have := rnd_int (p := p) (n := (k:ℤ)) (by rwa [abs_neg] at hjp)
      exact_mod_cast this
    rw [if_pos hlt, e, decPow_nat powF (Or.inr hk) hbj, decPow_nat powF (Or.inr hk) h1j, if_neg (by omega), hkk]
    obtain ⟨r, hr, hc, hv⟩ := mk'_int (p := p) (n := 1 ^ k) (d := (b:ℤ) ^ k) (pow_ne_zero _ hb0)
      (by rwa [abs_pow]) (by rwa [abs_pow])
    show mk' p _ _ = _
    rw [hr]; congr 1
    refine canonical_ext hc ⟨?_, ?_⟩ ?_
    · show (0:ℤ) < (b:ℤ) ^ k
      positivity
    · show Int.gcd 1 _ = 1
      simp
    · rw [hv]; simp [val]
  · obtain ⟨k, rfl⟩ : ∃ k : ℕ, j = k := ⟨j.natAbs, by omega⟩
    have hkk : ((k:ℤ)).natAbs = k := by omega
    rw [hkk] at hbj h1j
    have hnl : ¬ (((k:ℤ) : ℤ):ℚ) < 0 := by push_cast; push Not; positivity
    have e : (((k:ℤ) : ℤ):ℚ) = (k:ℚ) := by push_cast; rfl
    rw [if_neg hnl, e, decPow_nat powF (Or.inl hb0) hbj, decPow_nat powF (Or.inl one_ne_zero) h1j, if_pos hn, hkk]
    show mk' p _ _ = _
    rw [one_pow]
    have := mk'_lit (p := p) (((b:ℤ) ^ k : ℤ) : ℚ) (by rw [Rat.den_intCast]; exact_mod_cast hone)
    simpa using this

end Number
end MC
