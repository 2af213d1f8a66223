import Verif.Lemmas.Dates
import Verif.Lemmas.Float
import Verif.Lemmas.Number3
import Verif.Lemmas.Numeric

/-! # Calling the date operations -/

namespace MC.Dates
open MC.Strings MC.Arrays MC.Boolean MC.Numeric MC.Number
set_option linter.unusedSectionVars false

/-- What is used of `str(f)` for a `float` `f`: it has at most 17 digits, reading it gives `f`
back, and whole numbers up to 2 ^ 53 are written exactly. -/
structure Writes (repr : ℚ → ℚ) : Prop where
  reads : ∀ x, dbl (repr (dbl x)) = dbl x
  digits : ∀ x, Representable 17 (repr (dbl x))
  whole : ∀ n : ℤ, |n| ≤ 2 ^ 53 → repr n = n

theorem round_number {p : ℕ} (hp : 24 ≤ p) {r : ℚ} (hf : Fits 17 r) (hden : (r.den : ℤ) < 10 ^ p)
    {k : ℤ} (hk : |r * 1000000 - k| < 1 / 2) (hkp : |k| < 10 ^ p) :
    ∃ n : Number, ((do
      let n ← liftErr (Number.mk' p r 1)
      liftErr (Number.round p n (min 6 p))) : Except Raise Number) = .ok n ∧ n.Canonical ∧
      n.val = k / 1000000 := by
  have h6 : min 6 p = 6 := by omega
  have hfp : Fits p r := by
    obtain ⟨m, e, h1, h2⟩ := hf
    exact ⟨m, e, h1, h2.trans_le (pow_le_pow_right₀ (by norm_num) (by omega))⟩
  have hd : toDecimal p ⟨r.num, r.den⟩ = r := by
    have := val_ofRat r
    unfold val at this
    unfold toDecimal
    rw [this, rnd_of_fits hfp]
  have hr : rhu (r * 10 ^ 6) = k := by
    have h1 := rhu_abs_sub_le (r * 10 ^ 6)
    norm_num at h1 ⊢
    have h2 := abs_le.mp h1
    have h3 := abs_lt.mp hk
    have h4 : ((rhu (r * 1000000) : ℤ) : ℚ) - k < 1 := by linarith
    have h5 : (-1 : ℚ) < ((rhu (r * 1000000) : ℤ) : ℚ) - k := by linarith
    have h6 : rhu (r * 1000000) - k < 1 := by exact_mod_cast h4
    have h7 : -1 < rhu (r * 1000000) - k := by exact_mod_cast h5
    omega
  have hdec : decRound p r 6 = .ok ((k : ℚ) / 1000000) := by
    unfold decRound
    rw [hr, if_neg (not_le.mpr hkp)]
    norm_num
  refine ⟨⟨((k : ℚ) / 1000000).num, ((k : ℚ) / 1000000).den⟩, ?_, canonical_ofRat _, val_ofRat _⟩
  rw [mk'_lit r hden, h6]
  show liftErr (Number.round p ⟨r.num, r.den⟩ 6) = _
  unfold Number.round
  rw [hd, hdec]
  show liftErr (mk' p ((k : ℚ) / 1000000) 1) = _
  rw [mk'_lit]
  · rfl
  · have h1 : (((k : ℚ) / 1000000).den : ℤ) ∣ 1000000 := by
      have := Rat.den_dvd k 1000000
      rw [Rat.divInt_eq_div] at this
      exact_mod_cast this
    have h2 := Int.le_of_dvd (by norm_num) h1
    refine lt_of_le_of_lt h2 ?_
    calc (1000000 : ℤ) < 10 ^ 24 := by norm_num
      _ ≤ 10 ^ p := pow_le_pow_right₀ (by norm_num) hp

/-- A decimal number of at most 17 digits that is not tiny has a moderate denominator. -/
theorem den_bound {r : ℚ} (hf : Fits 17 r) (hr : 9 / 10000000 < r) : (r.den : ℤ) ≤ 10 ^ 23 := by
  obtain ⟨m, e, h1, h2⟩ := hf
  have hm : (m : ℚ) < 10 ^ 17 := by exact_mod_cast (abs_lt.mp h2).2
  have he : -23 ≤ e := by
    by_contra hc
    have h3 : (10 : ℚ) ^ e ≤ 10 ^ (-24 : ℤ) := zpow_le_zpow_right₀ (by norm_num) (by omega)
    have h4 : (0 : ℚ) < 10 ^ e := zpow_pos (by norm_num) e
    have h5 : (m : ℚ) * 10 ^ e ≤ 10 ^ 17 * 10 ^ (-24 : ℤ) := by
      have : (m : ℚ) * 10 ^ e ≤ 10 ^ 17 * 10 ^ e := by nlinarith
      refine this.trans ?_
      gcongr
    rw [← h1] at h5
    norm_num at h5
    linarith
  have h3 : r = ((m * 10 ^ (e + 23).toNat : ℤ) : ℚ) / ((10 ^ 23 : ℤ) : ℚ) := by
    rw [h1]
    push_cast
    rw [← zpow_natCast, Int.toNat_of_nonneg (by omega), zpow_add₀ (by norm_num)]
    norm_num
    ring
  have h4 := Rat.den_dvd (m * 10 ^ (e + 23).toNat : ℤ) (10 ^ 23 : ℤ)
  rw [Rat.divInt_eq_div, ← h3] at h4
  exact Int.le_of_dvd (by norm_num) h4

theorem dbl_of_grid {r : ℚ} {m e : ℤ} (he : binExp r = e) (hr : r ≠ 0)
    (h : |r - m * (2 : ℚ) ^ e| < 2 ^ e / 2) : dbl r = m * (2 : ℚ) ^ e := by
  unfold dbl
  rw [if_neg hr, he]
  congr 2
  apply rhe_close
  have hp := two_pos e
  rw [show r / 2 ^ e - m = (r - m * 2 ^ e) / 2 ^ e by field_simp, abs_div, abs_of_pos hp,
    div_lt_iff₀ hp]
  linarith

theorem binExp_eq {r : ℚ} {k : ℤ} (h1 : (2 : ℚ) ^ k ≤ r) (h2 : r < 2 ^ (k + 1)) :
    binExp r = k - 52 := by
  have hr : 0 < r := (two_pos k).trans_le h1
  unfold binExp
  rw [abs_of_pos hr]
  have h3 : k ≤ Int.log 2 r := (Int.zpow_le_iff_le_log (b := 2) (by norm_num) hr).mp
    (by exact_mod_cast h1)
  have h4 : Int.log 2 r < k + 1 := (Int.lt_zpow_iff_log_lt (b := 2) (by norm_num) hr).mp
    (by exact_mod_cast h2)
  omega

/-- Seventeen digits determine a `float`. -/
theorem dbl_rnd_pos {x : ℚ} (hx : 0 < dbl x) : dbl (rnd 17 (dbl x)) = dbl x := by
  obtain ⟨m, e, hm, hf⟩ := dbl_grid x
  generalize dbl x = f at hx hf ⊢
  obtain ⟨k, hk⟩ : ∃ k, k = Int.log 2 f := ⟨_, rfl⟩
  have hk1 : (2 : ℚ) ^ k ≤ f := by
    have := Int.zpow_log_le_self (b := 2) (by norm_num) hx
    rw [← hk] at this
    exact_mod_cast this
  have hk2 : f < (2 : ℚ) ^ (k + 1) := by
    have := Int.lt_zpow_succ_log_self (b := 2) (by norm_num) f
    rw [← hk] at this
    exact_mod_cast this
  have hu := two_pos (k - 52)
  have e52 : (2 : ℚ) ^ k = 2 ^ 52 * 2 ^ (k - 52) := by
    rw [← zpow_natCast, ← zpow_add₀ (by norm_num)]; congr 1; push_cast; ring
  have e53 : (2 : ℚ) ^ (k + 1) = 2 ^ 53 * 2 ^ (k - 52) := by
    rw [← zpow_natCast, ← zpow_add₀ (by norm_num)]; congr 1; push_cast; ring
  obtain ⟨M, hM⟩ : ∃ M : ℤ, f = M * (2 : ℚ) ^ (k - 52) := by
    by_cases he : k - 52 ≤ e
    · refine ⟨m * 2 ^ (e - (k - 52)).toNat, ?_⟩
      push_cast
      rw [← zpow_natCast, Int.toNat_of_nonneg (by omega), mul_assoc, ← zpow_add₀ (by norm_num), hf]
      congr 2
      ring
    · refine ⟨2 ^ 52, ?_⟩
      push_cast
      have h1 : f ≤ (2 : ℚ) ^ k := by
        have h2 : (m : ℚ) ≤ 2 ^ 53 := by exact_mod_cast (abs_le.mp hm).2
        have h3 : (2 : ℚ) ^ e ≤ 2 ^ (k - 53) := zpow_le_zpow_right₀ (by norm_num) (by omega)
        have h4 : (2 : ℚ) ^ k = 2 ^ 53 * 2 ^ (k - 53) := by
          rw [← zpow_natCast, ← zpow_add₀ (by norm_num)]; congr 1; push_cast; ring
        rw [hf, h4]
        have := two_pos e
        have := two_pos (k - 53)
        nlinarith
      have := le_antisymm h1 hk1
      rw [this, e52]
      norm_num
  obtain ⟨u, hue⟩ : ∃ u, u = (2 : ℚ) ^ (k - 52) := ⟨_, rfl⟩
  have hM1 : (2 : ℤ) ^ 52 ≤ M := by
    have : (2 : ℚ) ^ 52 ≤ M := by
      rw [hM, e52] at hk1
      exact le_of_mul_le_mul_right hk1 hu
    exact_mod_cast this
  have hM2 : M + 1 ≤ (2 : ℤ) ^ 53 := by
    have : (M : ℚ) < 2 ^ 53 := by
      rw [hM, e53] at hk2
      exact lt_of_mul_lt_mul_right hk2 hu.le
    have : M < 2 ^ 53 := by exact_mod_cast this
    omega
  have hM1q : (2 : ℚ) ^ 52 ≤ M := by exact_mod_cast hM1
  have hM2q : (M : ℚ) + 1 ≤ 2 ^ 53 := by exact_mod_cast hM2
  have hd : |rnd 17 f - f| ≤ f / (2 * 10 ^ 16) := by
    have h1 := rnd_error 17 f
    have h2 := (log_bounds hx.ne').1
    rw [abs_of_pos hx] at h2
    have h3 : (10 : ℚ) ^ lastExp 17 f = 10 ^ Int.log 10 f / 10 ^ 16 := by
      unfold lastExp
      rw [abs_of_pos hx, ← zpow_natCast, ← zpow_sub₀ (by norm_num)]
      congr 1
      push_cast
      ring
    rw [h3] at h1
    rw [abs_sub_comm]
    refine h1.trans ?_
    rw [← div_div, div_right_comm]
    have : (10 : ℚ) ^ Int.log 10 f / 10 ^ 16 ≤ f / 10 ^ 16 := by gcongr
    linarith
  have hrp : 0 < rnd 17 f := rnd_pos (by norm_num) hx
  generalize rnd 17 f = r at hd hrp ⊢
  rw [hM, ← hue] at hd
  rw [← hue] at hu e52 e53
  have hd1 : |r - M * u| < u / 2 := by
    refine hd.trans_lt ?_
    rw [div_lt_div_iff₀ (by norm_num) (by norm_num)]
    nlinarith
  have hd2 := abs_lt.mp hd1
  by_cases hlow : r < 2 ^ k
  · have hM0 : M = 2 ^ 52 := by
      by_contra hne
      have : (2 : ℤ) ^ 52 + 1 ≤ M := by omega
      have : (2 : ℚ) ^ 52 + 1 ≤ M := by exact_mod_cast this
      rw [e52] at hlow
      nlinarith
    have hMq : (M : ℚ) = 2 ^ 52 := by exact_mod_cast hM0
    have e4 : (2 : ℚ) ^ (k - 53) = u / 2 := by
      rw [hue, show k - 52 = (k - 53) + 1 by ring, zpow_add₀ (by norm_num), zpow_one]
      field_simp
    have e5 : (2 : ℚ) ^ (k - 1) = 2 ^ 51 * u := by
      rw [hue, ← zpow_natCast, ← zpow_add₀ (by norm_num)]; congr 1; push_cast; ring
    have hb : binExp r = k - 53 := by
      rw [binExp_eq (k := k - 1) (by rw [e5]; nlinarith) (by rw [sub_add_cancel]; exact hlow)]
      ring
    have hres := dbl_of_grid (r := r) (m := 2 ^ 53) hb hrp.ne' (by
      rw [e4]
      push_cast
      rw [show (9007199254740992 : ℚ) * (u / 2) = M * u by rw [hMq]; ring]
      refine hd.trans_lt ?_
      rw [hMq]
      rw [div_lt_iff₀ (by norm_num)]
      nlinarith)
    rw [hres, hM, e4, ← hue, hMq]
    push_cast
    ring
  · by_cases hhigh : r < 2 ^ (k + 1)
    · have hb := binExp_eq (not_lt.mp hlow) hhigh
      rw [dbl_of_grid (m := M) hb hrp.ne' (by rw [← hue]; exact hd1), hM]
    · exfalso
      have := not_lt.mp hhigh
      rw [e53] at this
      nlinarith

/-- Writing a `float` with seventeen digits is one way to meet the requirements. -/
theorem writes_rnd : Writes (rnd 17) where
  reads x := by
    rcases lt_trichotomy (dbl x) 0 with h | h | h
    · have h1 : 0 < dbl (-x) := by rw [dbl_neg]; linarith
      have := dbl_rnd_pos h1
      rw [dbl_neg, rnd_neg, dbl_neg] at this
      linarith
    · rw [h, rnd_zero, dbl_zero]
    · exact dbl_rnd_pos h
  digits x := fits_rnd (by norm_num) _
  whole n h := rnd_int (by omega)

/-- The seconds between two dates, exactly. -/
theorem secondsBetween_exact {p : ℕ} (hp : 24 ≤ p) {repr : ℚ → ℚ} (hw : Writes repr) {t₁ t₂ : DT}
    (hz : t₁.off.isNone = t₂.off.isNone)
    (hk : difference t₁ t₂ < 2 ^ 32 * 1000000 ∨
      (1000000 ∣ difference t₁ t₂ ∧ difference t₁ t₂ < 2 ^ 53 * 1000000)) :
    ∃ n : Number, secondsBetween p repr t₁ t₂ = .ok n ∧ n.Canonical ∧
      n.val = difference t₁ t₂ / 1000000 := by
  unfold secondsBetween
  rw [if_neg (by simp [hz])]
  generalize difference t₁ t₂ = k at hk ⊢
  have hkp : |(k : ℤ)| < 10 ^ p := by
    have h1 : (k : ℤ) < 10 ^ 24 := by
      rcases hk with h | h <;> omega
    rw [abs_of_nonneg (by omega)]
    exact h1.trans_le (pow_le_pow_right₀ (by norm_num) hp)
  have hcast : ((k : ℤ) : ℚ) = (k : ℚ) := by push_cast; rfl
  rw [← hcast]
  unfold totalSeconds
  rcases hk with hk | ⟨⟨n, rfl⟩, hk⟩
  · have hkq : (k : ℚ) ≤ 2 ^ 32 * 1000000 - 1 := by
      have : k + 1 ≤ 2 ^ 32 * 1000000 := hk
      have : (k : ℚ) + 1 ≤ 2 ^ 32 * 1000000 := by exact_mod_cast this
      linarith
    have hk0 : (0 : ℚ) ≤ k := by positivity
    set t : ℚ := (k : ℚ) / 1000000 with ht
    have htk : t * 1000000 = k := by rw [ht]; field_simp
    have ht0 : 0 ≤ t := by rw [ht]; positivity
    have ht1 : t ≤ 2 ^ 32 - 1 / 1000000 := by linarith
    have h22 : (2 : ℚ) ^ ((32 : ℤ) - 54) = 1 / 4194304 := by norm_num
    have hf := dbl_below (x := t) 32 (by
      rw [abs_of_nonneg ht0]
      have : (2 : ℚ) ^ (32 : ℤ) = 2 ^ 32 := by norm_cast
      rw [this]
      linarith)
    rw [h22] at hf
    have hfr := dbl_rel t
    have hreads := hw.reads t
    have hdig := hw.digits t
    generalize repr (dbl t) = r at hreads hdig ⊢
    have hrr := dbl_rel r
    rw [hreads] at hrr
    generalize dbl t = f at *
    have hf2 := abs_le.mp hf
    have hr32 : |r| < 2 ^ 32 := by
      have h1 : |r| ≤ |f| + |r| / 2 ^ 53 := by
        have := abs_sub_abs_le_abs_sub r f
        rw [abs_sub_comm] at this
        linarith
      have h2 : |f| ≤ 2 ^ 32 - 1 / 1000000 + 1 / 4194304 := by
        rw [abs_le]; constructor <;> linarith
      have h3 : |r| * (1 - 1 / 2 ^ 53) ≤ 2 ^ 32 - 1 / 1000000 + 1 / 4194304 := by
        have : |r| * (1 - 1 / 2 ^ 53) = |r| - |r| / 2 ^ 53 := by ring
        linarith
      by_contra hc
      have h4 : (2 : ℚ) ^ 32 * (1 - 1 / 2 ^ 53) ≤ |r| * (1 - 1 / 2 ^ 53) := by
        have : (0 : ℚ) < 1 - 1 / 2 ^ 53 := by norm_num
        have := not_lt.mp hc
        nlinarith
      norm_num at h3 h4
      linarith
    have hrf := dbl_below (x := r) 32 (by
      have : (2 : ℚ) ^ (32 : ℤ) = 2 ^ 32 := by norm_cast
      rw [this]; exact hr32)
    rw [hreads, h22] at hrf
    have hrf2 := abs_le.mp hrf
    by_cases hk1 : k = 0
    · have ht00 : t = 0 := by rw [ht, hk1]; simp
      rw [ht00] at hfr
      have hf0 : f = 0 := by simpa using hfr
      rw [hf0] at hreads
      have hr0 := dbl_eq_zero hreads
      subst hr0
      exact round_number hp hdig (by
        show ((1 : ℕ) : ℤ) < 10 ^ p
        calc ((1 : ℕ) : ℤ) < 10 ^ 24 := by norm_num
          _ ≤ 10 ^ p := pow_le_pow_right₀ (by norm_num) hp) (by simp [hk1]) hkp
    · have hk2 : (1 : ℚ) ≤ k := by exact_mod_cast Nat.one_le_iff_ne_zero.mpr hk1
      refine round_number hp hdig ?_ ?_ hkp
      · have hr : 9 / 10000000 < r := by
          have ht2 : 1 / 1000000 ≤ t := by linarith
          rw [abs_of_nonneg ht0] at hfr
          have h1 := abs_le.mp hfr
          have hfp : 0 < f := by
            have : t / 2 ^ 53 < t := by
              rw [div_lt_iff₀ (by norm_num)]
              nlinarith
            linarith
          have h2 := abs_le.mp hrr
          by_contra hc
          have hc := not_lt.mp hc
          have h3 : |r| ≤ 1 := by
            rw [abs_le]
            constructor
            · by_contra h4
              have h4 := not_le.mp h4
              have h5 : |r| = -r := abs_of_neg (by linarith)
              rw [h5] at h2
              have : -r / 2 ^ 53 ≤ -r := by
                rw [div_le_iff₀ (by norm_num)]
                nlinarith
              linarith
            · linarith
          have h4 : |r| / 2 ^ 53 ≤ 1 / 2 ^ 53 := by gcongr
          have h5 : t / 2 ^ 53 ≤ t * (1 / 100) := by
            rw [div_eq_mul_inv]
            have : ((2 : ℚ) ^ 53)⁻¹ ≤ 1 / 100 := by norm_num
            nlinarith
          norm_num at h4
          linarith
        refine (den_bound hdig hr).trans_lt ?_
        calc (10 : ℤ) ^ 23 < 10 ^ 24 := by norm_num
          _ ≤ 10 ^ p := pow_le_pow_right₀ (by norm_num) hp
      · rw [hcast, abs_lt]
        constructor <;> linarith
  · have hn : (n : ℤ) < 2 ^ 53 := by omega
    have hd : dbl (((1000000 * n : ℕ) : ℚ) / 1000000) = ((n : ℤ) : ℚ) := by
      rw [← dbl_int (n := (n : ℤ)) (by rw [abs_of_nonneg (by omega)]; omega)]
      congr 1
      push_cast
      field_simp
    rw [hd, hw.whole _ (by rw [abs_of_nonneg (by omega)]; omega)]
    refine round_number hp ⟨n, 0, by simp, ?_⟩ ?_ ?_ hkp
    · rw [abs_of_nonneg (by omega)]; omega
    · rw [Rat.den_intCast]
      calc ((1 : ℕ) : ℤ) < 10 ^ 24 := by norm_num
          _ ≤ 10 ^ p := pow_le_pow_right₀ (by norm_num) hp
    · push_cast
      rw [mul_comm, sub_self, abs_zero]
      norm_num

end MC.Dates
