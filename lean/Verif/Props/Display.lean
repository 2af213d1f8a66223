import Verif.Lemmas.Display
import Verif.Spec.Display
import Verif.Props.Number2

/-!
# C10, C11: displayed decimals

`p` is the precision (100) and `n` the number of decimal places shown (30).
-/

namespace MC.Props
open MC Number

/-! ## C10 Displayed decimals read back -/

theorem parse_assemble {p n : ℕ} (hn : n < p) {neg : Bool} {ip fp : List Char} (h1 : AllDigits ip)
    (h2 : ip ≠ []) (h3 : AllDigits fp) {k : ℤ} (hk : decimalOf neg ip fp = (k:ℚ) / 10 ^ n) :
    ∃ r, parseDecimal p (assemble neg ip fp) = some (.ok r) ∧ r.Canonical ∧ r.val = (k:ℚ) / 10 ^ n := by
  unfold parseDecimal
  rw [matchDecimal_assemble h1 h2 h3]
  simp only
  rw [hk]
  have hdvd : ((((k:ℚ) / 10 ^ n)).den : ℤ) ∣ 10 ^ n := by
    have := Rat.den_dvd k (10 ^ n)
    rw [Rat.divInt_eq_div] at this
    push_cast at this; exact this
  have hlt : ((((k:ℚ) / 10 ^ n)).den : ℤ) < 10 ^ p :=
    lt_of_le_of_lt (Int.le_of_dvd (by positivity) hdvd) (pow_lt_pow_right₀ (by norm_num) hn)
  rw [mk'_lit _ hlt]
  exact ⟨_, rfl, canonical_ofRat _, val_ofRat _⟩

/-- A number whose digits fit the precision is shown as a text that reads back within
half a unit of the last place, and as exactly the same number if it has at most `n`
decimal places. -/
theorem C10_read_back (p n : ℕ) (hn : n < p) (a : Number) (ha : a.Canonical)
    (h : 10 ^ (n+1) * |a.num| < 10 ^ p) :
    ∃ t r, toText p n a = .ok t ∧ parseDecimal p t = some (.ok r) ∧ r.Canonical ∧
      |r.val - a.val| ≤ 1/2 / 10 ^ n ∧ ((∃ k : ℤ, a.val = (k:ℚ) / 10 ^ n) → r = a) := by
  have hs := rhu_scaled (p := p) (by omega) n ha.1 h
  change rhu (toDecimal p a * 10 ^ n) = rhu (a.val * 10 ^ n) at hs
  have hround := C09_round p a ha n hn h
  have hok : ∃ t, toText p n a = .ok t := by
    rw [toText_ok_iff]; right
    obtain ⟨r, hr, _⟩ := hround
    unfold Number.round decRound at hr
    by_contra hc
    push Not at hc
    rw [if_pos hc] at hr
    cases hr
  obtain ⟨t, ht⟩ := hok
  obtain ⟨neg, ip, fp, e, h1, h2, h3, _, _, _, _, hv⟩ := toText_ok ht
  obtain ⟨r, hr, hc, hrv⟩ := parse_assemble hn h1 h2 h3 hv
  refine ⟨t, r, ht, by rw [e]; exact hr, hc, ?_, ?_⟩
  · rw [hrv, hs]
    have := rhu_abs_sub_le (a.val * 10 ^ n)
    have hT : (0:ℚ) < 10 ^ n := by positivity
    have e : (rhu (a.val * 10 ^ n) : ℚ) / 10 ^ n - a.val = -((a.val * 10 ^ n - rhu (a.val * 10 ^ n)) / 10 ^ n) := by
      field_simp; ring
    rw [e, abs_neg, abs_div, abs_of_pos hT]
    exact div_le_div_of_nonneg_right this hT.le
  · rintro ⟨k, hk⟩
    refine C01_unique _ _ hc ha ?_
    rw [hrv, hs, hk]
    have : (k:ℚ) / 10 ^ n * 10 ^ n = k := by field_simp
    rw [this, rhu_intCast]

/-- At every size: whatever text is shown, it reads back, within half a unit of the
last place plus the rounding of the value to `p` digits. -/
theorem C10_read_back_any (p n : ℕ) (hn : n < p) (a : Number) (t : List Char)
    (h : toText p n a = .ok t) :
    ∃ r, parseDecimal p t = some (.ok r) ∧ r.Canonical ∧
      |r.val - a.val| ≤ 1/2 / 10 ^ n + 5 * |a.val| / 10 ^ p := by
  obtain ⟨neg, ip, fp, e, h1, h2, h3, _, _, _, _, hv⟩ := toText_ok h
  obtain ⟨r, hr, hc, hrv⟩ := parse_assemble hn h1 h2 h3 hv
  refine ⟨r, by rw [e]; exact hr, hc, ?_⟩
  have hT : (0:ℚ) < 10 ^ n := by positivity
  have hP : (0:ℚ) < 10 ^ p := by positivity
  have e1 : |r.val - toDecimal p a| ≤ 1/2 / 10 ^ n := by
    rw [hrv]
    have := rhu_abs_sub_le (toDecimal p a * 10 ^ n)
    have e : (rhu (toDecimal p a * 10 ^ n) : ℚ) / 10 ^ n - toDecimal p a =
        -((toDecimal p a * 10 ^ n - rhu (toDecimal p a * 10 ^ n)) / 10 ^ n) := by
      field_simp; ring
    rw [e, abs_neg, abs_div, abs_of_pos hT]
    exact div_le_div_of_nonneg_right this hT.le
  have e2 : |toDecimal p a - a.val| ≤ 5 * |a.val| / 10 ^ p := by
    rw [le_div_iff₀ hP, abs_sub_comm]; exact rnd_rel_error p a.val
  have := abs_sub_le r.val (toDecimal p a) a.val
  linarith

/-- Two numbers shown by the same text are closer than one unit of the last place. -/
theorem C10_same_text (p n : ℕ) (hn : n < p) (a b : Number) (ha : a.Canonical) (hb : b.Canonical)
    (h1 : 10 ^ (n+1) * |a.num| < 10 ^ p) (h2 : 10 ^ (n+1) * |b.num| < 10 ^ p)
    (h : toText p n a = toText p n b) : |a.val - b.val| ≤ 1 / 10 ^ n := by
  obtain ⟨t, r, ht, hr, _, hv, _⟩ := C10_read_back p n hn a ha h1
  obtain ⟨t', r', ht', hr', _, hv', _⟩ := C10_read_back p n hn b hb h2
  rw [ht, ht'] at h; cases h
  rw [hr] at hr'; cases hr'
  have := abs_sub_le a.val r.val b.val
  rw [abs_sub_comm a.val r.val] at this
  have e : (1:ℚ) / 10 ^ n = 1/2 / 10 ^ n + 1/2 / 10 ^ n := by ring
  rw [e]; linarith

example : (⟨-12345, 1000⟩ : Number).den ≠ 0 ∧ (⟨-2469, 200⟩ : Number).Canonical ∧
    10 ^ (30+1) * |(-2469:ℤ)| < 10 ^ 100 :=
  ⟨by decide, ⟨by decide, by decide⟩, by norm_num⟩

/-! ## C11 Displayed decimals are canonical -/

/-- Every shown text is well formed.  Full statement: also, every number can be
shown and zero is never written `-0`; those parts are false, see
`C11_minus_zero_violation` and `C11_unshowable_violation`. -/
theorem C11_well_formed_partial (p n : ℕ) (a : Number) (t : List Char) (h : toText p n a = .ok t) :
    WellFormedDecimal n t := by
  obtain ⟨neg, ip, fp, e, h1, h2, h3, h4, h5, h6, _, _⟩ := toText_ok h
  refine ⟨(if neg then ['-'] else []), ip, (if fp = [] then [] else '.' :: fp), e, ?_, h2, h1, h6, ?_⟩
  · cases neg <;> simp
  · by_cases hf : fp = []
    · left; simp [hf]
    · right; exact ⟨fp, by simp [hf], hf, h5, h3, h4⟩

/-- Exactly which numbers can be shown: those whose value, rounded to `n` places, has
at most `p` digits. -/
theorem C11_showable_iff (p n : ℕ) (a : Number) :
    (∃ t, toText p n a = .ok t) ↔ (toDecimal p a = 0 ∨ |rhu (toDecimal p a * 10 ^ n)| < 10 ^ p) :=
  toText_ok_iff p n a

/-- Every number below `10^(p-n)` in size (less the last half unit) is shown. -/
theorem C11_showable (p n : ℕ) (hp : 1 ≤ p) (hn : n ≤ p) (a : Number) (h : |a.val| ≤ 10 ^ (p - n) - 1) :
    ∃ t, toText p n a = .ok t := by
  rw [toText_ok_iff]; right
  have hx : |toDecimal p a| ≤ 10 ^ (p-n) - 1 := by
    have hfit : rnd p ((10:ℚ) ^ (p-n) - 1) = 10 ^ (p-n) - 1 := by
      have : ((10:ℚ) ^ (p-n) - 1) = (((10 ^ (p-n) - 1 : ℤ)) : ℚ) := by push_cast; rfl
      rw [this]; apply rnd_int
      have h1 : (1:ℤ) ≤ 10 ^ (p-n) := one_le_pow₀ (by norm_num)
      have h2 : (10:ℤ) ^ (p-n) ≤ 10 ^ p := pow_le_pow_right₀ (by norm_num) (by omega)
      rw [abs_of_nonneg (by omega)]; omega
    rw [abs_le] at h ⊢
    have h1 := rnd_mono hp h.1
    have h2 := rnd_mono hp h.2
    rw [rnd_neg, hfit] at h1
    rw [hfit] at h2
    exact ⟨h1, h2⟩
  have h1 := rhu_abs_sub_le (toDecimal p a * 10 ^ n)
  have hT : (1:ℚ) ≤ 10 ^ n := one_le_pow₀ (by norm_num)
  have h5 : |(rhu (toDecimal p a * 10 ^ n) : ℚ)| ≤ |toDecimal p a * 10 ^ n| + 1/2 := by
    have := abs_sub_abs_le_abs_sub (rhu (toDecimal p a * 10 ^ n) : ℚ) (toDecimal p a * 10 ^ n)
    rw [abs_sub_comm] at this; linarith
  have h6 : |toDecimal p a * 10 ^ n| ≤ (10 ^ (p-n) - 1) * 10 ^ n := by
    rw [abs_mul, abs_of_pos (by positivity : (0:ℚ) < 10 ^ n)]
    exact mul_le_mul_of_nonneg_right hx (by positivity)
  have h7 : ((10:ℚ) ^ (p-n) - 1) * 10 ^ n = 10 ^ p - 10 ^ n := by
    rw [sub_mul, ← pow_add, Nat.sub_add_cancel hn, one_mul]
  have : |(rhu (toDecimal p a * 10 ^ n) : ℚ)| < 10 ^ p := by linarith
  exact_mod_cast this

/-- Zero is shown as `0`. -/
theorem C11_zero (p n : ℕ) (a : Number) (h : a.val = 0) : toText p n a = .ok ['0'] := by
  have : toDecimal p a = 0 := by
    change rnd p a.val = 0; rw [h, rnd_zero]
  unfold toText; simp only [this, if_true]; rfl

/-- A minus sign is shown only for negative numbers, and always for those. -/
theorem C11_sign (p n : ℕ) (hp : 1 ≤ p) (a : Number) (t : List Char) (h : toText p n a = .ok t) :
    t.head? = some '-' ↔ a.val < 0 := by
  obtain ⟨neg, ip, fp, e, h1, h2, _, _, _, _, hs, _⟩ := toText_ok h
  have hsign : toDecimal p a < 0 ↔ a.val < 0 := by
    have := toDecimal_sign hp a
    constructor
    · intro h; by_contra hc; push Not at hc; linarith [this.mpr hc]
    · intro h; by_contra hc; push Not at hc; linarith [this.mp hc]
  rw [← hsign, ← hs, e]
  unfold assemble
  cases neg
  · simp only [Bool.false_eq_true, if_false, List.nil_append, iff_false]
    rw [List.head?_append_of_ne_nil _ h2]
    have := digits_head_ne_minus h1
    intro hc; rw [hc] at this; revert this; decide
  · simp

/-- At every precision and number of places there is a negative number shown as `-0`. -/
theorem C11_minus_zero_violation (p n : ℕ) (hp : 1 ≤ p) :
    (⟨-1, 10 ^ (n+1)⟩ : Number).Canonical ∧ toText p n ⟨-1, 10 ^ (n+1)⟩ = .ok ['-', '0'] := by
  have hT : (0:ℤ) < 10 ^ (n+1) := by positivity
  refine ⟨⟨hT, by simp [Int.gcd]⟩, ?_⟩
  have hd : toDecimal p ⟨-1, 10 ^ (n+1)⟩ = -(1 / 10 ^ (n+1)) := by
    unfold toDecimal
    apply (rnd_of_fits _).trans
    · push_cast; rw [neg_div]
    · refine ⟨-1, -((n+1 : ℕ):ℤ), ?_, ?_⟩
      · rw [zpow_neg, zpow_natCast]; push_cast; rw [div_eq_mul_inv]
      · simp only [abs_neg, abs_one]; exact one_lt_pow₀ (by norm_num) (by omega)
  have hneg : toDecimal p ⟨-1, 10 ^ (n+1)⟩ < 0 := by
    rw [hd]; have : (0:ℚ) < 1 / 10 ^ (n+1) := by positivity
    linarith
  have hr : rhu (toDecimal p ⟨-1, 10 ^ (n+1)⟩ * 10 ^ n) = 0 := by
    rw [hd]
    have : -((1:ℚ) / 10 ^ (n+1)) * 10 ^ n = -(1/10) := by rw [pow_succ]; field_simp
    rw [this]; unfold rhu; norm_num
  obtain ⟨t, ht⟩ := (toText_ok_iff p n ⟨-1, 10 ^ (n+1)⟩).mpr (Or.inr (by rw [hr]; simp))
  unfold toText
  simp only
  rw [if_neg hneg.ne, hr, if_neg (by simp), decide_eq_true hneg]
  congr 1
  have hnt : natText (Int.natAbs 0) = ['0'] := by simp [natText]
  have hz : zfill (n+1) ['0'] = List.replicate (n+1) '0' := by
    unfold zfill; simp [List.replicate_succ']
  have hf : fmtFixed true (Int.natAbs 0) n = assemble true ['0'] (List.replicate n '0') := by
    unfold fmtFixed assemble
    simp only [hnt, hz]
    simp only [List.length_replicate]
    have : n + 1 - n = 1 := by omega
    rw [this]
    simp [List.replicate_succ]
  rw [hf, stripFraction_assemble (by intro c hc; simp at hc; subst hc; decide)
    (by intro c hc; rw [List.mem_replicate] at hc; rw [hc.2]; decide)]
  have : rstrip0 (List.replicate n '0') = [] := by
    unfold rstrip0
    simp
  rw [this]; rfl

/-- Numbers of `10^(p-n)` and more cannot be shown: the display raises. -/
theorem C11_unshowable_violation (p n : ℕ) (hp : 1 ≤ p) (hn : n ≤ p) :
    (⟨10 ^ (p-n), 1⟩ : Number).Canonical ∧
    toText p n ⟨10 ^ (p-n), 1⟩ = .error (.py "InvalidOperation") := by
  refine ⟨⟨by norm_num, by simp⟩, ?_⟩
  have hd : toDecimal p ⟨10 ^ (p-n), 1⟩ = 10 ^ (p-n) := by
    unfold toDecimal
    apply (rnd_of_fits _).trans
    · push_cast; rw [div_one]
    · refine ⟨1, ((p-n : ℕ):ℤ), ?_, ?_⟩
      · rw [zpow_natCast]; push_cast; simp
      · simp only [abs_one]; exact one_lt_pow₀ (by norm_num) (by omega)
  have hne : toDecimal p ⟨10 ^ (p-n), 1⟩ ≠ 0 := by rw [hd]; positivity
  have hr : rhu (toDecimal p ⟨10 ^ (p-n), 1⟩ * 10 ^ n) = 10 ^ p := by
    rw [hd, ← pow_add, Nat.sub_add_cancel hn]
    have : (10:ℚ) ^ p = ((10 ^ p : ℤ):ℚ) := by push_cast; rfl
    rw [this, rhu_intCast]
  unfold toText
  simp only
  rw [if_neg hne, hr, if_pos (by rw [abs_of_pos (by positivity)])]

/-- With the program's settings: `10^70` cannot be shown. -/
example : toText 100 30 ⟨10 ^ 70, 1⟩ = .error (.py "InvalidOperation") :=
  (C11_unshowable_violation 100 30 (by norm_num) (by norm_num)).2

end MC.Props
