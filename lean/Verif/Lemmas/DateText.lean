import Verif.Lemmas.Dates
import Verif.Lemmas.Float

/-! # The texts of dates, as specified -/

namespace MC.Dates
open MC.Spec

theorem digitChar_facts (n : ℕ) : '0' ≤ digitChar n ∧ digitChar n ≤ '9' ∧
    (digitChar n).toNat - '0'.toNat = n % 10 := by
  unfold digitChar
  have h : n % 10 < 10 := Nat.mod_lt _ (by omega)
  generalize n % 10 = k at h
  interval_cases k <;> decide

theorem fixed_digits : ∀ k n, n < 10 ^ k → Digits k n (fixed k n)
  | 0, n, h => ⟨rfl, by simp [fixed], by simp at h; simp [fixed, h]⟩
  | k + 1, n, h => by
    obtain ⟨h1, h2, h3⟩ := fixed_digits k (n / 10) (by
      rw [Nat.div_lt_iff_lt_mul (by omega)]; rw [pow_succ] at h; exact h)
    obtain ⟨f1, f2, f3⟩ := digitChar_facts n
    refine ⟨fixed_length _ _, ?_, ?_⟩
    · intro c hc
      rw [fixed, List.mem_append, List.mem_singleton] at hc
      rcases hc with hc | rfl
      · exact h2 c hc
      · exact ⟨f1, f2⟩
    · rw [fixed, List.foldl_append, h3]
      simp only [List.foldl_cons, List.foldl_nil, f3]
      omega

theorem char_eq_digit {c : Char} (h1 : '0' ≤ c) (h2 : c ≤ '9') :
    c = digitChar (c.toNat - '0'.toNat) := by
  have h3 : 48 ≤ c.toNat := h1
  have h4 : c.toNat ≤ 57 := h2
  have h0 : '0'.toNat = 48 := rfl
  unfold digitChar
  rw [h0, Nat.mod_eq_of_lt (by omega), Nat.add_sub_cancel' h3, Char.ofNat_toNat]

theorem digits_eq : ∀ {k n : ℕ} {s : List Char}, Digits k n s → s = fixed k n ∧ n < 10 ^ k := by
  intro k
  induction k with
  | zero =>
    rintro n s ⟨h1, h2, h3⟩
    rw [List.length_eq_zero_iff] at h1
    subst h1
    simp only [List.foldl_nil] at h3
    subst h3
    exact ⟨rfl, by norm_num⟩
  | succ k ih =>
    rintro n s ⟨h1, h2, h3⟩
    obtain ⟨s', c, rfl⟩ : ∃ s' c, s = s' ++ [c] := by
      have hne : s ≠ [] := by intro h; rw [h] at h1; simp at h1
      exact ⟨s.dropLast, s.getLast hne, (List.dropLast_append_getLast hne).symm⟩
    have hc := h2 c (by simp)
    rw [List.foldl_append] at h3
    simp only [List.foldl_cons, List.foldl_nil] at h3
    obtain ⟨q, hq⟩ : ∃ q : ℕ,
        s'.foldl (fun (a : ℕ) (c : Char) => 10 * a + (c.toNat - '0'.toNat)) 0 = q := ⟨_, rfl⟩
    rw [hq] at h3
    obtain ⟨e1, e2⟩ := ih (n := q) (s := s')
      ⟨by simpa using h1, fun d hd => h2 d (by simp [hd]), hq⟩
    have h3' : 48 ≤ c.toNat := hc.1
    have h4 : c.toNat ≤ 57 := hc.2
    have h0 : '0'.toNat = 48 := rfl
    rw [h0] at h3
    refine ⟨?_, by rw [pow_succ]; omega⟩
    have hq' : n / 10 = q := by omega
    have hr : n % 10 = c.toNat - 48 := by omega
    rw [fixed, hq', ← e1]
    congr 2
    unfold digitChar
    rw [hr, Nat.add_sub_cancel' h3', Char.ofNat_toNat]

/-- The model's moment. -/
def ofMoment (m : Moment) : DT := ⟨m.elapsed, m.zone⟩

theorem calendar_next_year (n : ℕ) : (calendar n).year ≤ (calendar (n + 1)).year := by
  rw [calendar]
  unfold Day.next
  split_ifs <;> simp

theorem calendar_mono {a b : ℕ} (h : a ≤ b) : (calendar a).year ≤ (calendar b).year := by
  induction h with
  | refl => exact le_refl _
  | step h ih => exact ih.trans (calendar_next_year _)

/-- The last day of year 9999 is followed by year 10000. -/
theorem calendar_end : (calendar dayCount).year = 10000 := by
  have h : dayCount - 1 < dayCount := by decide
  have hv : Valid 9999 12 31 := ⟨by omega, by omega, by omega, by omega, by omega, by decide⟩
  have h0 : dayNumber 9999 12 31 = dayCount - 1 := by decide
  have hc := calendar_eq h
  rw [← h0, yearOf_dayNumber hv, monthOf_dayNumber hv, dayOf_dayNumber hv, h0] at hc
  rw [show dayCount = (dayCount - 1) + 1 from rfl, calendar, hc]
  rfl

theorem days_lt {n : ℕ} (h : (calendar n).year ≤ 9999) : n < dayCount := by
  by_contra hc
  have := calendar_mono (not_lt.mp hc)
  rw [calendar_end] at this
  omega

theorem day_facts {m : Moment} (h : m.Exists) :
    m.elapsed / usPerDay = m.days ∧ (ofMoment m).hour = m.hour ∧ (ofMoment m).minute = m.minute ∧
    (ofMoment m).second = m.second ∧ (ofMoment m).micro = m.micro := by
  obtain ⟨-, h1, h2, h3, h4, -⟩ := h
  unfold ofMoment DT.hour DT.minute DT.second DT.micro Moment.elapsed usPerDay
  dsimp only
  refine ⟨?_, ?_, ?_, ?_, ?_⟩ <;> omega

theorem inRange_ofMoment {m : Moment} (h : m.Exists) : InRange (ofMoment m) := by
  constructor
  · have h1 := days_lt h.year
    have := (day_facts h).1
    have h2 : m.elapsed < dayCount * usPerDay := by
      rw [← Nat.div_lt_iff_lt_mul (by decide), this]
      exact h1
    exact h2
  · exact h.zone

theorem calendar_ofMoment {m : Moment} (h : m.Exists) :
    calendar m.days = ⟨(ofMoment m).year, (ofMoment m).month, (ofMoment m).day⟩ := by
  have := (day_facts h).1
  rw [calendar_eq (days_lt h.year)]
  unfold DT.year DT.month DT.day ofMoment
  rw [this]

/-- A text of the offset is the one the model writes. -/
theorem zoneText_eq {o : ℤ} {s : List Char} (h : ZoneText o s) : s = zoneText o := by
  obtain ⟨sign, hh, m, rest, hs, ms, rfl, dh, dm, hm, sec, us, h1, h2, ho, hsign, hneg, hrest⟩ := h
  obtain ⟨rfl, lh⟩ := digits_eq dh
  obtain ⟨rfl, lm⟩ := digits_eq dm
  have ha : o.natAbs = ((hh * 60 + m) * 60 + sec) * 1000000 + us := by
    rw [ho]
    rcases hsign with rfl | rfl
    · simp only [show ('+' = '-') = False by decide, if_false, one_mul]; omega
    · simp only [if_true]; omega
  have hs' : (if o < 0 then '-' else '+') = sign := by
    rcases hsign with rfl | rfl
    · simp only [show ('+' = '-') = False by decide, if_false, one_mul] at ho
      rw [if_neg (by omega)]
    · simp only [if_true] at ho
      have := hneg rfl
      rw [if_pos (by omega)]
  unfold zoneText
  simp only [ha, hs']
  have e1 : (((hh * 60 + m) * 60 + sec) * 1000000 + us) / 3600000000 = hh := by omega
  have e2 : (((hh * 60 + m) * 60 + sec) * 1000000 + us) / 60000000 % 60 = m := by omega
  have e3 : (((hh * 60 + m) * 60 + sec) * 1000000 + us) / 1000000 % 60 = sec := by omega
  have e4 : (((hh * 60 + m) * 60 + sec) * 1000000 + us) % 1000000 = us := by omega
  rw [e1, e2, e3, e4]
  congr 1
  rcases hrest with ⟨rfl, rfl, rfl⟩ | ⟨ds, h3, rfl⟩ | ⟨ss, fs, rfl, ds, df, h3⟩
  · rw [if_pos (by omega)]
  · obtain ⟨rfl, -⟩ := digits_eq ds
    rw [if_neg (by omega), if_pos rfl, List.append_nil]
  · obtain ⟨rfl, -⟩ := digits_eq ds
    obtain ⟨rfl, -⟩ := digits_eq df
    rw [if_neg (by omega), if_neg h3]

theorem zoneText_spec {o : ℤ} (h : o.natAbs < usPerDay) : ZoneText o (zoneText o) := by
  unfold usPerDay at h
  refine ⟨if o < 0 then '-' else '+', o.natAbs / 3600000000, o.natAbs / 60000000 % 60, _, _, _, rfl,
    fixed_digits 2 _ (by omega), fixed_digits 2 _ (by omega), by omega,
    o.natAbs / 1000000 % 60, o.natAbs % 1000000, by omega, by omega, ?_, ?_, ?_, ?_⟩
  · by_cases hn : o < 0
    · simp only [hn, if_true]; omega
    · simp only [hn, if_false, show ('+' = '-') = False by decide, one_mul]; omega
  · by_cases hn : o < 0 <;> simp [hn]
  · by_cases hn : o < 0
    · intro _; omega
    · simp [hn]
  · by_cases h1 : o.natAbs % 60000000 = 0
    · left; exact ⟨by rw [if_pos h1], by omega, by omega⟩
    · right
      rw [if_neg h1]
      by_cases h2 : o.natAbs % 1000000 = 0
      · left
        rw [if_pos h2, List.append_nil]
        exact ⟨fixed_digits 2 _ (by omega), by omega, h2⟩
      · right
        rw [if_neg h2]
        exact ⟨_, _, rfl, fixed_digits 2 _ (by omega), fixed_digits 6 _ (by omega), h2⟩

theorem offText_spec {t : DT} (h : InRange t) :
    (t.off = none ∧ offText t = []) ∨ ∃ o, t.off = some o ∧ ZoneText o (offText t) := by
  unfold offText
  cases ho : t.off with
  | none => left; exact ⟨rfl, rfl⟩
  | some o => right; exact ⟨o, rfl, zoneText_spec (h.zone o (by rw [ho]; rfl))⟩

/-- Every text of a moment is one the model reads. -/
theorem shown_of_text {m : Moment} (hm : m.Exists) {s : List Char} (h : DateText m s) :
    ∃ clock frac k, s = shown (ofMoment m) clock frac k ∧ Decimals (ofMoment m) k ∧
      (clock = false → (ofMoment m).us % usPerDay = 0) ∧
      (frac = false → (ofMoment m).micro = 0) := by
  obtain ⟨ys, ms, ds, cl, zs, rfl, dy, dm, dd, hcl, hz⟩ := h
  rw [calendar_ofMoment hm] at dy dm dd
  obtain ⟨rfl, -⟩ := digits_eq dy
  obtain ⟨rfl, -⟩ := digits_eq dm
  obtain ⟨rfl, -⟩ := digits_eq dd
  obtain ⟨-, e1, e2, e3, e4⟩ := day_facts hm
  have hzs : zs = offText (ofMoment m) := by
    unfold offText ofMoment
    rcases hz with ⟨h1, rfl⟩ | ⟨o, h1, h2⟩
    · rw [h1]
    · rw [h1]; exact zoneText_eq h2
  subst hzs
  rcases hcl with ⟨rfl, h1, h2, h3, h4⟩ | ⟨hs, mis, ss, fr, rfl, dh, dmi, dse, hfr⟩
  · refine ⟨false, false, 6, by simp [shown, dayText], decimals_six _, fun _ => ?_, fun _ => by rw [e4, h4]⟩
    exact midnight ⟨by rw [e1, h1], by rw [e2, h2], by rw [e3, h3], by rw [e4, h4]⟩
  · obtain ⟨rfl, -⟩ := digits_eq dh
    obtain ⟨rfl, -⟩ := digits_eq dmi
    obtain ⟨rfl, -⟩ := digits_eq dse
    rcases hfr with ⟨rfl, h4⟩ | ⟨k, n, fs, rfl, k1, k6, df, hmi⟩
    · exact ⟨true, false, 6, by simp [shown, dayText, clockText, e1, e2, e3], decimals_six _, by simp,
        fun _ => by rw [e4, h4]⟩
    · obtain ⟨rfl, -⟩ := digits_eq df
      have hq : m.micro / 10 ^ (6 - k) = n := by
        rw [hmi, Nat.mul_div_cancel _ (by positivity)]
      exact ⟨true, true, k, by simp [shown, dayText, clockText, e1, e2, e3, e4, hq],
        ⟨k1, k6, by rw [e4, hq, hmi]⟩, by simp, by simp⟩

/-- What the model writes is a text of the moment. -/
theorem fullText_spec {m : Moment} (hm : m.Exists) : DateText m (fullText (ofMoment m)) := by
  have hr := inRange_ofMoment hm
  have hv := hr.valid
  obtain ⟨hd, e1, e2, e3, e4⟩ := day_facts hm
  refine ⟨_, _, _, _, _, rfl, ?_, ?_, ?_, ?_, offText_spec hr⟩
  · rw [calendar_ofMoment hm]; exact fixed_digits 4 _ (by have := hv.last; dsimp only; omega)
  · rw [calendar_ofMoment hm]; exact fixed_digits 2 _ (by have := hv.most; dsimp only; omega)
  · rw [calendar_ofMoment hm]
    exact fixed_digits 2 _ (by have := hv.fits; have := daysInMonth_le (ofMoment m).year (ofMoment m).month; dsimp only; omega)
  · obtain ⟨-, l1, l2, l3, l4, -⟩ := hm
    by_cases h0 : (ofMoment m).us % usPerDay = 0
    · left
      refine ⟨by simp [h0], ?_⟩
      rw [← e1, ← e2, ← e3, ← e4]
      unfold DT.hour DT.minute DT.second DT.micro
      unfold usPerDay at *
      omega
    · right
      simp only [h0, ne_eq, not_false_eq_true, decide_true, Bool.true_eq_false, if_false]
      refine ⟨_, _, _, _, rfl, ?_, ?_, ?_, ?_⟩
      · rw [e1]; exact fixed_digits 2 _ (by omega)
      · rw [e2]; exact fixed_digits 2 _ (by omega)
      · rw [e3]; exact fixed_digits 2 _ (by omega)
      · by_cases h1 : (ofMoment m).micro = 0
        · left; exact ⟨by simp [h1], by rw [← e4]; exact h1⟩
        · right
          exact ⟨6, m.micro, fixed 6 m.micro, by simp [e4 ▸ h1, e4], by omega, by omega,
            fixed_digits 6 _ (by omega), by simp⟩

/-- Every moment of the model in range is a moment. -/
theorem exists_moment {t : DT} (h : InRange t) : ∃ m : Moment, m.Exists ∧ ofMoment m = t := by
  refine ⟨⟨t.us / usPerDay, t.hour, t.minute, t.second, t.micro, t.off⟩, ?_, ?_⟩
  · refine ⟨?_, by have := hour_lt t; dsimp only; omega, by have := minute_lt t; dsimp only; omega,
      by have := second_lt t; dsimp only; omega, micro_lt t, h.zone⟩
    rw [calendar_eq h.day]
    exact h.valid.last
  · unfold ofMoment Moment.elapsed DT.hour DT.minute DT.second DT.micro usPerDay
    cases t
    congr 1
    dsimp only
    omega

theorem rhe_nearest (x : ℚ) (n : ℤ) : |x - rhe x| ≤ |x - n| := by
  by_contra hc
  have hc := not_le.mp hc
  have h := rhe_near x
  rw [abs_sub_comm] at h
  have := rhe_close (hc.trans_le h)
  rw [this] at hc
  exact lt_irrefl _ hc

/-- The rounding of the model is the rounding of floating point arithmetic. -/
theorem dbl_nearest (x : ℚ) : IsNearestFloat x (dbl x) := by
  refine ⟨dbl_grid x, ?_⟩
  rintro g ⟨m, e, hm, rfl⟩
  by_cases h : x = 0
  · subst h; rw [dbl_zero, sub_zero, abs_zero]; exact abs_nonneg _
  have hp := two_pos (binExp x)
  have key : ∀ M : ℤ, |x - dbl x| ≤ |x - M * (2 : ℚ) ^ binExp x| := by
    intro M
    have h1 := rhe_nearest (x / 2 ^ binExp x) M
    have e1 : ∀ q : ℚ, |x - q * 2 ^ binExp x| = |x / 2 ^ binExp x - q| * 2 ^ binExp x := by
      intro q
      rw [← abs_of_pos hp, ← abs_mul, abs_of_pos hp]
      congr 1
      field_simp
    unfold dbl
    rw [if_neg h, e1, e1]
    exact mul_le_mul_of_nonneg_right h1 hp.le
  by_cases he : binExp x ≤ e
  · have := key (m * 2 ^ (e - binExp x).toNat)
    push_cast at this
    rw [← zpow_natCast, Int.toNat_of_nonneg (by omega), mul_assoc, ← zpow_add₀ (by norm_num),
      sub_add_cancel] at this
    exact this
  · have h2 : |(m : ℚ) * 2 ^ e| ≤ 2 ^ 52 * 2 ^ binExp x := by
      have h3 : |(m : ℚ)| ≤ 2 ^ 53 := by exact_mod_cast hm
      have h4 : (2 : ℚ) ^ e ≤ 2 ^ (binExp x - 1) := zpow_le_zpow_right₀ (by norm_num) (by omega)
      have h5 : (2 : ℚ) ^ binExp x = 2 * 2 ^ (binExp x - 1) := by
        rw [← zpow_one_add₀ (by norm_num)]; congr 1; ring
      have h6 := two_pos e
      have h7 := two_pos (binExp x - 1)
      rw [abs_mul, abs_of_pos h6, h5]
      have h8 : (0 : ℚ) ≤ |(m : ℚ)| := abs_nonneg _
      nlinarith
    have h3 : (2 : ℚ) ^ 52 * 2 ^ binExp x ≤ |x| := by
      have h4 := Int.zpow_log_le_self (b := 2) (by norm_num) (abs_pos.mpr h)
      have h5 : (2 : ℚ) ^ 52 * 2 ^ binExp x = 2 ^ Int.log 2 |x| := by
        unfold binExp
        rw [← zpow_natCast, ← zpow_add₀ (by norm_num)]
        congr 1
        push_cast
        ring
      rw [h5]
      exact_mod_cast h4
    have h2' := abs_le.mp h2
    rcases le_total 0 x with hx | hx
    · have := key (2 ^ 52)
      push_cast at this
      norm_num at this h2' h3
      rw [abs_of_nonneg hx] at h3
      refine this.trans ?_
      rw [abs_of_nonneg (by linarith), abs_of_nonneg (by linarith)]
      linarith
    · have := key (-2 ^ 52)
      push_cast at this
      norm_num at this h2' h3
      rw [abs_of_nonpos hx] at h3
      refine this.trans ?_
      rw [abs_of_nonpos (by linarith), abs_of_nonpos (by linarith)]
      linarith

end MC.Dates
