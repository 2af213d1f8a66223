import Verif.Model.Dates
import Verif.Spec.Dates

/-! # The calendar of the model -/

namespace MC.Dates
open MC.Spec

/-- The days of a year. -/
def yearLength (y : ℕ) : ℕ := if isLeap y then 366 else 365

theorem isLeap_iff (y : ℕ) : isLeap y = true ↔ LongYear y := by
  simp only [isLeap, LongYear, Bool.and_eq_true, Bool.or_eq_true, beq_iff_eq, bne_iff_ne]
  constructor
  · rintro ⟨h1, h2⟩
    exact ⟨by omega, by omega⟩
  · rintro ⟨h1, h2⟩
    refine ⟨by omega, ?_⟩
    by_cases h : 100 ∣ y
    · have := h2 h; right; omega
    · left; omega

theorem daysInMonth_eq (y m : ℕ) : daysInMonth y m = monthLength y m := by
  unfold daysInMonth monthLength
  by_cases h2 : m = 2
  · subst h2
    have : (isLeap y = true) = LongYear y := propext (isLeap_iff y)
    simp [this]
  · by_cases h : m = 9 ∨ m = 4 ∨ m = 6 ∨ m = 11
    · rw [if_neg h2, if_pos (by omega), if_pos h]
    · rw [if_neg h2, if_neg (by omega), if_neg h, if_neg h2]

theorem daysBeforeYear_succ {y : ℕ} (h : 1 ≤ y) :
    daysBeforeYear (y + 1) = daysBeforeYear y + yearLength y := by
  unfold daysBeforeYear yearLength
  have : (isLeap y = true) = LongYear y := propext (isLeap_iff y)
  simp only [this, LongYear]
  split <;> omega

theorem daysInMonth_pos (y m : ℕ) : 28 ≤ daysInMonth y m := by
  unfold daysInMonth; split_ifs <;> omega

theorem daysInMonth_le (y m : ℕ) : daysInMonth y m ≤ 31 := by
  unfold daysInMonth; split_ifs <;> omega

theorem daysBeforeMonth_succ (y : ℕ) {m : ℕ} (h : 1 ≤ m) :
    daysBeforeMonth y (m + 1) = daysBeforeMonth y m + daysInMonth y m := by
  obtain ⟨k, rfl⟩ : ∃ k, m = k + 1 := ⟨m - 1, by omega⟩
  rfl

theorem daysBeforeMonth_year (y : ℕ) : daysBeforeMonth y 13 = yearLength y := by
  unfold yearLength
  cases h : isLeap y <;> simp [daysBeforeMonth, daysInMonth, h]

theorem daysBeforeYear_mono {a b : ℕ} (h : a ≤ b) : daysBeforeYear a ≤ daysBeforeYear b := by
  induction h with
  | refl => exact le_refl _
  | step h ih =>
    rename_i m
    refine ih.trans ?_
    cases m with
    | zero => simp [daysBeforeYear]
    | succ k =>
      have := daysBeforeYear_succ (show 1 ≤ k + 1 from Nat.succ_pos k)
      rw [Nat.succ_eq_add_one, this]
      exact Nat.le_add_right _ _

theorem daysBeforeMonth_mono (y : ℕ) : ∀ {a b : ℕ}, a ≤ b →
    daysBeforeMonth y a ≤ daysBeforeMonth y b := by
  intro a b h
  induction h with
  | refl => exact le_refl _
  | step h ih =>
    rename_i m
    refine ih.trans ?_
    cases m with
    | zero => simp [daysBeforeMonth]
    | succ k =>
      have := daysBeforeMonth_succ y (show 1 ≤ k + 1 from Nat.succ_pos k)
      rw [Nat.succ_eq_add_one, this]
      exact Nat.le_add_right _ _

/-- A day that exists. -/
structure Valid (y m d : ℕ) : Prop where
  year : 1 ≤ y
  last : y ≤ 9999
  month : 1 ≤ m
  most : m ≤ 12
  day : 1 ≤ d
  fits : d ≤ daysInMonth y m

theorem dayNumber_lt_year {y m d : ℕ} (h : Valid y m d) :
    dayNumber y m d < daysBeforeYear (y + 1) := by
  rw [daysBeforeYear_succ h.year, ← daysBeforeMonth_year]
  have h1 := daysBeforeMonth_mono y (show m + 1 ≤ 13 by have := h.most; omega)
  rw [daysBeforeMonth_succ y h.month] at h1
  have := h.day
  have := h.fits
  unfold dayNumber
  omega

theorem dayNumber_lt {y m d : ℕ} (h : Valid y m d) : dayNumber y m d < dayCount := by
  refine (dayNumber_lt_year h).trans_le ?_
  refine (daysBeforeYear_mono (show y + 1 ≤ 10000 by have := h.last; omega)).trans ?_
  decide

theorem yearOf_dayNumber {y m d : ℕ} (h : Valid y m d) : yearOf (dayNumber y m d) = y := by
  have h1 : y ≤ yearOf (dayNumber y m d) :=
    Nat.le_findGreatest (by have := h.last; omega) (by unfold dayNumber; omega)
  by_contra hne
  have h2 : daysBeforeYear (yearOf (dayNumber y m d)) ≤ dayNumber y m d :=
    Nat.findGreatest_spec (P := fun y' => daysBeforeYear y' ≤ dayNumber y m d) (m := y)
      (by have := h.last; omega) (by unfold dayNumber; omega)
  have h3 := dayNumber_lt_year h
  have h4 := daysBeforeYear_mono (show y + 1 ≤ yearOf (dayNumber y m d) by omega)
  omega

theorem monthOf_dayNumber {y m d : ℕ} (h : Valid y m d) : monthOf (dayNumber y m d) = m := by
  unfold monthOf
  rw [yearOf_dayNumber h]
  have hr : dayNumber y m d - daysBeforeYear y = daysBeforeMonth y m + (d - 1) := by
    unfold dayNumber; omega
  rw [hr]
  have h1 : m ≤ Nat.findGreatest (fun m' => daysBeforeMonth y m' ≤ daysBeforeMonth y m + (d - 1)) 12 :=
    Nat.le_findGreatest h.most (by omega)
  by_contra hne
  have h2 := Nat.findGreatest_spec
    (P := fun m' => daysBeforeMonth y m' ≤ daysBeforeMonth y m + (d - 1)) (m := m) (n := 12)
    h.most (by omega)
  have h4 := daysBeforeMonth_mono y (show m + 1 ≤ Nat.findGreatest
    (fun m' => daysBeforeMonth y m' ≤ daysBeforeMonth y m + (d - 1)) 12 by omega)
  rw [daysBeforeMonth_succ y h.month] at h4
  have := h.day
  have := h.fits
  omega

theorem dayOf_dayNumber {y m d : ℕ} (h : Valid y m d) : dayOf (dayNumber y m d) = d := by
  unfold dayOf
  rw [monthOf_dayNumber h, yearOf_dayNumber h]
  have := h.day
  unfold dayNumber
  omega

theorem year_spec (n : ℕ) : 1 ≤ yearOf n ∧ daysBeforeYear (yearOf n) ≤ n := by
  constructor
  · exact Nat.le_findGreatest (by omega) (by simp [daysBeforeYear])
  · exact Nat.findGreatest_spec (P := fun y' => daysBeforeYear y' ≤ n) (m := 1) (by omega)
      (by simp [daysBeforeYear])

theorem year_lt {n : ℕ} (h : n < dayCount) :
    yearOf n ≤ 9999 ∧ n < daysBeforeYear (yearOf n + 1) := by
  have h1 := (year_spec n).2
  have h2 : yearOf n ≤ 10000 := Nat.findGreatest_le _
  have h3 : yearOf n ≠ 10000 := by
    intro he
    rw [he] at h1
    have : daysBeforeYear 10000 = dayCount := by decide
    omega
  refine ⟨by omega, ?_⟩
  by_contra hc
  exact Nat.findGreatest_is_greatest (P := fun y' => daysBeforeYear y' ≤ n) (n := 10000)
    (k := yearOf n + 1) (Nat.lt_succ_self _) (by omega) (not_lt.mp hc)

theorem month_spec (n : ℕ) : 1 ≤ monthOf n ∧ monthOf n ≤ 12 ∧
    daysBeforeMonth (yearOf n) (monthOf n) ≤ n - daysBeforeYear (yearOf n) := by
  refine ⟨?_, Nat.findGreatest_le _, ?_⟩
  · exact Nat.le_findGreatest (by omega) (by simp [daysBeforeMonth])
  · exact Nat.findGreatest_spec
      (P := fun m => daysBeforeMonth (yearOf n) m ≤ n - daysBeforeYear (yearOf n)) (m := 1)
      (by omega) (by simp [daysBeforeMonth])

theorem valid_of {n : ℕ} (h : n < dayCount) : Valid (yearOf n) (monthOf n) (dayOf n) := by
  obtain ⟨hy1, hy2⟩ := year_spec n
  obtain ⟨hy3, hy4⟩ := year_lt h
  obtain ⟨hm1, hm2, hm3⟩ := month_spec n
  refine ⟨hy1, hy3, hm1, hm2, by unfold dayOf; omega, ?_⟩
  have hlt : n - daysBeforeYear (yearOf n) < daysBeforeMonth (yearOf n) (monthOf n + 1) := by
    by_cases h12 : monthOf n = 12
    · rw [h12, daysBeforeMonth_year]
      rw [daysBeforeYear_succ hy1] at hy4
      omega
    · by_contra hc
      exact Nat.findGreatest_is_greatest
        (P := fun m => daysBeforeMonth (yearOf n) m ≤ n - daysBeforeYear (yearOf n)) (n := 12)
        (k := monthOf n + 1) (Nat.lt_succ_self _) (by omega) (not_lt.mp hc)
  rw [daysBeforeMonth_succ _ hm1] at hlt
  unfold dayOf
  omega

theorem dayNumber_of {n : ℕ} (h : n < dayCount) :
    dayNumber (yearOf n) (monthOf n) (dayOf n) = n := by
  have := (year_spec n).2
  have := (month_spec n).2.2
  unfold dayNumber dayOf
  omega

/-- The day after a valid one is the next day of the calendar. -/
theorem next_dayNumber {y m d : ℕ} (h : Valid y m d) (hn : dayNumber y m d + 1 < dayCount) :
    ∃ y' m' d', (⟨y, m, d⟩ : Day).next = ⟨y', m', d'⟩ ∧ Valid y' m' d' ∧
      dayNumber y' m' d' = dayNumber y m d + 1 := by
  obtain ⟨h1, h2, h3, h4, h5, h6⟩ := h
  unfold Day.next
  rw [← daysInMonth_eq]
  dsimp only
  by_cases hd : d < daysInMonth y m
  · rw [if_pos hd]
    exact ⟨_, _, _, rfl, ⟨h1, h2, h3, h4, by omega, hd⟩, by unfold dayNumber; omega⟩
  · rw [if_neg hd]
    by_cases hm : m < 12
    · rw [if_pos hm]
      refine ⟨_, _, _, rfl, ⟨h1, h2, by omega, by omega, le_refl _, ?_⟩, ?_⟩
      · have := daysInMonth_pos y (m + 1); omega
      · unfold dayNumber
        rw [daysBeforeMonth_succ y h3]
        omega
    · rw [if_neg hm]
      have h12 : m = 12 := by omega
      subst h12
      have he : dayNumber (y + 1) 1 1 = dayNumber y 12 d + 1 := by
        unfold dayNumber
        rw [daysBeforeYear_succ h1, ← daysBeforeMonth_year, daysBeforeMonth_succ y (by omega)]
        simp only [daysBeforeMonth]
        omega
      refine ⟨_, _, _, rfl, ⟨by omega, ?_, le_refl _, by omega, le_refl _, ?_⟩, he⟩
      · by_contra hc
        have h99 : y = 9999 := by omega
        subst h99
        rw [← he] at hn
        exact absurd hn (by decide)
      · have := daysInMonth_pos (y + 1) 1; omega

/-- The days of the model are the days of the calendar. -/
theorem calendar_eq : ∀ {n : ℕ}, n < dayCount → calendar n = ⟨yearOf n, monthOf n, dayOf n⟩
  | 0, _ => by
    have hv : Valid 1 1 1 := ⟨by omega, by omega, by omega, by omega, by omega, by decide⟩
    have h0 : dayNumber 1 1 1 = 0 := by decide
    rw [← h0, yearOf_dayNumber hv, monthOf_dayNumber hv, dayOf_dayNumber hv]
    rfl
  | n + 1, h => by
    have hn : n < dayCount := by omega
    obtain ⟨y', m', d', he, hv, hd⟩ :=
      next_dayNumber (valid_of hn) (by rw [dayNumber_of hn]; exact h)
    rw [dayNumber_of hn] at hd
    rw [calendar, calendar_eq hn, he, ← hd, yearOf_dayNumber hv, monthOf_dayNumber hv,
      dayOf_dayNumber hv]

end MC.Dates
