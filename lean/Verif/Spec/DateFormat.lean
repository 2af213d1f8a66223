import Verif.Spec.Dates

/-!
# Dates as people read them
-/

namespace MC.Spec

/-- The days of the week. -/
def week : List String := ["Monday", "Tuesday", "Wednesday", "Thursday", "Friday", "Saturday", "Sunday"]

/-- Day `n` (counted from 1 January of year 1) has this name: 3 January 2000 was a Monday, and names come
again every seven days. -/
def Weekday (n : ℕ) (name : String) : Prop :=
  ∃ (monday i : ℕ) (weeks : ℤ), calendar monday = ⟨2000, 1, 3⟩ ∧ week[i]? = some name ∧
    (n : ℤ) = monday + i + 7 * weeks

/-- The short names of the months. -/
def shortMonths : List String := ["Jan", "Feb", "Mar", "Apr", "May", "Jun", "Jul", "Aug", "Sep", "Oct", "Nov", "Dec"]

/-- The short name of the `m`-th month. -/
def MonthName (m : ℕ) (name : String) : Prop := 1 ≤ m ∧ shortMonths[m - 1]? = some name

/-- `Thursday, 29-Feb-2024 at 23:59:59.000005 (+0100)`: the time is missing at midnight, the decimals on the
second, and the offset when it is not known. -/
def HumanText (m : Moment) (s : List Char) : Prop :=
  ∃ name month ds ys k clock zone,
    s = name.toList ++ ", ".toList ++ ds ++ "-".toList ++ month.toList ++ "-".toList ++ ys ++ clock ++ zone ∧
    Weekday m.days name ∧ MonthName (calendar m.days).month month ∧
    Digits 2 (calendar m.days).day ds ∧ 1 ≤ k ∧ k ≤ 4 ∧ Digits k (calendar m.days).year ys ∧
    ((clock = [] ∧ m.hour = 0 ∧ m.minute = 0 ∧ m.second = 0 ∧ m.micro = 0) ∨
      ∃ hs mis ss frac, clock = " at ".toList ++ hs ++ ":".toList ++ mis ++ ":".toList ++ ss ++ frac ∧
        ¬ (m.hour = 0 ∧ m.minute = 0 ∧ m.second = 0 ∧ m.micro = 0) ∧
        Digits 2 m.hour hs ∧ Digits 2 m.minute mis ∧ Digits 2 m.second ss ∧
        ((frac = [] ∧ m.micro = 0) ∨ ∃ fs, frac = ".".toList ++ fs ∧ m.micro ≠ 0 ∧ Digits 6 m.micro fs)) ∧
    ((m.zone = none ∧ zone = []) ∨ ∃ o zs, m.zone = some o ∧ zone = " (".toList ++ zs ++ ")".toList ∧
      ZoneText o zs)

end MC.Spec
