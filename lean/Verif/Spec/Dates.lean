import Mathlib.Data.Nat.Notation
import Mathlib.Data.Rat.Defs
import Mathlib.Data.Rat.Floor

/-!
# What dates are

Written from the calendar, without using the model.
-/

namespace MC.Spec

/-- A year, a month and a day. -/
structure Day where
  year : ℕ
  month : ℕ
  day : ℕ
  deriving DecidableEq, Repr

/-- Every fourth year has 366 days; of the years that end a century only every fourth does. -/
def LongYear (y : ℕ) : Prop := 4 ∣ y ∧ (100 ∣ y → 400 ∣ y)

instance (y : ℕ) : Decidable (LongYear y) := by unfold LongYear; infer_instance

/-- Thirty days hath September, April, June and November. -/
def monthLength (y m : ℕ) : ℕ :=
  if m = 9 ∨ m = 4 ∨ m = 6 ∨ m = 11 then 30
  else if m = 2 then (if LongYear y then 29 else 28) else 31

/-- The day after. -/
def Day.next (d : Day) : Day :=
  if d.day < monthLength d.year d.month then ⟨d.year, d.month, d.day + 1⟩
  else if d.month < 12 then ⟨d.year, d.month + 1, 1⟩
  else ⟨d.year + 1, 1, 1⟩

/-- The `n`-th day after 1 January of year 1. -/
def calendar : ℕ → Day
  | 0 => ⟨1, 1, 1⟩
  | n + 1 => (calendar n).next

/-- A number written with exactly `k` digits. -/
def Digits (k n : ℕ) (s : List Char) : Prop :=
  s.length = k ∧ (∀ c ∈ s, '0' ≤ c ∧ c ≤ '9') ∧
    s.foldl (fun a c => 10 * a + (c.toNat - '0'.toNat)) 0 = n

/-- The offset of a local clock from UTC: sign, hours and minutes; seconds and microseconds only
if they are needed. -/
def ZoneText (o : ℤ) (s : List Char) : Prop :=
  ∃ sign h m rest hs ms, s = sign :: hs ++ ms ++ rest ∧ Digits 2 h hs ∧ Digits 2 m ms ∧ m < 60 ∧
    ∃ sec us, sec < 60 ∧ us < 1000000 ∧
      o = (if sign = '-' then -1 else 1) * (((h * 60 + m) * 60 + sec) * 1000000 + us : ℕ) ∧
      (sign = '+' ∨ sign = '-') ∧ (sign = '-' → o ≠ 0) ∧
      ((rest = [] ∧ sec = 0 ∧ us = 0)
        ∨ (Digits 2 sec rest ∧ sec ≠ 0 ∧ us = 0)
        ∨ ∃ ss fs, rest = ss ++ '.' :: fs ∧ Digits 2 sec ss ∧ Digits 6 us fs ∧ us ≠ 0)

/-- A moment on a local clock. -/
structure Moment where
  /-- days since 1 January of year 1 -/
  days : ℕ
  hour : ℕ
  minute : ℕ
  second : ℕ
  micro : ℕ
  /-- offset from UTC in microseconds, if known -/
  zone : Option ℤ

/-- A moment in the years 1 to 9999. -/
structure Moment.Exists (m : Moment) : Prop where
  year : (calendar m.days).year ≤ 9999
  hour : m.hour < 24
  minute : m.minute < 60
  second : m.second < 60
  micro : m.micro < 1000000
  zone : ∀ o ∈ m.zone, o.natAbs < 24 * 60 * 60 * 1000000

/-- The microseconds since the beginning of year 1. -/
def Moment.elapsed (m : Moment) : ℕ :=
  (((m.days * 24 + m.hour) * 60 + m.minute) * 60 + m.second) * 1000000 + m.micro

/-- The microseconds since the beginning of year 1 in UTC (in local time if the offset is not
known). -/
def Moment.utc (m : Moment) : ℤ := m.elapsed - m.zone.getD 0

/-- The text `YYYY-MM-DD`, then `Thh:mm:ss` (which may be missing at midnight), then a point and one
to six decimals of the second (which may be missing on the second), then the offset if it is
known. -/
def DateText (m : Moment) (s : List Char) : Prop :=
  ∃ ys ms ds clock zs, s = ys ++ '-' :: ms ++ '-' :: ds ++ clock ++ zs ∧
    Digits 4 (calendar m.days).year ys ∧ Digits 2 (calendar m.days).month ms ∧
    Digits 2 (calendar m.days).day ds ∧
    ((clock = [] ∧ m.hour = 0 ∧ m.minute = 0 ∧ m.second = 0 ∧ m.micro = 0) ∨
      ∃ hs mis ss frac, clock = 'T' :: hs ++ ':' :: mis ++ ':' :: ss ++ frac ∧
        Digits 2 m.hour hs ∧ Digits 2 m.minute mis ∧ Digits 2 m.second ss ∧
        ((frac = [] ∧ m.micro = 0) ∨ ∃ k n fs, frac = '.' :: fs ∧ 1 ≤ k ∧ k ≤ 6 ∧ Digits k n fs ∧
          m.micro = n * 10 ^ (6 - k))) ∧
    ((m.zone = none ∧ zs = []) ∨ ∃ o, m.zone = some o ∧ ZoneText o zs)

/-- A `float`: a number with at most 53 binary digits. -/
def IsFloat (f : ℚ) : Prop := ∃ m e : ℤ, |m| ≤ 2 ^ 53 ∧ f = m * (2 : ℚ) ^ e

/-- `f` is a `float`, and none is nearer to `x`. -/
def IsNearestFloat (x f : ℚ) : Prop := IsFloat f ∧ ∀ g, IsFloat g → |x - f| ≤ |x - g|

end MC.Spec
