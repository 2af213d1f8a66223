import Mathlib.Data.Nat.Find
import Verif.Model.Numerical

/-!
# Model of `features/dates/`

`dates.py` (reading and writing dates), `datefunctions.py` (`dateadd`, `datesubtract`,
`datedifference`) and `dateoperators.py` (`+%`, `-%`).  `dateformat` and `now` are in
`Model/DateFormat.lean`.

The parts of Python's `datetime` that the code uses are modelled here, from their documentation
and from CPython's source: the calendar, `strptime` and `strftime` for the directives in the
default formats, `timedelta` and its conversions from and to `float`.  Formats are the default
options (`dates.py:41-55`).  `\d` in the patterns of `strptime` is read as the ten ASCII digits.
`float` numbers are the rational numbers with 53 binary digits, without limits on the exponent:
all that is done with numbers outside these limits is to raise `OverflowError`, or to add nothing.
-/

namespace MC.Dates
open MC.Boolean MC.Arrays

/-! ## The calendar (`datetime.date`) -/

/-- `calendar.isleap`. -/
def isLeap (y : ℕ) : Bool := y % 4 == 0 && (y % 100 != 0 || y % 400 == 0)

/-- `datetime._days_in_month`. -/
def daysInMonth (y m : ℕ) : ℕ :=
  if m = 2 then (if isLeap y then 29 else 28)
  else if m = 4 ∨ m = 6 ∨ m = 9 ∨ m = 11 then 30 else 31

/-- `datetime._days_before_year`: days between 1 January of year 1 and 1 January of year `y`. -/
def daysBeforeYear (y : ℕ) : ℕ := 365 * (y - 1) + (y - 1) / 4 - (y - 1) / 100 + (y - 1) / 400

/-- `datetime._days_before_month`: days of year `y` before month `m`. -/
def daysBeforeMonth (y : ℕ) : ℕ → ℕ
  | 0 => 0
  | 1 => 0
  | m + 2 => daysBeforeMonth y (m + 1) + daysInMonth y (m + 1)

/-- `date.toordinal() - 1`. -/
def dayNumber (y m d : ℕ) : ℕ := daysBeforeYear y + daysBeforeMonth y m + (d - 1)

/-- The year of day `n` (`date.fromordinal(n + 1)`): the last one that does not begin after it. -/
def yearOf (n : ℕ) : ℕ := Nat.findGreatest (fun y => daysBeforeYear y ≤ n) 10000

/-- The month of day `n`. -/
def monthOf (n : ℕ) : ℕ :=
  Nat.findGreatest (fun m => daysBeforeMonth (yearOf n) m ≤ n - daysBeforeYear (yearOf n)) 12

/-- The day in its month of day `n`. -/
def dayOf (n : ℕ) : ℕ :=
  n - daysBeforeYear (yearOf n) - daysBeforeMonth (yearOf n) (monthOf n) + 1

/-- `date.max.toordinal()`: the number of days in the years 1 to 9999. -/
def dayCount : ℕ := 3652059

/-- Microseconds in a day. -/
def usPerDay : ℕ := 86400000000

/-- `datetime`: the microseconds between the beginning of year 1 and this moment on the local
clock, and the offset of the local clock from UTC in microseconds if it is known. -/
structure DT where
  us : ℕ
  off : Option ℤ
  deriving DecidableEq, Repr

namespace DT
variable (t : DT)
/-- `dt.year` -/
def year : ℕ := yearOf (t.us / usPerDay)
/-- `dt.month` -/
def month : ℕ := monthOf (t.us / usPerDay)
/-- `dt.day` -/
def day : ℕ := dayOf (t.us / usPerDay)
/-- `dt.hour` -/
def hour : ℕ := t.us % usPerDay / 3600000000
/-- `dt.minute` -/
def minute : ℕ := t.us % 3600000000 / 60000000
/-- `dt.second` -/
def second : ℕ := t.us % 60000000 / 1000000
/-- `dt.microsecond` -/
def micro : ℕ := t.us % 1000000
end DT

/-! ## `strftime` -/

/-- A directive of a format, or a character that stands for itself. -/
inductive Dir where
  | year | month | day | hour | minute | second | micro | zone
  | lit (c : Char)
  deriving DecidableEq, Repr

/-- A decimal digit. -/
def digitChar (n : ℕ) : Char := Char.ofNat (48 + n % 10)

/-- `n` as exactly `k` digits. -/
def fixed : ℕ → ℕ → List Char
  | 0, _ => []
  | k + 1, n => fixed k (n / 10) ++ [digitChar n]

/-- `%Y`: with four digits, or (before Python 3.14, on most systems) without leading zeros. -/
def yearText (padded : Bool) (y : ℕ) : List Char :=
  if padded then fixed 4 y else (fixed 4 y).dropWhile (· == '0')

/-- `%z`: sign, hours and minutes, and seconds and microseconds if they are not zero. -/
def zoneText (o : ℤ) : List Char :=
  let a := o.natAbs
  (if o < 0 then '-' else '+') :: fixed 2 (a / 3600000000) ++ fixed 2 (a / 60000000 % 60)
    ++ (if a % 60000000 = 0 then []
      else fixed 2 (a / 1000000 % 60)
        ++ (if a % 1000000 = 0 then [] else '.' :: fixed 6 (a % 1000000)))

/-- One directive of `dt.strftime`. -/
def dirText (padded : Bool) (t : DT) : Dir → List Char
  | .year => yearText padded t.year
  | .month => fixed 2 t.month
  | .day => fixed 2 t.day
  | .hour => fixed 2 t.hour
  | .minute => fixed 2 t.minute
  | .second => fixed 2 t.second
  | .micro => fixed 6 t.micro
  | .zone => match t.off with | some o => zoneText o | none => []
  | .lit c => [c]

/-- `dt.strftime(format)`. -/
def strftime (padded : Bool) (fmt : List Dir) (t : DT) : List Char :=
  fmt.flatMap (dirText padded t)

/-- `format(s, '0>n')`. -/
def padLeft (n : ℕ) (s : List Char) : List Char := List.replicate (n - s.length) '0' ++ s

/-! ## `strptime` -/

/-- The value of an ASCII digit. -/
def digit? (c : Char) : Option ℕ := if '0' ≤ c ∧ c ≤ '9' then some (c.toNat - 48) else none

/-- One digit. -/
def readDigit : List Char → Option (ℕ × List Char)
  | c :: cs => (digit? c).map (·, cs)
  | [] => none

/-- Two digits. -/
def readPair (s : List Char) : Option (ℕ × List Char) := do
  let (a, s) ← readDigit s
  let (b, s) ← readDigit s
  return (10 * a + b, s)

/-- `%Y`: `\d\d\d\d`. -/
def readYear (s : List Char) : Option (ℕ × List Char) := do
  let (a, s) ← readPair s
  let (b, s) ← readPair s
  return (100 * a + b, s)

/-- `%m`, `%H`, `%M`, `%S`, and `%d` apart from its last alternative: two digits that make a
number between `lo` and `hi`, or else one digit that is at least `lo`. -/
def readUpTo (lo hi : ℕ) (s : List Char) : Option (ℕ × List Char) :=
  match readPair s with
  | some (n, r) => if lo ≤ n ∧ n ≤ hi then some (n, r) else one
  | none => one
where
  /-- One digit. -/
  one : Option (ℕ × List Char) :=
    match readDigit s with
    | some (n, r) => if lo ≤ n then some (n, r) else none
    | none => none

/-- `%d`: `3[0-1]|[1-2]\d|0[1-9]|[1-9]| [1-9]`. -/
def readDay (s : List Char) : Option (ℕ × List Char) :=
  match readUpTo 1 31 s with
  | some r => some r
  | none =>
    match s with
    | ' ' :: r => (readDigit r).filter (fun q => decide (1 ≤ q.1))
    | _ => none

/-- At most `k` digits: their value with zeros appended up to `k` digits, and how many were
missing. -/
def readFraction : ℕ → ℕ → List Char → ℕ × ℕ × List Char
  | 0, acc, s => (acc, 0, s)
  | k + 1, acc, s =>
    match readDigit s with
    | some (d, r) => readFraction k (10 * acc + d) r
    | none => (acc * 10 ^ (k + 1), k + 1, s)

/-- `%f`: one to six digits. -/
def readMicro (s : List Char) : Option (ℕ × List Char) :=
  let (n, missing, r) := readFraction 6 0 s
  if missing = 6 then none else some (n, r)

/-- An optional colon. -/
def readColon : List Char → Bool × List Char
  | ':' :: r => (true, r)
  | s => (false, s)

/-- Two digits below 60. -/
def readSixty (s : List Char) : Option (ℕ × List Char) :=
  (readPair s).filter (fun q => decide (q.1 < 60))

/-- The optional seconds of `%z`: `(:?[0-5]\d(\.\d{1,6})?)?`, in microseconds.  The outer
`none` is the `ValueError` for colons used in only one place. -/
def readZoneSeconds (colon : Bool) (s : List Char) : Option (ℕ × List Char) :=
  let (c, r) := readColon s
  match readSixty r with
  | none => some (0, s)
  | some (n, r) =>
    if c = colon then
      match r with
      | '.' :: f =>
        match readMicro f with
        | some (m, r') => some (n * 1000000 + m, r')
        | none => some (n * 1000000, r)
      | _ => some (n * 1000000, r)
    else none

/-- `%z` after the sign. -/
def readZoneAbs (s : List Char) : Option (ℕ × List Char) := do
  let (h, s) ← readPair s
  let (colon, s) := readColon s
  let (m, s) ← readSixty s
  let (us, s) ← readZoneSeconds colon s
  return (h * 3600000000 + m * 60000000 + us, s)

/-- `%z`: `[+-]\d\d:?[0-5]\d(:?[0-5]\d(\.\d{1,6})?)?|Z`. -/
def readZone : List Char → Option (ℤ × List Char)
  | 'Z' :: r => some (0, r)
  | '+' :: r => (readZoneAbs r).map (fun q => ((q.1 : ℤ), q.2))
  | '-' :: r => (readZoneAbs r).map (fun q => (-(q.1 : ℤ), q.2))
  | _ => none

/-- What `strptime` has found so far. -/
structure Found where
  year : ℕ := 1900
  month : ℕ := 1
  day : ℕ := 1
  hour : ℕ := 0
  minute : ℕ := 0
  second : ℕ := 0
  micro : ℕ := 0
  off : Option ℤ := none

/-- The characters that match a literal character: the patterns ignore case. -/
def sameLetter (c d : Char) : Bool := c == d || c.toLower == d.toLower

/-- One directive of `strptime`. -/
def readDir (f : Found) (s : List Char) : Dir → Option (Found × List Char)
  | .year => (readYear s).map (fun q => ({ f with year := q.1 }, q.2))
  | .month => (readUpTo 1 12 s).map (fun q => ({ f with month := q.1 }, q.2))
  | .day => (readDay s).map (fun q => ({ f with day := q.1 }, q.2))
  | .hour => (readUpTo 0 23 s).map (fun q => ({ f with hour := q.1 }, q.2))
  | .minute => (readUpTo 0 59 s).map (fun q => ({ f with minute := q.1 }, q.2))
  | .second => (readUpTo 0 61 s).map (fun q => ({ f with second := q.1 }, q.2))
  | .micro => (readMicro s).map (fun q => ({ f with micro := q.1 }, q.2))
  | .zone => (readZone s).map (fun q => ({ f with off := some q.1 }, q.2))
  | .lit c =>
    match s with
    | d :: r => if sameLetter c d then some (f, r) else none
    | [] => none

/-- The directives in order. -/
def readAll : List Dir → Found → List Char → Option (Found × List Char)
  | [], f, s => some (f, s)
  | d :: ds, f, s =>
    match readDir f s d with
    | some (f, s) => readAll ds f s
    | none => none

/-- Whether `datetime(year, month, day, hour, minute, second, microsecond)` and
`timezone(offset)` accept what was found (`%S` also matches 60 and 61). -/
def Found.ok (f : Found) : Bool :=
  decide (1 ≤ f.year ∧ f.day ≤ daysInMonth f.year f.month ∧ f.second < 60
    ∧ ∀ o ∈ f.off, o.natAbs < usPerDay)

/-- The `datetime` made from what was found. -/
def Found.make (f : Found) : DT :=
  ⟨dayNumber f.year f.month f.day * usPerDay
    + f.hour * 3600000000 + f.minute * 60000000 + f.second * 1000000 + f.micro, f.off⟩

/-- `datetime.strptime(s, format)`; `none` is `ValueError`. -/
def strptime (fmt : List Dir) (s : List Char) : Option DT :=
  match readAll fmt {} s with
  | some (f, []) => if f.ok then some f.make else none
  | _ => none

/-! ## `dates.py` -/

/-- `%Y-%m-%d` (`dates.py:43`). -/
def fmtDate : List Dir := [.year, .lit '-', .month, .lit '-', .day]
/-- `%Y-%m-%dT%H:%M:%S` (`dates.py:45`). -/
def fmtTime : List Dir :=
  fmtDate ++ [.lit 'T', .hour, .lit ':', .minute, .lit ':', .second]
/-- `%Y-%m-%dT%H:%M:%S.%f` (`dates.py:47`). -/
def fmtHires : List Dir := fmtTime ++ [.lit '.', .micro]
/-- `%Y-%m-%d%z` (`dates.py:49`). -/
def fmtDateTz : List Dir := fmtDate ++ [.zone]
/-- `%Y-%m-%dT%H:%M:%S%z` (`dates.py:51`). -/
def fmtTimeTz : List Dir := fmtTime ++ [.zone]
/-- `%Y-%m-%dT%H:%M:%S.%f%z` (`dates.py:53`). -/
def fmtHiresTz : List Dir := fmtHires ++ [.zone]

/-- `attempt_order` (`dates.py:21`). -/
def attempts : List (List Dir) := [fmtHiresTz, fmtTimeTz, fmtDateTz, fmtHires, fmtTime, fmtDate]

/-- `string_to_date` (`dates.py:63-69`). -/
def toDate (s : List Char) : Except Raise DT :=
  match attempts.findSome? (strptime · s) with
  | some t => .ok t
  | none => .error (.py "Can't parse date")

/-- `correct_format_for_date` (`dates.py:71-94`): the format and the width of the padding. -/
def formatFor (t : DT) : List Dir × ℕ :=
  match t.off with
  | none =>
    if t.hour = 0 ∧ t.minute = 0 ∧ t.second = 0 ∧ t.micro = 0 then (fmtDate, 10)
    else if t.micro = 0 then (fmtTime, 19)
    else (fmtHires, 26)
  | some _ =>
    if t.hour = 0 ∧ t.minute = 0 ∧ t.second = 0 ∧ t.micro = 0 then (fmtDateTz, 15)
    else if t.micro = 0 then (fmtTimeTz, 24)
    else (fmtHiresTz, 31)

/-- `date_to_string` (`dates.py:96-100`). -/
def toText (padded : Bool) (t : DT) : List Char :=
  padLeft (formatFor t).2 (strftime padded (formatFor t).1 t)

/-! ## `timedelta` and floating point numbers -/

/-- Round to an integer, ties to even. -/
def rhe (x : ℚ) : ℤ :=
  if x - ⌊x⌋ < 1 / 2 then ⌊x⌋
  else if 1 / 2 < x - ⌊x⌋ then ⌊x⌋ + 1
  else if ⌊x⌋ % 2 = 0 then ⌊x⌋ else ⌊x⌋ + 1

/-- The last binary digit of a `float` near `x` stands for `2 ^ binExp x`. -/
def binExp (x : ℚ) : ℤ := Int.log 2 |x| - 52

/-- The `float` nearest to `x`, ties to even: `float(Decimal)`, `*` and the division of integers
all round the exact result in this way. -/
def dbl (x : ℚ) : ℚ := if x = 0 then 0 else (rhe (x / 2 ^ binExp x) : ℚ) * 2 ^ binExp x

/-- `timedelta(seconds=f)` in microseconds, for a `float` `f`: the whole seconds are taken
exactly, the rest is multiplied by a million, and the sum is rounded (ties to even). -/
def deltaOf (f : ℚ) : ℤ := rhe (truncQ f * 1000000 + dbl (1000000 * (f - truncQ f)))

/-- `dt + timedelta`: the local clock is moved.  `OverflowError` outside the years 1 to 9999. -/
def addDelta (t : DT) (k : ℤ) : Except Raise DT :=
  if 0 ≤ (t.us : ℤ) + k ∧ (t.us : ℤ) + k < dayCount * usPerDay then
    .ok ⟨((t.us : ℤ) + k).toNat, t.off⟩
  else .error (.py "OverflowError")

/-- `abs(date1 - date2)` in microseconds, for two dates with or two without time zone: local
times are compared when there is none, UTC otherwise. -/
def difference (t₁ t₂ : DT) : ℕ :=
  (((t₁.us : ℤ) - t₁.off.getD 0) - ((t₂.us : ℤ) - t₂.off.getD 0)).natAbs

/-- `td.total_seconds()`. -/
def totalSeconds (k : ℕ) : ℚ := dbl (k / 1000000)

/-! ## `datefunctions.py`, `dateoperators.py` -/

variable {S U R K σ : Type} (p : ℕ) (num? : S → Option Number) (ofNum : Number → S)
  (text? : S → Option (List Char)) (ofText : List Char → S)

/-- The date of an operand: `strptime` raises `TypeError`, which is not caught, for a value that
is not a string. -/
def dateOf (x : Opd S U R) : Except Raise DT :=
  match x.value with
  | .sc v =>
    match text? v with
    | some s => toDate s
    | none => .error (.py "TypeError")
  | _ => .error (.py "TypeError")

/-- `validate_date` (`dates.py:102-107`). -/
def isDate (x : Opd S U R) : Bool :=
  match dateOf text? x with
  | .ok _ => true
  | .error _ => false

/-- `func_dateadd` (`datefunctions.py:129-141`).  `seconds` is `unit_conversion` to seconds of a
number with a unit. -/
def addSeconds (padded : Bool) (seconds : Number → Option U → Except Raise Number) (x : Opd S U R)
    (n : Number) (u : Option U) : Except Raise (OpResult S U R) := do
  let t ← dateOf text? x
  let s ← seconds n u
  let t ← addDelta t (deltaOf (dbl (Number.toDecimal p s)))
  return { value := .sc (ofText (toText padded t)), unit := some none }

/-- The declaration of `dateadd`, `datesubtract` (`datefunctions.py:74-98`), `+%` and `-%`
(`dateoperators.py:27-47`). -/
def dateOp (isTime : Option U → Except Raise Bool) (name : String)
    (f : Opd S U R → Number → Option U → Except Raise (OpResult S U R)) : Operation S U R σ where
  name := name
  minParams := some 2
  maxParams := some 2
  values := [⟨0, some 0, [.ty "date"]⟩, ⟨1, some 1, [.ty "number"]⟩]
  units := [⟨1, some 1, isTime, "time"⟩]
  unitsNormalise := false
  ref := two (fun a b => do
    let n ← numberOf num? b
    f a n b.unit)

/-- `dateadd` (`datefunctions.py:74-85`, `129-141`) and `+%` (`dateoperators.py:27-36`,
`49-50`). -/
def opDateAdd (padded : Bool) (seconds : Number → Option U → Except Raise Number)
    (isTime : Option U → Except Raise Bool) (name : String) : Operation S U R σ :=
  dateOp num? isTime name (addSeconds p text? ofText padded seconds)

/-- `datesubtract` (`datefunctions.py:87-98`, `143-144`) and `-%` (`dateoperators.py:38-47`,
`52-53`). -/
def opDateSubtract (padded : Bool) (seconds : Number → Option U → Except Raise Number)
    (isTime : Option U → Except Raise Bool) (name : String) : Operation S U R σ :=
  dateOp num? isTime name
    (fun a n u => addSeconds p text? ofText padded seconds a (Number.neg p n) u)

/-- The seconds between two dates (`datefunctions.py:147-154`).  `repr` is the decimal number
that `str` writes for a `float`; the code rounds to `min(6, precision)` places. -/
def secondsBetween (repr : ℚ → ℚ) (t₁ t₂ : DT) : Except Raise Number :=
  if t₁.off.isNone ≠ t₂.off.isNone then
    .error (.calc "Cannot compare dates with timezones and dates without timezones")
  else do
    let n ← liftErr (Number.mk' p (repr (totalSeconds (difference t₁ t₂))) 1)
    liftErr (Number.round p n (min 6 p))

/-- `datedifference` (`datefunctions.py:100-109`, `146-164`).  `second` is the unit list of
seconds, `unit?` recognises a unit among the values, and `convert` is `unit_conversion` from
seconds to it.  Only the number and unit of the third argument matter. -/
def opDateDifference (repr : ℚ → ℚ) (second : U) (unit? : S → Option U)
    (convert : Number → U → Except Raise Number) : Operation S U R σ where
  name := "datedifference"
  minParams := some 2
  maxParams := some 3
  values := [⟨0, some 1, [.ty "date"]⟩, ⟨2, some 2, [.ty "unit"]⟩]
  units := []
  ref := fun xs s =>
    match xs with
    | a :: b :: rest => (do
      let t₁ ← dateOf text? a
      let t₂ ← dateOf text? b
      let n ← secondsBetween p repr t₁ t₂
      match rest with
      | [] => return { value := .sc (ofNum n), unit := some (some second) }
      | x :: _ =>
        match x.value with
        | .sc v =>
          match unit? v with
          | some u =>
            let m ← convert n u
            return { value := .sc (ofNum m), unit := some (some u) }
          | none => .error (.py "AttributeError")
        | _ => .error (.py "AttributeError"), s)
    | _ => (.error (.py "IndexError"), s)

end MC.Dates
