import Verif.Model.Dates
import Verif.Model.Strings

/-!
# `dateformat` and `now`

`features/dates/datefunctions.py:14-25`, `45-59`, `62-72`, `111-118`, `120-127`, `166-167`.

`strftime` writes the names of days and months in the language of the process.  The calculator does not call
`setlocale`, so that is the "C" language: the names are English.
-/

namespace MC.Dates
open MC.Strings

/-- `date.weekday()`: `(toordinal() + 6) % 7`, where Monday is 0. -/
def DT.weekday (t : DT) : ℕ := (t.us / usPerDay + 1 + 6) % 7

/-- `%A` in the "C" language. -/
def dayNames : List String :=
  ["Monday", "Tuesday", "Wednesday", "Thursday", "Friday", "Saturday", "Sunday"]

/-- `%b` in the "C" language. -/
def monthNames : List String :=
  ["Jan", "Feb", "Mar", "Apr", "May", "Jun", "Jul", "Aug", "Sep", "Oct", "Nov", "Dec"]

/-- A directive of the formats for reading. -/
inductive HumanDir where
  /-- `%A` -/
  | weekday
  /-- `%b` -/
  | monthName
  /-- the others -/
  | plain (d : Dir)

/-- Characters that stand for themselves. -/
def lits (s : String) : List HumanDir := s.toList.map (fun c => .plain (.lit c))

/-- One directive of `strftime`. -/
def humanDir (padded : Bool) (t : DT) : HumanDir → List Char
  | .weekday => (dayNames.getD t.weekday "").toList
  | .monthName => (monthNames.getD (t.month - 1) "").toList
  | .plain d => dirText padded t d

/-- `%A, %d-%b-%Y` (`datefunctions.py:47`). -/
def humanDate : List HumanDir :=
  [.weekday] ++ lits ", " ++ [.plain .day] ++ lits "-" ++ [.monthName] ++ lits "-" ++ [.plain .year]
/-- `%A, %d-%b-%Y at %H:%M:%S` (`datefunctions.py:49`). -/
def humanTime : List HumanDir :=
  humanDate ++ lits " at " ++ [.plain .hour] ++ lits ":" ++ [.plain .minute] ++ lits ":" ++ [.plain .second]
/-- `%A, %d-%b-%Y at %H:%M:%S.%f` (`datefunctions.py:51`). -/
def humanHires : List HumanDir := humanTime ++ lits "." ++ [.plain .micro]
/-- ` (%z)`, the end of the other three formats (`datefunctions.py:53`, `55`, `57`). -/
def humanZone : List HumanDir := lits " (" ++ [.plain .zone] ++ lits ")"

/-- The format for a date (`dates.py:71-94`, `datefunctions.py:120-125`). -/
def humanFormat (t : DT) : List HumanDir :=
  match t.off with
  | none =>
    if t.hour = 0 ∧ t.minute = 0 ∧ t.second = 0 ∧ t.micro = 0 then humanDate
    else if t.micro = 0 then humanTime
    else humanHires
  | some _ =>
    if t.hour = 0 ∧ t.minute = 0 ∧ t.second = 0 ∧ t.micro = 0 then humanDate ++ humanZone
    else if t.micro = 0 then humanTime ++ humanZone
    else humanHires ++ humanZone

/-- `dt.strftime(format)`; the padding is empty by default, so that `format` changes nothing
(`datefunctions.py:123-125`, `48-58`). -/
def human (padded : Bool) (t : DT) : List Char := (humanFormat t).flatMap (humanDir padded t)

variable {S U R K σ : Type} (text? : S → Option (List Char)) (ofText : List Char → S)

/-- `dateformat` (`datefunctions.py:63-72`, `120-125`). -/
def opDateFormat (padded : Bool) : Operation S U R σ where
  name := "dateformat"
  minParams := some 1
  maxParams := some 1
  values := [⟨0, none, [.ty "date"]⟩]
  units := []
  unitsNormalise := false
  ref := one (fun x => do
    let t ← dateOf text? x
    return { value := .sc (ofText (human padded t)) })

/-- `now` (`datefunctions.py:111-118`, `166-167`).  `clock` is `datetime.now()`: the local time, without its
offset from UTC. -/
def opNow (padded : Bool) (clock : σ → DT) : Operation S U R σ where
  name := "now"
  minParams := some 0
  maxParams := some 0
  values := []
  units := []
  ref := fun _ s => (.ok { value := .sc (ofText (toText padded (clock s))) }, s)

end MC.Dates
