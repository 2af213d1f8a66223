import Verif.Model.Display
import Verif.Model.ShippedNorm

/-!
# How a unit is written

`UnitPowerList.name` and the methods that call it (`objects/units.py:271-353`).
-/

namespace MC.Unit
open MC.Parse (Text)

/-- The texts of a unit: `plural()`, `singular()` and `symbol()` (`units.py:30-37`). -/
structure Words (U : Type) where
  plural : U → Text
  singular : U → Text
  symbol : U → Text

/-- The styles of the parts of a written unit (`units.py:312-340`). -/
inductive Style where
  | special
  | op
  | literal
  | whitespace
  | innerStart
  | innerEnd
  deriving DecidableEq, Repr

/-- `str(power.to_decimal())` (`units.py:314`, `331-334`).  Simplifications: Python writes a number with an
exponent if it is less than a millionth or does not fit the precision, and keeps the zeros at the end
of a quotient that was rounded; here numbers are written without exponent and without these zeros. -/
def decText (p : ℕ) (q : ℚ) : Text :=
  let x := rnd p q
  let k := ((List.range (p + 7)).find? (fun k => (x * 10 ^ k).den = 1)).getD 0
  fmtFixed (decide (x < 0)) (x * 10 ^ k).num.natAbs k

variable {U : Type} (p : ℕ) (W : Words U)

/-- A unit with an exponent (`units.py:312-314`, `328-334`). -/
def raisedParts (w e : Text) : List (Text × Style) := [(w, .special), (['^'], .op), (e, .literal)]

/-- One of the units with a positive power (`units.py:305-316`); `plural`: it is the last one and the
plural is asked for. -/
def multPart (plural symbol : Bool) (o : U × ℚ) : List (Text × Style) :=
  let w := if symbol then W.symbol o.1 else if plural then W.plural o.1 else W.singular o.1
  if rnd p o.2 ≠ 1 then raisedParts w (decText p o.2) else [(w, .special)]

/-- The loop over the units with a positive power (`units.py:302-318`). -/
def multParts (plural symbol : Bool) : PL U → List (List (Text × Style))
  | [] => []
  | [o] => [multPart p W plural symbol o]
  | o :: os => multPart p W false symbol o :: multParts plural symbol os

/-- The loop over the units with a negative power (`units.py:320-338`). -/
def divPart (symbol negative : Bool) (o : U × ℚ) : List (Text × Style) :=
  let w := if symbol then W.symbol o.1 else if negative then W.plural o.1 else W.singular o.1
  if rnd p o.2 ≠ rnd p (-1) ∨ negative then
    raisedParts w (if negative then decText p o.2 else decText p (-o.2))
  else [(w, .special)]

/-- The white space between the units (`units.py:310`, `317-318`, `327`, `337-338`). -/
def spaced (ps : List (List (Text × Style))) : List (Text × Style) := [([' '], Style.whitespace)].intercalate ps

/-- `UnitPowerList.name` with `string_result=False` (`units.py:291-353`). -/
def nameParts (plural symbol negative : Bool) (l : PL U) : List (Text × Style) :=
  let mults := l.filter (fun o => ¬ rnd p o.2 < 0)                       -- 292-298
  let divs := l.filter (fun o => rnd p o.2 < 0)
  let negative := negative || mults.length == 0                          -- 299-300
  let multstrings := spaced (multParts p W plural symbol mults)
  let divstrings := spaced (divs.map (divPart p W symbol negative))
  let divstrings :=                                                      -- 339-340
    if 0 < mults.length ∧ 1 < divs.length ∧ negative = false then
      [(['('], Style.innerStart)] ++ divstrings ++ [([')'], Style.innerEnd)]
    else divstrings
  if 0 < mults.length ∧ 0 < divs.length then multstrings ++ [(['/'], Style.op)] ++ divstrings  -- 342-348
  else if 0 < mults.length then multstrings
  else if 0 < divs.length then divstrings
  else []

/-- `UnitPowerList.name` with `string_result=True` (`units.py:350-351`). -/
def nameText (plural symbol negative : Bool) (l : PL U) : Text :=
  ((nameParts p W plural symbol negative l).map (·.1)).flatten

/-- `UnitPowerList.get_name` (`units.py:271-274`). -/
def getName (v : ℚ) (l : PL U) : Text :=
  if rnd p v = 1 then nameText p W false false false l else nameText p W true false false l

end MC.Unit

namespace MC.Unit.Table
open MC.Parse (Text)

/-- The texts of a shipped unit (`units.py:30-56`). -/
def shippedWords : Words Made where
  plural u := u.names.headD []
  singular u := u.names[1]?.getD []
  symbol u := u.symbols.headD []

end MC.Unit.Table
