import Verif.Model.Bases
import Verif.Model.ExpPercent

/-!
# How a number is written for programmers, and made from texts

`modularcalculator/objects/number.py`.
-/

namespace MC.Number

/-- `__repr__` (`number.py:83-86`).  `{0:f}` of a whole `Decimal` are its digits, whatever its exponent. -/
def reprText (a : Number) : List Char :=
  if a.den ≠ 1 then "Number('".toList ++ intText a.num ++ "', '".toList ++ intText a.den ++ "')".toList
  else "Number('".toList ++ intText a.num ++ "')".toList

/-- `Number.__init__` with one or two texts (`number.py:22-30`; the rest of it is `mk'`).  `Decimal` of a text is
`decimalCtor`: blanks around the text, underscores in it, a plus sign, `inf` and `nan` are not modelled. -/
def ofTexts (p : ℕ) : List (List Char) → Except Err Number
  | [n] => do mk' p (← decimalCtor n) 1
  | [n, d] => do
    let n ← decimalCtor n
    let d ← decimalCtor d
    mk' p n d
  | _ => .error (.py "TypeError")

end MC.Number
