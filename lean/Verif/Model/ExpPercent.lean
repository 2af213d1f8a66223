import Verif.Model.Display

/-!
# Model of exponent and percentage numbers

`features/numerical/expnumbers.py` with the default symbol `E`, and
`features/numerical/percentagenumbers.py`.
-/

namespace MC
open Number

variable (p : ℕ) (powF : ℚ → ℚ → Except Err ℚ)

/-- Python `str(k)` for an integer. -/
def intText (k : ℤ) : List Char := if k < 0 then '-' :: natText k.natAbs else natText k.natAbs

/-- `'{0:.<places>E}'.format(x)` for `x ≠ 0` (`expnumbers.py:93-95`): the coefficient with
`places + 1` digits and the exponent, rounding half up; a coefficient that rounds up to
a power of ten shifts the exponent. -/
def sciParts (places : ℕ) (x : ℚ) : ℕ × ℤ :=
  let e := Int.log 10 |x|
  let m := (rhu (|x| / 10 ^ (e - places))).toNat
  if m = 10 ^ (places + 1) then (10 ^ places, e + 1) else (m, e)

/-- `dec_to_exp` (`expnumbers.py:84-106`); the `+` of the exponent is removed
(line 96). -/
def decToExp (places : ℕ) (a : Number) : List Char :=
  let x := toDecimal p a
  if x = 0 then "0E0".toList                                                  -- 87-88
  else
    let (m, e) := sciParts places x                                           -- 95
    let s := stripFraction (fmtFixed (decide (x < 0)) m places)               -- 97-101
    let s := if s ≠ ['0'] then rstrip0 s else s                               -- 102-103
    s ++ 'E' :: intText e                                                     -- 104

/-- `ExpNumericalRepresentation.parse` (`expnumbers.py:126-138`): `fullmatch` of
`-?\d+(\.\d+)?E-?\d+`, then the product with the power of ten. -/
def parseExp (s : List Char) : Option (Except Err Number) :=
  match matchDecimal s with
  | some (neg, ip, fp, e :: rest) =>
    if e.toLower = 'e' then
      let eneg := rest.head? == some '-'
      match spanDigits (if eneg then rest.tail else rest) with
      | ([], _) => none
      | (ed, []) => some do
          let num ← mk' p (decimalOf neg ip fp) 1                             -- 132
          let exp ← mk' p (if eneg then -(readNat ed : ℚ) else (readNat ed : ℚ)) 1  -- 133
          Number.mul p num (← Number.pow p powF (← ofInt p 10) exp)           -- 134
      | _ => none
    else none
  | _ => none

/-- `PercentageNumericalRepresentation.parse` (`percentagenumbers.py:60-71`). -/
def parsePercent (s : List Char) : Option (Except Err Number) :=
  match matchDecimal s with
  | some (neg, ip, fp, ['%']) => some do
      let num ← mk' p (decimalOf neg ip fp) 1                                 -- 66
      Number.div p num (← ofInt p 100)                                        -- 67
  | _ => none

/-- `PercentageNumericalRepresentation.to_string` (`percentagenumbers.py:74-77`). -/
def showPercent (n : ℕ) (a : Number) : Except Err (List Char) := do
  let v ← Number.mul p a (← ofInt p 100)
  return (← Number.toText p n v) ++ ['%']

end MC
