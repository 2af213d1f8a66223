import Mathlib.Data.Nat.Digits.Defs
import Verif.Model.Number

/-!
# Model of decimal display and decimal literals

`objects/number.py:61-78` (`to_string` without a cast) and
`features/numerical/decimalnumbers.py:35-66`.  Text is a list of characters;
only ASCII digits are modelled (Python's `\d` also accepts other Unicode digits).
-/

namespace MC

/-- Python `str.rstrip('0')` (`number.py:75`, `bases.py:131`). -/
def rstrip0 (s : List Char) : List Char := (s.reverse.dropWhile (· == '0')).reverse

/-- A decimal digit as a character (`str(int)`). -/
def digitChar (d : ℕ) : Char := Char.ofNat (48 + d)

/-- The value of a decimal digit character. -/
def digitVal (c : Char) : ℕ := c.toNat - 48

/-- Python `str(k)` for a natural number. -/
def natText (k : ℕ) : List Char :=
  if k = 0 then ['0'] else (Nat.digits 10 k).reverse.map digitChar

/-- Pad with zeros on the left (`str.zfill` on an unsigned text, and the leading
zeros `format(..., 'f')` writes before a fraction). -/
def zfill (w : ℕ) (s : List Char) : List Char := List.replicate (w - s.length) '0' ++ s

/-- `"{0:f}".format(d)` for a `Decimal` with sign `neg`, coefficient `k` and exponent
`-n` (`number.py:73`). -/
def fmtFixed (neg : Bool) (k n : ℕ) : List Char :=
  let s := zfill (n + 1) (natText k)
  (if neg then ['-'] else []) ++ s.take (s.length - n) ++
    (if n = 0 then [] else '.' :: s.drop (s.length - n))

/-- Removal of trailing zeros and of a trailing point (`number.py:74-77`). -/
def stripFraction (s : List Char) : List Char :=
  if '.' ∈ s then
    let t := rstrip0 s
    if t.getLast? = some '.' then t.dropLast else t
  else s

/-- `Number.to_string` without a cast (`number.py:69-78`); `n` is
`NUMBER['decimal_places']`.  `round(0, n)` on the integer 0 is formatted as
`0.000000`.  The sign of a rounded value is that of the unrounded one, also when it
rounds to zero. -/
def Number.toText (p n : ℕ) (a : Number) : Except Err (List Char) :=
  let x := Number.toDecimal p a                                              -- 69
  if x = 0 then .ok (stripFraction "0.000000".toList)                        -- 70-73
  else if (10 : ℤ) ^ p ≤ |rhu (x * 10 ^ n)| then .error (.py "InvalidOperation")   -- 73
  else .ok (stripFraction (fmtFixed (decide (x < 0)) (rhu (x * 10 ^ n)).natAbs n)) -- 73-77

/-- Value of a string of decimal digits. -/
def readNat (s : List Char) : ℕ := s.foldl (fun acc c => acc * 10 + digitVal c) 0

/-- `\d+` at the start of a text: the digits and the rest. -/
def spanDigits (s : List Char) : List Char × List Char := s.span Char.isDigit

/-- `re.match` of `(\-?\d+(\.\d+)?)` (`decimalnumbers.py:35-36`): sign, integer digits,
fraction digits (empty if there is no fraction) and the rest of the text. -/
def matchDecimal (s : List Char) : Option (Bool × List Char × List Char × List Char) :=
  let neg := s.head? == some '-'
  let s1 := if neg then s.tail else s
  match spanDigits s1 with
  | ([], _) => none
  | (ip, '.' :: rest) =>
    match spanDigits rest with
    | ([], _) => some (neg, ip, [], '.' :: rest)
    | (fp, rest2) => some (neg, ip, fp, rest2)
  | (ip, rest) => some (neg, ip, [], rest)

/-- `Decimal(text)` on the parts of a matched literal (exact, `number.py:26`). -/
def decimalOf (neg : Bool) (ip fp : List Char) : ℚ :=
  (if neg then -1 else 1) * ((readNat ip : ℚ) + (readNat fp : ℚ) / 10 ^ fp.length)

/-- `DecimalNumericalRepresentation.parse` (`decimalnumbers.py:60-66`): the whole
text must match (a trailing newline, which `$` accepts, is not modelled). -/
def parseDecimal (p : ℕ) (s : List Char) : Option (Except Err Number) :=
  match matchDecimal s with
  | some (neg, ip, fp, []) => some (Number.mk' p (decimalOf neg ip fp) 1)
  | _ => none

end MC
