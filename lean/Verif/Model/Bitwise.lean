import Mathlib.Data.Int.Bitwise
import Verif.Model.Bases

/-!
# Model of `features/numerical/bitwiseoperators.py`

A number with the attribute `binary_number_width`, and the display function its
`number_cast` selects.  `logCeil k` stands for `math.ceil(math.log(k, 2))`, a floating
point computation (line 113), and is a parameter.
-/

namespace MC
open Number

/-- A `Number` as seen by the bitwise operators: the value, `binary_number_width` if the
attribute is present, and `to_string`, which may depend on both. -/
structure BitNum where
  num : Number
  width : Option ℕ
  text : Number → Option ℕ → Except Err (List Char)

variable (p : ℕ)

/-- The width of one value (`bitwiseoperators.py:138-141`). -/
def bitWidth (v : BitNum) : Except Err ℕ :=
  match v.width with
  | some w => .ok w
  | none => do numberWidth (← v.text v.num none) "0b".toList

/-- `get_biggest_width` (`bitwiseoperators.py:135-142`). -/
def biggestWidth : List BitNum → Except Err ℕ
  | [] => .ok 0
  | v :: vs => do
    let w ← bitWidth v
    return max w (← biggestWidth vs)

/-- `Number(n)` with the width set (`bitwiseoperators.py:89-90`, `94-95`, `99-100`); `n` is
`NUMBER['decimal_places']`, used by the plain display. -/
def bitResult (n : ℕ) (z : ℤ) (vals : List BitNum) : Except Err BitNum := do
  let r ← ofInt p z
  let w ← biggestWidth vals
  return ⟨r, some w, fun x _ => toText p n x⟩

/-- `op_bitwise_and` (`bitwiseoperators.py:88-91`). -/
def bitAnd (n : ℕ) (a b : BitNum) : Except Err BitNum :=
  bitResult p n (Int.land (toInt p a.num) (toInt p b.num)) [a, b]

/-- `op_bitwise_or` (`bitwiseoperators.py:93-96`). -/
def bitOr (n : ℕ) (a b : BitNum) : Except Err BitNum :=
  bitResult p n (Int.lor (toInt p a.num) (toInt p b.num)) [a, b]

/-- `op_bitwise_xor` (`bitwiseoperators.py:98-101`). -/
def bitXor (n : ℕ) (a b : BitNum) : Except Err BitNum :=
  bitResult p n (Int.xor (toInt p a.num) (toInt p b.num)) [a, b]

/-- The test `x.to_decimal() < 0 or (x % Number(1)).to_decimal() != 0`
(`bitwiseoperators.py:106`, `122`, `129`). -/
def notNatural (a : Number) : Except Err Bool :=
  if toDecimal p a < 0 then .ok true
  else do
    let r ← Number.mod p a (← ofInt p 1)
    return decide (toDecimal p r ≠ 0)

/-- `op_bitwise_not` (`bitwiseoperators.py:103-119`).  `math.log(0, 2)` raises
`ValueError`. -/
def bitNot (logCeil : ℕ → ℕ) (a : BitNum) : Except Err BitNum := do
  if ← notNatural p a.num then .error (.calc "Operator requires positive integers")   -- 106-107
  else
    let i := toInt p a.num                                                             -- 109
    let w ← match a.width with                                                         -- 110-113
      | some w => .ok w
      | none => if i = 0 then .error (.py "ValueError") else .ok (logCeil i.toNat)
    let m ← ofInt p (Int.land (Int.lnot i) (2 ^ w - 1))                                -- 114-115
    let r : BitNum := ⟨m, none, a.text⟩
    return { r with width := some (← biggestWidth [a, r]) }                            -- 117

/-- `op_bitwise_lshift` (`bitwiseoperators.py:121-126`). -/
def bitShl (n : ℕ) (a b : BitNum) : Except Err BitNum := do
  if ← notNatural p b.num then .error (.calc "Shift amount requires positive integers")
  else bitResult p n (toInt p a.num <<< (toInt p b.num).toNat) [a, b]

/-- `op_bitwise_rshift` (`bitwiseoperators.py:128-133`). -/
def bitShr (n : ℕ) (a b : BitNum) : Except Err BitNum := do
  if ← notNatural p b.num then .error (.calc "Shift amount requires positive integers")
  else bitResult p n (toInt p a.num >>> (toInt p b.num).toNat) [a, b]

end MC
