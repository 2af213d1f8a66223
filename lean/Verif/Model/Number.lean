import Verif.Model.Decimal

/-!
# Model of `modularcalculator/objects/number.py`

`number_cast` (how the number is displayed) is not part of this model; see
`Verif.Model.Alias` for it.  `num` and `den` are integers, because every
constructor stores integral values.
-/

namespace MC

/-- `class Number` (`number.py:13-55`): the stored pair. -/
structure Number where
  num : ℤ
  den : ℤ
  deriving DecidableEq, Repr, Inhabited

namespace Number

variable (p : ℕ)

/-- `Number.__init__` with checks (`number.py:21-55`), on decimal arguments.
Type checks on the arguments are not modelled. -/
def mk' (n d : ℚ) : Except Err Number :=
  if d = 0 then .error (.py "Cannot create Number with denominator of 0")   -- 31-32
  else
    -- 35-38: make the numerator an integer
    let n1 : ℚ := if isInt n then n else (n.num : ℚ)
    let d1 : ℚ := if isInt n then d else rnd p (d * n.den)
    -- 40-43: make the denominator an integer
    let d2 : ℚ := if isInt d1 then d1 else (d1.num : ℚ)
    let n2 : ℚ := if isInt d1 then n1 else rnd p (n1 * d1.den)
    -- 45-47: make the denominator positive
    let d3 : ℚ := if d2 < 0 then rnd p (-d2) else d2
    let n3 : ℚ := if d2 < 0 then rnd p (-n2) else n2
    -- 49-52: divide by the gcd
    let g : ℕ := Int.gcd (truncQ n3) (truncQ d3)
    let n4 : ℚ := if 1 < g then rnd p (n3 / g) else n3
    let d4 : ℚ := if 1 < g then rnd p (d3 / g) else d3
    .ok ⟨rhu n4, rhu d4⟩                                                     -- 54-55

/-- `Number(n)` for an integer `n` (`number.py:21-55` with default denominator). -/
def ofInt (n : ℤ) : Except Err Number := mk' p n 1

/-- `Number.normalise` (`number.py:210-212`): common denominator and the two
numerators, each `num * lcm / den` with two roundings. -/
def normalise (a b : Number) : ℚ × ℚ × ℚ :=
  let l : ℚ := (Int.lcm a.den b.den : ℚ)
  (l, rnd p (rnd p (a.num * l) / a.den), rnd p (rnd p (b.num * l) / b.den))

/-- `__add__` (`number.py:99-101`). -/
def add (a b : Number) : Except Err Number :=
  let t := normalise p a b
  mk' p (rnd p (t.2.1 + t.2.2)) t.1

/-- `__sub__` (`number.py:103-105`). -/
def sub (a b : Number) : Except Err Number :=
  let t := normalise p a b
  mk' p (rnd p (t.2.1 - t.2.2)) t.1

/-- `__mul__` (`number.py:107-108`). -/
def mul (a b : Number) : Except Err Number :=
  mk' p (rnd p (a.num * b.num)) (rnd p (a.den * b.den))

/-- `__truediv__` (`number.py:110-111`). -/
def div (a b : Number) : Except Err Number :=
  mk' p (rnd p (a.num * b.den)) (rnd p (a.den * b.num))

/-- `to_decimal` (`number.py:154-155`): the rounded quotient.  (`den` is never 0
in a constructed number, see `mk'_den_pos`.) -/
def toDecimal (a : Number) : ℚ := rnd p (a.num / a.den)

/-- `__floor__` (`number.py:173-174`). -/
def floor (a : Number) : Number := ⟨⌊toDecimal p a⌋, 1⟩

/-- `__ceil__` (`number.py:176-177`). -/
def ceil (a : Number) : Number := ⟨⌈toDecimal p a⌉, 1⟩

/-- `__trunc__` (`number.py:170-171`). -/
def trunc (a : Number) : Number := ⟨truncQ (toDecimal p a), 1⟩

/-- `__int__` (`number.py:160-161`). -/
def toInt (a : Number) : ℤ := truncQ (toDecimal p a)

/-- `__round__` (`number.py:167-168`). -/
def round (a : Number) (n : ℕ) : Except Err Number := do
  mk' p (← decRound p (toDecimal p a) n) 1

/-- `__floordiv__` (`number.py:113-115`). -/
def floordiv (a b : Number) : Except Err Number := do
  return floor p (← div p a b)

/-- `__mod__` (`number.py:117-119`). -/
def mod (a b : Number) : Except Err Number := do
  let t := normalise p a b
  mk' p (← decMod p t.2.1 t.2.2) t.1

/-- `__divmod__` (`number.py:121-124`). -/
def divmod (a b : Number) : Except Err (Number × Number) := do
  let q ← floordiv p a b
  let r ← mod p a b
  return (q, r)

/-- `__neg__` (`number.py:136-137`): unary minus rounds to the context. -/
def neg (a : Number) : Number := ⟨rhu (rnd p (-a.num)), a.den⟩

/-- `__abs__` (`number.py:142-143`): `abs` rounds to the context. -/
def abs (a : Number) : Number := ⟨rhu (rnd p |(a.num : ℚ)|), a.den⟩

/-- `__pow__` without modulus (`number.py:126-132`). -/
def pow (powF : ℚ → ℚ → Except Err ℚ) (a b : Number) : Except Err Number := do
  let e := toDecimal p b
  if e < 0 then
    mk' p (← decPow powF p a.den (rnd p (-e))) (← decPow powF p a.num (rnd p (-e)))
  else
    mk' p (← decPow powF p a.num e) (← decPow powF p a.den e)

/-- `__lt__` (`number.py:180-181`). -/
def lt (a b : Number) : Bool := toDecimal p a < toDecimal p b
/-- `__le__` (`number.py:183-184`). -/
def le (a b : Number) : Bool := toDecimal p a ≤ toDecimal p b
/-- `__eq__` (`number.py:186-187`). -/
def eq (a b : Number) : Bool := toDecimal p a = toDecimal p b
/-- `__ne__` (`number.py:189-190`). -/
def ne (a b : Number) : Bool := toDecimal p a ≠ toDecimal p b
/-- `__gt__` (`number.py:192-193`). -/
def gt (a b : Number) : Bool := toDecimal p a > toDecimal p b
/-- `__ge__` (`number.py:195-196`). -/
def ge (a b : Number) : Bool := toDecimal p a ≥ toDecimal p b

/-- `__hash__` (`number.py:199-200`): `hash((num, den))`, for an arbitrary hash
function `H` of pairs (Python's `hash` of a `Decimal` depends on its value only). -/
def hash {α : Type} (H : ℤ × ℤ → α) (a : Number) : α := H (a.num, a.den)

/-- `as_fraction` (`number.py:88-90`). -/
def asFraction (a : Number) : Except Err (ℚ × ℚ × ℤ) := do
  let t ← decDivmod p a.num a.den
  return (t.1, t.2, a.den)

end Number
end MC
