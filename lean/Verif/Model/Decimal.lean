import Mathlib.Data.Int.Log
import Mathlib.Data.Rat.Floor

/-!
# Model of the `decimal.Decimal` operations the program uses

A `Decimal` is modelled by its rational value.  Context operations are the exact
operation followed by rounding to `p` significant digits, `ROUND_HALF_UP`
(`numericalengine.py:14-17`, `number.py:203-208`).  Not modelled: exponent limits,
representation of trailing zeros, sign of zero, NaN and infinities.
-/

namespace MC

/-- Python exceptions as values.  `calc` is `CalculatorException`
(`objects/exceptions.py:27-34`), `exec` is `ExecuteException` / `ExecutionException`,
`py` is any other Python exception (`decimal.InvalidOperation`, `TypeError`, ...). -/
inductive Err where
  | calc (msg : String)
  | exec (msg : String)
  | py (msg : String)
  deriving DecidableEq, Repr, Inhabited

/-- Round to an integer, ties away from zero: the `ROUND_HALF_UP` rule of `decimal`,
as set by `numericalengine.py:17`.  Also `Decimal.to_integral_exact` (`number.py:54-55`). -/
def rhu (x : ℚ) : ℤ := if 0 ≤ x then ⌊x + 1/2⌋ else -⌊-x + 1/2⌋

/-- Exponent of the last digit kept when rounding `x` to `p` significant digits. -/
def lastExp (p : ℕ) (x : ℚ) : ℤ := Int.log 10 |x| + 1 - p

/-- Rounding of a result to the context precision `p` (`getcontext().prec`,
`number.py:203-205`): `p` significant digits, ties away from zero. -/
def rnd (p : ℕ) (x : ℚ) : ℚ :=
  if x = 0 then 0 else (rhu (x / 10 ^ lastExp p x) : ℚ) * 10 ^ lastExp p x

/-- `math.floor(n) == n` on a `Decimal` (`number.py:214-215`). -/
def isInt (x : ℚ) : Bool := x.den == 1

/-- `math.trunc` / `int()` of a `Decimal`: towards zero. -/
def truncQ (x : ℚ) : ℤ := if 0 ≤ x then ⌊x⌋ else -⌊-x⌋

/-- `Decimal.__mod__` at precision `p`: the remainder has the sign of the dividend;
a zero divisor, or an integer quotient of more than `p` digits, is
`InvalidOperation`. Used by `number.py:119`. -/
def decMod (p : ℕ) (x y : ℚ) : Except Err ℚ :=
  if y = 0 then .error (.py "InvalidOperation")
  else if (10 : ℤ) ^ p ≤ |truncQ (x / y)| then .error (.py "InvalidOperation")
  else .ok (rnd p (x - y * truncQ (x / y)))

/-- `divmod(Decimal, Decimal)` at precision `p`: truncated quotient and remainder.
Used by `number.py:89`. -/
def decDivmod (p : ℕ) (x y : ℚ) : Except Err (ℚ × ℚ) :=
  if y = 0 then .error (.py "InvalidOperation")
  else if (10 : ℤ) ^ p ≤ |truncQ (x / y)| then .error (.py "InvalidOperation")
  else .ok (truncQ (x / y), rnd p (x - y * truncQ (x / y)))

/-- `round(d, n)` on a `Decimal`, `n ≥ 0`: `quantize(10^-n)`.  Raises
`InvalidOperation` if the coefficient needs more than `p` digits.
Used by `number.py:73` and `number.py:168`. -/
def decRound (p : ℕ) (x : ℚ) (n : ℕ) : Except Err ℚ :=
  if (10 : ℤ) ^ p ≤ |rhu (x * 10 ^ n)| then .error (.py "InvalidOperation")
  else .ok ((rhu (x * 10 ^ n) : ℚ) / 10 ^ n)

/-- `pow(Decimal, Decimal)` for the exponents that occur in `number.py:128-130`
(never negative).  Integer exponents: the exact power rounded to `p` digits, and
`0 ** 0` is `InvalidOperation`.  Other exponents go to the external function
`powF` (Python's `decimal` library), a parameter of the model. -/
def decPow (powF : ℚ → ℚ → Except Err ℚ) (p : ℕ) (x y : ℚ) : Except Err ℚ :=
  if isInt y ∧ 0 ≤ y then
    if x = 0 ∧ y = 0 then .error (.py "InvalidOperation")
    else .ok (rnd p (x ^ y.num.toNat))
  else powF x y

end MC
