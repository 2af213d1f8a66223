import Verif.Model.Units
import Verif.Model.Arithmetic

/-!
# The operators on numbers and units together

`objects/operators.py:145-240` for the operators of `features/numerical/basicarithmetic.py`, the
comparisons of `features/boolean/booleans.py:43-95` and the operators of `features/units/units.py:43-83`,
on what `Model/Units.lean` models: numbers that may have a unit, and units alone.

Simplifications: those of `Model/Units.lean` (numbers are exact); the texts of errors do not list the
operands; number types (`number_cast`) and references are left out.  What these operators do with other
operands (arrays, texts, ...) and what other operators do is a parameter, `rest`.
-/

namespace MC.Unit

/-- The value and unit of an `OperandResult`. -/
inductive QVal (U K : Type) where
  /-- a number with or without a unit, or a unit -/
  | arg (a : Arg U K)
  | truth (b : Bool)
  /-- `None`; `check_empty` makes it of a unit (`units.py:232-235`) -/
  | nothing
  /-- `isinstance(value, Exception)` -/
  | error (e : Raise)

section
variable {U D K σ : Type}

/-- `isinstance(value, UnitPowerList)`. -/
def QVal.isUnit : QVal U K → Bool
  | .arg (.unit _) => true
  | _ => false

/-- `isinstance(value, Exception)`. -/
def QVal.getErr : QVal U K → Option Raise
  | .error e => some e
  | _ => none

/-- An exception as a value. -/
def QVal.mkErr (e : ExecErr) : QVal U K := .error (.exec e)

variable [DecidableEq U] [DecidableEq D] [Field K] [LinearOrder K] (pw : K → ℚ → K) (N : Norm U D K)
  (asRat : K → Option ℚ) (fuel : ℕ)

/-- `*` (`basicarithmetic.py:38-46`): the units of two numbers are normalised (`operators.py:172-176`),
those of a number and a unit are not, as a unit is not a number. -/
def mulArgs : Arg U K → Arg U K → Option (Except Raise (Arg U K))
  | .num v a, .num w b => evalMul pw N fuel (v, a) (w, b)
  | x, y => some (opMultiply x y)

/-- `/` (`basicarithmetic.py:48-56`). -/
def divArgs : Arg U K → Arg U K → Option (Except Raise (Arg U K))
  | .num v a, .num w b => evalDiv pw N fuel (v, a) (w, b)
  | x, y => some (opDivide x y)

/-- A comparison of two numbers (`booleans.py:43-95`, `154-170`): their units are normalised, not as
differences, and the answer has no unit. -/
def compareArgs (test : K → K → Bool) (x y : K × Option (PL U)) : Option (Except Raise (QVal U K)) :=
  match normaliseInputs pw N fuel false false [x, y] with
  | none => none
  | some (.error e) => some (.error e)
  | some (.ok (xs, _)) =>
    match xs with
    | [x, y] => some (.ok (.truth (test x.1 y.1)))
    | _ => none

/-- `^` (`basicarithmetic.py:28-36`, `92-103`).  `asRat` is the exponent as a rational number, which all
numbers of the program are. -/
def powArgs (x : Arg U K) (n : K) (w : Option (PL U)) : Except Raise (QVal U K) :=
  match asRat n with
  | none => .error (.py "not a rational number")
  | some p =>
    match x with
    | .unit l =>                                                         -- 94-96
      match power p l with
      | none => .ok .nothing
      | some l => .ok (.arg (.unit l))
    | .num v u =>
      if w.isSome then .error (.calc "Power operand must be simple number")   -- 99-100
      else .ok (.arg (.num (opPower pw (v, u) p).1 (opPower pw (v, u) p).2))

/-- `to` (`units.py:43-52`, `113-133`) from the unit `a` to the unit `b`. -/
def convertArgs (v : K) (a b : PL U) : Except Raise (QVal U K) :=
  (unitConversion pw N v (some a) (some b) false).map (fun r => .arg (.num r.1 r.2))

/-- An answer that is a number with or without a unit, or a unit. -/
def asArg (r : Option (Except Raise (Arg U K))) : Option (Except Raise (QVal U K)) :=
  r.map (fun e => e.map .arg)

/-- What the function of an operator does with its operands; the outer `none` if they are others than
are modelled here, the inner `none` if `fuel` was too small. -/
def applyQ : String → List (QVal U K) → Option (Option (Except Raise (QVal U K)))
  | "+", [.arg (.num v a), .arg (.num w b)] => some (asArg (evalAdd pw N fuel (v, a) (w, b)))
  | "-", [.arg (.num v a), .arg (.num w b)] => some (asArg (evalSub pw N fuel (v, a) (w, b)))
  | "*", [.arg x, .arg y] => some (asArg (mulArgs pw N fuel x y))
  | "/", [.arg x, .arg y] => some (asArg (divArgs pw N fuel x y))
  | "IMPLICIT_MULTIPLY", [.arg (.num v a), .arg (.num w b)] =>
    some (asArg (evalMul pw N fuel (v, a) (w, b)))
  | "^", [.arg x, .arg (.num n w)] => some (some (powArgs pw asRat x n w))
  | "UNIT_ASSIGNMENT", [.arg (.num v a), .arg (.unit b)] =>
    some (asArg (some (opMultiply (.num v a) (.unit b))))
  | "UNIT_MULTIPLY", [.arg (.unit a), .arg (.unit b)] =>
    some (asArg (some (opMultiply (.unit a) (.unit b))))
  | "UNIT_DIVIDE", [.arg (.unit a), .arg (.unit b)] =>
    some (asArg (some (opDivide (.unit a) (.unit b))))
  | "to", [.arg (.num v (some a)), .arg (.unit b)] => some (some (convertArgs pw N v a b))
  | "to", [.arg (.num _ none), .arg (.unit _)] =>                         -- `operators.py:252-264`
    some (some (.error (.calc "to parameter 1 must be of type(s) number with unit, unit" true)))
  | "to", [.arg (.unit a), .arg (.unit b)] => some (some (convertArgs pw N 1 a b))
  | "<", [.arg (.num v a), .arg (.num w b)] => some (compareArgs pw N fuel (fun x y => x < y) (v, a) (w, b))
  | ">", [.arg (.num v a), .arg (.num w b)] => some (compareArgs pw N fuel (fun x y => y < x) (v, a) (w, b))
  | "<=", [.arg (.num v a), .arg (.num w b)] => some (compareArgs pw N fuel (fun x y => x ≤ y) (v, a) (w, b))
  | ">=", [.arg (.num v a), .arg (.num w b)] => some (compareArgs pw N fuel (fun x y => y ≤ x) (v, a) (w, b))
  | "==", [.arg (.num v a), .arg (.num w b)] => some (compareArgs pw N fuel (fun x y => x = y) (v, a) (w, b))
  | "!=", [.arg (.num v a), .arg (.num w b)] => some (compareArgs pw N fuel (fun x y => x ≠ y) (v, a) (w, b))
  | _, _ => none

/-- The operators modelled here. -/
def quantityOps : List String :=
  ["+", "-", "*", "/", "IMPLICIT_MULTIPLY", "^", "UNIT_ASSIGNMENT", "UNIT_MULTIPLY", "UNIT_DIVIDE", "to",
   "<", ">", "<=", ">=", "==", "!="]

/-- Errors inside an operation (`operators.py:231-240`). -/
def wrapErr (o : String) (r : Option (Except Raise (QVal U K))) : Except Raise (QVal U K) :=
  match r with
  | none => .error (.py "out of steps")
  | some (.ok v) => .ok v
  | some (.error (.calc m true)) => .error (.calc m true)
  | some (.error (.calc m false)) => .error (.calc ("Could not execute operator " ++ o ++ " - " ++ m) true)
  | some (.error (.exec e)) => .error (.calc ("Could not execute operator " ++ o ++ " - " ++ e.msg) true)
  | some (.error (.py _)) => .error (.calc ("Could not execute operator " ++ o))

/-- `Operation.call` (`operators.py:67-240`): an operand that is an error is the result
(`operators.py:150-154`). -/
def callQ (rest : String → List (QVal U K) → Act σ (QVal U K)) (o : String) (ins : List (QVal U K)) :
    Act σ (QVal U K) := fun s =>
  if o ∈ quantityOps then
    match ins.find? (fun x => x.getErr.isSome) with
    | some x => (.ok x, s)
    | none =>
      match applyQ pw N asRat fuel o ins with
      | some r => (wrapErr o r, s)
      | none => rest o ins s
  else rest o ins s

/-- The value of a word: a decimal number (`decimalnumbers.py:39-47`) or a unit (`units.py:86-107`,
`137-157`); `named` is `get_unit` (`unitnormaliser.py:90-98`), and `others` is for other words. -/
def wordQ (p : ℕ) (named : Parse.Text → Option U) (others : Parse.Item → Act σ (QVal U K)) :
    Parse.Item → Act σ (QVal U K)
  | .leaf .num t =>
    match parseDecimal p t with
    | some (.ok n) => fun s => (.ok (.arg (.num (n.num / n.den) none)), s)
    | _ => others (.leaf .num t)
  | .leaf .unit t =>
    match named t with
    | some u => fun s => (.ok (.arg (.unit (newFromUnit u))), s)
    | none => others (.leaf .unit t)
  | it => others it

/-- `finalize` (`engine.py:324-337`) without finalizers; `simplifies` says whether `unit_simplification`
is on and the flag `no_simplify` of this unit is not set. -/
def finalQ (simplifies : PL U → σ → Bool) (x : QVal U K) : Act σ (QVal U K) := fun s =>
  match x with
  | .arg (.num v (some l)) =>
    if simplifies l s then
      match simplifyUnits pw N fuel v l with
      | none => (.error (.py "out of steps"), s)
      | some (.error e) => (.error e, s)
      | some (.ok y) => (.ok (.arg (.num y.1 y.2)), s)
    else (.ok x, s)
  | x => (.ok x, s)

end
end MC.Unit
