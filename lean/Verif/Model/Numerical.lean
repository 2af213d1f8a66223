import Mathlib.Data.Nat.Factorial.Basic
import Verif.Model.Arrays

/-!
# Model of the numerical operations

`features/boolean/booleans.py` (the comparisons), `features/numerical/basicarithmetic.py` (`+`,
`-`), `features/numerical/advancedarithmetic.py` and `features/numerical/numericalfunctions.py`.
Not modelled: `log`.

Numbers are among the scalars: `num?` recognises them, `ofNum` makes them.  The implementations
pass on `number_cast` of their first number; `call` sets it afterwards to the first number type of
the inputs (`operators.py:213-214`), so numbers are made without one here.
-/

namespace MC.Numerical
open MC.Boolean MC.Arrays

variable {S U R K σ : Type} (p : ℕ) (num? : S → Option Number) (ofNum : Number → S)
  (ofBool : Bool → S)

/-- The declaration of an operation all of whose inputs are numbers
(`operators.py:32-62`, `358-391` with the single type `number`). -/
def numOp (name : String) (least most : ℕ)
    (ref : List (Opd S U R) → Act σ (OpResult S U R)) : Operation S U R σ where
  name := name
  minParams := some least
  maxParams := some most
  values := [⟨0, none, [.ty "number"]⟩]
  units := []
  ref := ref

/-- A comparison (`booleans.py:154-170`): the truth value has no unit. -/
def opCompare (name : String) (test : Number → Number → Bool) : Operation S U R σ :=
  numOp name 2 2 (two (fun a b => do
    let x ← numberOf num? a
    let y ← numberOf num? b
    return { value := .sc (ofBool (test x y)), unit := some none }))

/-- `<` (`booleans.py:43-50`, `160-161`). -/
def opLess : Operation S U R σ := opCompare num? ofBool "operator <" (Number.lt p)
/-- `>` (`booleans.py:52-59`, `163-164`). -/
def opMore : Operation S U R σ := opCompare num? ofBool "operator >" (Number.gt p)
/-- `<=` (`booleans.py:61-68`, `166-167`). -/
def opLessEq : Operation S U R σ := opCompare num? ofBool "operator <=" (Number.le p)
/-- `>=` (`booleans.py:70-77`, `169-170`). -/
def opMoreEq : Operation S U R σ := opCompare num? ofBool "operator >=" (Number.ge p)
/-- `==` (`booleans.py:79-86`, `154-155`). -/
def opEqual : Operation S U R σ := opCompare num? ofBool "operator ==" (Number.eq p)
/-- `!=` (`booleans.py:88-95`, `157-158`). -/
def opNotEqual : Operation S U R σ := opCompare num? ofBool "operator !=" (Number.ne p)

/-- An operation of two numbers whose result has the common unit. -/
def opArith (name : String) (f : Number → Number → Except Err Number) : Operation S U R σ :=
  numOp name 2 2 (two (fun a b => do
    let x ← numberOf num? a
    let y ← numberOf num? b
    let r ← liftErr (f x y)
    return { value := .sc (ofNum r) }))

/-- `+` (`basicarithmetic.py:57-65`, `149-150`). -/
def opAdd : Operation S U R σ :=
  { opArith num? ofNum "operator +" (Number.add p) with unitsRelative := true }
/-- `-` (`basicarithmetic.py:67-75`, `152-153`). -/
def opSubtract : Operation S U R σ :=
  { opArith num? ofNum "operator -" (Number.sub p) with unitsRelative := true }
/-- `%` (`advancedarithmetic.py:31-38`, `48-49`). -/
def opModulus : Operation S U R σ := opArith num? ofNum "operator %" (Number.mod p)

/-- `\` (`advancedarithmetic.py:39-46`, `51-56`): calls `/`, whose definition is looked up in the
calculator, and takes the floor. -/
def opIntDivide (c : Calc S U R K) (divide : Operation S U R σ) : Operation S U R σ :=
  numOp "operator \\" 2 2 (fun xs s =>
    match xs with
    | a :: b :: _ =>
      match call c divide [⟨a.value, a.unit, none, none⟩, ⟨b.value, b.unit, none, none⟩] s with
      | (.error e, s') => (.error e, s')
      | (.ok r, s') =>
        match numberOf num? r with
        | .error e => (.error e, s')
        | .ok n => (.ok { value := .sc (ofNum (Number.floor p n)), unit := some r.unit }, s')
    | _ => (.error (.py "IndexError"), s))

/-- A function of one number that keeps its unit. -/
def opUnary (name : String) (f : Number → Except Raise Number) : Operation S U R σ :=
  numOp name 1 1 (fun xs s =>
    match xs with
    | a :: _ => (do
      let x ← numberOf num? a
      let r ← f x
      return { value := .sc (ofNum r), unit := some a.unit }, s)
    | _ => (.error (.py "IndexError"), s))

/-- `abs` (`numericalfunctions.py:33-41`, `127-130`). -/
def opAbs : Operation S U R σ := opUnary num? ofNum "abs" (fun x => .ok (Number.abs p x))

/-- `(x % Number(1)).to_decimal() != 0` (`numericalfunctions.py:160`, `181`, `188`). -/
def notInteger (x : Number) : Except Raise Bool := do
  let r ← liftErr (Number.mod p x ⟨1, 1⟩)
  return Number.toDecimal p r ≠ 0

/-- `fact` (`numericalfunctions.py:76-84`, `159-164`).  `math.factorial` raises `ValueError` for a
negative argument, which line 160 excludes. -/
def opFact : Operation S U R σ := opUnary num? ofNum "fact" (fun x => do
  if Number.toDecimal p x < 0 then .error (.calc "Operator requires positive integers")
  else
    if ← notInteger p x then .error (.calc "Operator requires positive integers")
    else liftErr (Number.ofInt p ((Number.toInt p x).toNat.factorial : ℤ)))

/-- `exp` (`numericalfunctions.py:86-94`, `166-169`): `e` is the constant of
`numericalconstants.py`, powers of it are a parameter. -/
def opExp (powF : ℚ → ℚ → Except Err ℚ) (e : Number) : Operation S U R σ :=
  opUnary num? ofNum "exp" (fun x => liftErr (Number.pow p powF e x))

/-- `apply_rounding_function` (`numericalfunctions.py:132-148`) for a number whose type has the
given base (10 without one) and places offset: `base ** places` is a float for negative `places`,
from which no `Number` is made. -/
def scaled (f : Number → Except Err Number) (base : ℕ) (places : ℤ) (x : Number) :
    Except Err Number :=
  if places < 0 then .error (.py "Cannot create Number with arguments")
  else do
    let q ← Number.ofInt p ((base : ℤ) ^ places.toNat)
    let v ← Number.mul p x q
    let v ← f v
    Number.div p v q

/-- `floor`, `ceil`, `round` (`numericalfunctions.py:43-74`, `132-158`).  `base` and `offset` read
the number type of the first number. -/
def opRounding (base : S → ℕ) (offset : S → ℤ) (name : String)
    (f : Number → Except Err Number) : Operation S U R σ :=
  { numOp name 1 2 (fun xs s =>
      match xs with
      | a :: rest => (do
        let x ← numberOf num? a
        let places ← (match rest with
          | [] => .ok 0
          | b :: _ => do
            let n ← numberOf num? b
            return Number.toInt p n : Except Raise ℤ)
        let (b, o) := (match a.value with
          | .sc v => (base v, offset v)
          | _ => (10, 0))
        let r ← liftErr (scaled p f b (places + o) x)
        return { value := .sc (ofNum r), unit := some a.unit }, s)
      | _ => (.error (.py "IndexError"), s)) with unitsNormalise := false }

/-- `floor` (`numericalfunctions.py:43-52`, `150-151`). -/
def opFloor (base : S → ℕ) (offset : S → ℤ) : Operation S U R σ :=
  opRounding p num? ofNum base offset "floor" (fun v => .ok (Number.floor p v))
/-- `ceil` (`numericalfunctions.py:54-63`, `153-154`). -/
def opCeil (base : S → ℕ) (offset : S → ℤ) : Operation S U R σ :=
  opRounding p num? ofNum base offset "ceil" (fun v => .ok (Number.ceil p v))
/-- `round` (`numericalfunctions.py:65-74`, `156-157`): `round(val)` is `val.__round__()`. -/
def opRound (base : S → ℕ) (offset : S → ℤ) : Operation S U R σ :=
  opRounding p num? ofNum base offset "round" (fun v => Number.round p v 0)

/-- A function of two integers with the unit of the first. -/
def opIntegers (name : String) (f : ℤ → ℤ → ℕ) : Operation S U R σ :=
  numOp name 2 2 (two (fun a b => do
    let x ← numberOf num? a
    let y ← numberOf num? b
    if ← notInteger p x then .error (.calc "Operator requires integers")
    else if ← notInteger p y then .error (.calc "Operator requires integers")
    else
      let r ← liftErr (Number.ofInt p (f (Number.toInt p x) (Number.toInt p y)))
      return { value := .sc (ofNum r), unit := some a.unit }))

/-- `lcm` (`numericalfunctions.py:106-114`, `180-185`). -/
def opLcm : Operation S U R σ := opIntegers p num? ofNum "lcm" Int.lcm
/-- `gcd` (`numericalfunctions.py:116-124`, `187-192`). -/
def opGcd : Operation S U R σ := opIntegers p num? ofNum "gcd" Int.gcd

end MC.Numerical
