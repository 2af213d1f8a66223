import Verif.Model.Numerical
import Verif.Model.State
import Verif.Model.Text
import Verif.Model.ExpPercent
import Verif.Model.Lexer
import Verif.Model.Strings

/-!
# Model of `features/numerical/basicarithmetic.py` as operations, and of words with a value

Also the table of the operators and functions on texts (`Model/Strings.lean`).

`*`, `/` and `^` take numbers and units.  What is done with units is a parameter here
(`Model/Units.lean` models it); numbers are those of `Model/Number.lean`.
-/

namespace MC.Numerical
open MC.Boolean MC.Arrays

/-- What multiplying and dividing ask of units (`objects/units.py`). -/
structure UnitAlgebra (S U : Type) where
  /-- `isinstance(v, UnitPowerList)`. -/
  unit? : S → Option U
  /-- A unit as a value. -/
  ofUnit : U → S
  /-- `UnitPowerList.new([a, Number(1), b, Number(1)])`. -/
  mul : U → U → Except Raise U
  /-- `UnitPowerList.new([a, Number(1), b, Number(-1)])`. -/
  div : U → U → Except Raise U
  /-- `a.power(n)`. -/
  power : U → Number → Except Raise U
  /-- `a.power(-1)` with the flag `no_simplify` of `a`. -/
  recip : U → Except Raise U
  /-- Setting the flag `no_simplify`. -/
  keep : U → U

variable {S U R K σ : Type} (p : ℕ) (num? : S → Option Number) (ofNum : Number → S)
  (ua : UnitAlgebra S U)

/-- The unit a value is. -/
def unitValue (x : Opd S U R) : Option U :=
  match x.value with
  | .sc v => ua.unit? v
  | _ => none

/-- The loops of `basicarithmetic.py:110-113` and `131-134`: a unit stands for one of it. -/
def quantityOf (x : Opd S U R) : Except Raise (Number × Option U) :=
  match unitValue ua x with
  | some u => .ok (⟨1, 1⟩, some u)
  | none => do
    let n ← numberOf num? x
    return (n, x.unit)

/-- `op_number_multiply` (`basicarithmetic.py:105-123`). -/
def multiply (a b : Opd S U R) : Except Raise (OpResult S U R) :=
  match unitValue ua a, unitValue ua b with
  | some u, some v => do
    let w ← ua.mul u v
    return { value := .sc (ua.ofUnit (ua.keep w)) }
  | _, _ => do
    let (x, u) ← quantityOf num? ua a
    let (y, v) ← quantityOf num? ua b
    let r ← liftErr (Number.mul p x y)
    match u, v with
    | some u, some v => do
      let w ← ua.mul u v
      return { value := .sc (ofNum r), unit := some (some w) }
    | some u, none => return { value := .sc (ofNum r), unit := some (some u) }
    | none, some v => return { value := .sc (ofNum r), unit := some (some v) }
    | none, none => return { value := .sc (ofNum r) }

/-- `op_number_divide` (`basicarithmetic.py:126-147`). -/
def divide (a b : Opd S U R) : Except Raise (OpResult S U R) :=
  match unitValue ua a, unitValue ua b with
  | some u, some v => do
    let w ← ua.div u v
    return { value := .sc (ua.ofUnit (ua.keep w)) }
  | _, _ => do
    let (x, u) ← quantityOf num? ua a
    let (y, v) ← quantityOf num? ua b
    let r ← liftErr (Number.div p x y)
    match u, v with
    | some u, some v => do
      let w ← ua.div u v
      return { value := .sc (ofNum r), unit := some (some w) }
    | some u, none => return { value := .sc (ofNum r), unit := some (some u) }
    | none, some v => do
      let w ← ua.recip v
      return { value := .sc (ofNum r), unit := some (some w) }
    | none, none => return { value := .sc (ofNum r) }

/-- `op_number_power` (`basicarithmetic.py:92-103`). -/
def power (powF : ℚ → ℚ → Except Err ℚ) (a b : Opd S U R) : Except Raise (OpResult S U R) := do
  match unitValue ua a with
  | some u => do
    let n ← numberOf num? b
    let w ← ua.power u n
    return { value := .sc (ua.ofUnit w) }
  | none => do
    let x ← numberOf num? a
    let n ← numberOf num? b
    let r ← liftErr (Number.pow p powF x n)
    if b.unit.isSome then .error (.calc "Power operand must be simple number")
    else
      match a.unit with
      | some u => do
        let w ← ua.power u n
        return { value := .sc (ofNum r), unit := some (some w) }
      | none => return { value := .sc (ofNum r) }

/-- The types of `*` and `/` (`basicarithmetic.py:45`, `55`). -/
def quantities : List Restriction :=
  [⟨0, some 0, [.ty "number", .ty "unit"]⟩, ⟨1, some 1, [.ty "number", .ty "unit"]⟩]

/-- `*` (`basicarithmetic.py:38-46`, `105-123`). -/
def opMultiply : Operation S U R σ where
  name := "operator *"
  minParams := some 2
  maxParams := some 2
  values := quantities
  units := []
  unitsRelative := true
  unitsMulti := true
  ref := two (multiply p num? ofNum ua)

/-- `/` (`basicarithmetic.py:48-56`, `126-147`). -/
def opDivide : Operation S U R σ where
  name := "operator /"
  minParams := some 2
  maxParams := some 2
  values := quantities
  units := []
  unitsRelative := true
  unitsMulti := true
  ref := two (divide p num? ofNum ua)

/-- `^` (`basicarithmetic.py:28-36`, `92-103`). -/
def opPower (powF : ℚ → ℚ → Except Err ℚ) : Operation S U R σ where
  name := "operator ^"
  minParams := some 2
  maxParams := some 2
  values := [⟨0, some 0, [.ty "number", .ty "unit"]⟩, ⟨1, some 1, [.ty "number"]⟩]
  units := []
  unitsNormalise := false
  ref := two (power p num? ofNum ua powF)

/-- `IMPLICIT_MULTIPLY` (`basicarithmetic.py:77-85`, `105-123`). -/
def opImplicitMultiply : Operation S U R σ :=
  { numOp "operator IMPLICIT_MULTIPLY" 2 2 (two (multiply p num? ofNum ua)) with
    unitsRelative := true
    unitsMulti := true }

/-- What the operators do that are modelled here, in `Model/Numerical.lean`, `Model/Boolean.lean` and
`Model/Strings.lean` (`strings.py:37-53`, `stringcomparison.py:27-123`); `others` is for the rest. -/
def callOf (asBool : S → Option Bool) (ofBool : Bool → S) (T : Strings.Texts S U R) (powF : ℚ → ℚ → Except Err ℚ)
    (c : Calc S U R K) (others : String → List (Opd S U R) → Act σ (Opd S U R)) (o : String) :
    List (Opd S U R) → Act σ (Opd S U R) :=
  match o with
  | "+" => call c (opAdd p num? ofNum)
  | "-" => call c (opSubtract p num? ofNum)
  | "*" => call c (opMultiply p num? ofNum ua)
  | "/" => call c (opDivide p num? ofNum ua)
  | "^" => call c (opPower p num? ofNum ua powF)
  | "IMPLICIT_MULTIPLY" => call c (opImplicitMultiply p num? ofNum ua)
  | "%" => call c (opModulus p num? ofNum)
  | "\\" => call c (opIntDivide p num? ofNum c (opDivide p num? ofNum ua))
  | "<" => call c (opLess p num? ofBool)
  | ">" => call c (opMore p num? ofBool)
  | "<=" => call c (opLessEq p num? ofBool)
  | ">=" => call c (opMoreEq p num? ofBool)
  | "==" => call c (opEqual p num? ofBool)
  | "!=" => call c (opNotEqual p num? ofBool)
  | "and" => call c (opAnd asBool ofBool)
  | "or" => call c (opOr asBool ofBool)
  | "xor" => call c (opXor asBool ofBool)
  | "not" => call c (opNot asBool ofBool)
  | "then" => call c (opThen asBool)
  | "+$" => call c (Strings.opAppend T)
  | "*$" => call c (Strings.opRepeat T p)
  | "<$" => call c (Strings.opLess T)
  | ">$" => call c (Strings.opMore T)
  | "<=$" => call c (Strings.opLessEq T)
  | ">=$" => call c (Strings.opMoreEq T)
  | "==$" => call c (Strings.opEqual T)
  | "!=$" => call c (Strings.opUnequal T)
  | "<~" => call c (Strings.opLessNc T)
  | ">~" => call c (Strings.opMoreNc T)
  | "<=~" => call c (Strings.opLessEqNc T)
  | ">=~" => call c (Strings.opMoreEqNc T)
  | "==~" => call c (Strings.opEqualNc T)
  | "!=~" => call c (Strings.opUnequalNc T)
  | o => others o

/-- The functions that are modelled in `Model/Numerical.lean` (`numericalfunctions.py:31-124`) and in
`Model/Strings.lean` (`stringfunctions.py:30-119`); `others` is for the rest.  Their inputs cannot be errors (`inputs_can_be_exceptions`,
`operators.py:54`). -/
def funcsOf (T : Strings.Texts S U R) (base : S → ℕ) (offset : S → ℤ) (c : Calc S U R K)
    (others : String → Option (FuncDef (Opd S U R) σ)) (w : String) : Option (FuncDef (Opd S U R) σ) :=
  match w with
  | "abs" => some ⟨false, call c (opAbs p num? ofNum)⟩
  | "fact" => some ⟨false, call c (opFact p num? ofNum)⟩
  | "gcd" => some ⟨false, call c (opGcd p num? ofNum)⟩
  | "lcm" => some ⟨false, call c (opLcm p num? ofNum)⟩
  | "floor" => some ⟨false, call c (opFloor p num? ofNum base offset)⟩
  | "ceil" => some ⟨false, call c (opCeil p num? ofNum base offset)⟩
  | "round" => some ⟨false, call c (opRound p num? ofNum base offset)⟩
  | "length" => some ⟨false, call c (Strings.opLength T p)⟩
  | "lower" => some ⟨false, call c (Strings.opLower T)⟩
  | "upper" => some ⟨false, call c (Strings.opUpper T)⟩
  | "lstrip" => some ⟨false, call c (Strings.opLstrip T)⟩
  | "rstrip" => some ⟨false, call c (Strings.opRstrip T)⟩
  | "strip" => some ⟨false, call c (Strings.opStrip T)⟩
  | "find" => some ⟨false, call c (Strings.opFind T p)⟩
  | "replace" => some ⟨false, call c (Strings.opReplace T)⟩
  | "substr" => some ⟨false, call c (Strings.opSubstr T p)⟩
  | w => others w

variable {τ : Type}

/-- The value of a word: a decimal number (`decimalnumbers.py:39-47`, `LiteralItem.value`,
`items.py:102-118`), a truth value (`booleans.py:145-149`), a text in quotes (`strings.py:59-80`, with the
default symbols, `strings.py:29-34`) or a variable (`assignment.py:106-114`); `others` is for other
words, and for numbers written in another way. -/
def wordVal (ofBool : Bool → S) (T : Strings.Texts S U Ref) (nothing : S)
    (others : Parse.Item → Act (St S U τ) (Opd S U Ref)) : Parse.Item → Act (St S U τ) (Opd S U Ref)
  | .leaf .num t =>
    match parseDecimal p t with
    | some r => fun s => ((liftErr r).map (fun n => ⟨.sc (ofNum n), none, some .other, none⟩), s)
    | none => others (.leaf .num t)
  | .leaf .bool t => fun s =>
      (.ok ⟨.sc (ofBool (decide (lowerText t = "true".toList))), none, some .other, none⟩, s)
  | .leaf .str t =>
    match Parse.stringLoop '\'' '\\' false t.tail with
    | some (s, _) => fun st => (.ok ⟨.sc (T.ofText s), none, some .other, none⟩, st)
    | none => others (.leaf .str t)
  | .leaf .var t => State.readVar nothing (String.ofList t)
  | it => others it

end MC.Numerical
