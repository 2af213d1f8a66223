import Verif.Model.Numerical
import Verif.Model.FunctionTable
import Verif.Model.Bases

/-!
# Model of the functions that are computed with Python's floats

`features/numerical/trigonometryfunctions.py` and `features/numerical/specialfunctions.py`.  The functions of
`math` and `scipy.special`, and the conversions between floats and decimals, are a parameter.
`SpecialFunctionsFeature.print_test` (`specialfunctions.py:263-282`) is not used and not modelled.
-/

namespace MC.Floats
open MC.Numerical MC.Boolean MC.Arrays MC.Functions
open MC.Parse (Text)

/-- An argument of a library function. -/
inductive Arg (F : Type) where
  | float (x : F)
  | int (n : ℤ)

/-- Python's floats and the libraries. -/
structure Lib (F : Type) where
  /-- `float(d)` of a `Decimal` -/
  ofDec : ℚ → F
  /-- `Decimal(x)` of a float; `none` for infinities and NaN -/
  toDec : F → Option ℚ
  /-- A function of `math` or `scipy.special` by its name: the outputs (one, or a tuple), as `cast_numpy`
  (`specialfunctions.py:297-302`) makes floats of them. -/
  fn : Text → List (Arg F) → Except Raise (List F)

variable {S U R σ F : Type} (p : ℕ) (num? : S → Option Number) (ofNum : Number → S) (L : Lib F)

/-- `Number(Decimal(x))` (`trigonometryfunctions.py:141-175`, `specialfunctions.py:302`): `math.floor` in
`Number.is_integer` (`number.py:214-215`) raises for infinities and NaN. -/
def ofFloat (x : F) : Except Raise Number :=
  match L.toDec x with
  | none => .error (.py "OverflowError")
  | some q => liftErr (Number.mk' p q 1)

/-- `[float(v) for v in vals]` (`specialfunctions.py:286`, `number.py:163-164`) or `[int(v) for v in vals]`
(`specialfunctions.py:292`, `number.py:160-161`). -/
def argOf (ints : Bool) (v : Number) : Arg F :=
  if ints then .int (Number.toInt p v) else .float (L.ofDec (Number.toDecimal p v))

/-- The numbers of the inputs. -/
def numbersOf : List (Opd S U R) → Except Raise (List Number)
  | [] => .ok []
  | x :: xs =>
    match numberOf num? x with
    | .error e => .error e
    | .ok v =>
      match numbersOf xs with
      | .error e => .error e
      | .ok vs => .ok (v :: vs)

/-- The number a library function answers (`specialfunctions.py:286-289`, `292-295`). -/
def answer (lib : Text) (o : Option ℕ) (ints : Bool) (vs : List Number) : Except Raise Number :=
  match L.fn lib (vs.map (argOf p L ints)) with
  | .error e => .error e
  | .ok outs =>
    match outs[o.getD 0]? with
    | none => .error (.py "IndexError")
    | some x => ofFloat p L x

/-- `func_generic` and `func_int_params` (`specialfunctions.py:285-295`). -/
def floatRef (lib : Text) (o : Option ℕ) (ints : Bool) (xs : List (Opd S U R)) :
    Except Raise (OpResult S U R) :=
  match numbersOf num? xs with
  | .error e => .error e
  | .ok vs =>
    match answer p L lib o ints vs with
    | .error e => .error e
    | .ok n => .ok { value := .sc (ofNum n) }

/-- The definition of such a function (`specialfunctions.py:232-252`, `trigonometryfunctions.py:31-138`). -/
def opFloat (name : Text) (arity : ℕ) (lib : Text) (o : Option ℕ) (ints : Bool) : Operation S U R σ :=
  numOp (String.ofList name) arity arity (fun xs s => (floatRef p num? ofNum L lib o ints xs, s))

/-- The functions of `trigonometryfunctions.py:31-138`: each has the name of the function of `math` it calls
(`trigonometryfunctions.py:141-175`). -/
def trigNames : List Text := ["sin", "cos", "tan", "asin", "acos", "atan", "sinh", "cosh", "tanh", "asinh", "acosh",
  "atanh"].map String.toList

/-- A trigonometric function (`trigonometryfunctions.py:31-175`). -/
def opTrig (name : Text) : Operation S U R σ := opFloat p num? ofNum L name 1 name none false

/-- `format_func_name` (`specialfunctions.py:255-260`). -/
def formatName (name : Text) (out : Option Text) : Text :=
  lowerText ("sp_".toList ++ name ++ (match out with | some o => '_' :: o | none => []))

/-- A function as `add_func` enters it. -/
structure Entry where
  name : Text
  params : ℕ
  lib : Text
  out : Option ℕ
  ints : Bool
  deriving DecidableEq

/-- The functions that `add_func` makes of its arguments (`specialfunctions.py:226-253`). -/
def SpecialRow.entries (r : SpecialRow) : List Entry :=
  match r.outs with
  | none => [⟨formatName r.name none, r.params, r.name, none, r.ints⟩]
  | some outs => outs.zipIdx.map (fun o => ⟨formatName r.name (some o.1), r.params, r.name, some o.2, r.ints⟩)

/-- The special functions (`specialfunctions.py:39-223`). -/
def specialFuncs : List Entry := specialRows.flatMap SpecialRow.entries

/-- The operation of an entry. -/
def Entry.op (e : Entry) : Operation S U R σ := opFloat p num? ofNum L e.name e.params e.lib e.out e.ints

/-- The names of all shipped functions, `calculator.funcs`. -/
def shippedFuncs : List Text := rows.map Row.name ++ specialFuncs.map Entry.name

end MC.Floats
