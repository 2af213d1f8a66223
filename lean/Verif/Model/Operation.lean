import Verif.Model.Engine

/-!
# Model of `objects/operators.py`: calling an operation

The model is generic in

* `S`: the values that are neither arrays nor exceptions (numbers, strings, booleans, units...);
* `U`: units, `R`: references (the item a value came from), `K`: number types;
* `σ`: the calculator's state, and the record `Calc` of everything `call` asks the calculator.

Simplifications: types such as `array[number]` are given parsed (`parse_sub_type`,
`operators.py:294-302`, is applied once, when the operation is defined); `flags` is not
modelled; setting `number_cast` on a result gives a changed copy here, while the code changes
the object itself (what that does to variables is modelled in `Model/Heap.lean`).
-/

namespace MC

/-- `OperandResult` (`items.py:154-175`) over values of type `V`, with the attributes
`original_value` and `original_unit` that `call` adds to array elements. -/
structure OpdF (V U R : Type) where
  value : V
  unit : Option U
  ref : Option R
  orig : Option (V × Option U)

/-- The `value` of an `OperandResult`: a scalar, a list of results, or an exception. -/
inductive Val (S U R : Type) where
  | sc (x : S)
  | arr (xs : List (OpdF (Val S U R) U R))
  | exc (e : Raise)

/-- `OperandResult` (`items.py:154-175`). -/
abbrev Opd (S U R : Type) := OpdF (Val S U R) U R

namespace Val
variable {S U R : Type}
/-- `isinstance(value, Exception)`. -/
def err? : Val S U R → Option Raise
  | .exc e => some e
  | _ => none
/-- `type(value) == list`, with the list. -/
def arr? : Val S U R → Option (List (Opd S U R))
  | .arr xs => some xs
  | _ => none
end Val

variable {S U R K σ : Type}

/-- `OperandResult(v, None, None)`. -/
def Opd.pure (v : Val S U R) : Opd S U R := ⟨v, none, none, none⟩

/-- An allowed type, parsed (`operators.py:34`, `294-302`): `None`, `name` or `name[sub]`. -/
inductive ObjType where
  | any
  | ty (name : String)
  | sub (name sub : String)
  deriving DecidableEq, Repr

/-- First component of `parse_sub_type` (`operators.py:294-302`). -/
def ObjType.main : ObjType → Option String
  | .any => none
  | .ty n => some n
  | .sub n _ => some n
/-- Second component of `parse_sub_type` (`operators.py:294-302`). -/
def ObjType.subType : ObjType → Option String
  | .sub _ t => some t
  | _ => none
/-- The name as written, for messages (`operators.py:264`). -/
def ObjType.text : ObjType → String
  | .any => "None"
  | .ty n => n
  | .sub n t => n ++ "[" ++ t ++ "]"

/-- An element of `value_restrictions` (`operators.py:58-62`). -/
structure Restriction where
  first : ℕ
  last : Option ℕ
  types : List ObjType

/-- An element of `unit_restrictions` (`operators.py:64-65`).  `check` is
`check_unit_dimensions` with these dimensions; it raises if there is no unit normaliser. -/
structure UnitRestriction (U : Type) where
  first : ℕ
  last : Option ℕ
  check : Option U → Except Raise Bool
  text : String

/-- What the implementation of an operation returns: `OperationResult`
(`operators.py:10-29`). -/
structure OpResult (S U R : Type) where
  value : Val S U R
  unit : Option (Option U) := none
  ref : Option (Option R) := none

/-- `Operation` (`operators.py:32-56`).  `ref` gets `values`, `units` and `refs` as one list
of operands. -/
structure Operation (S U R σ : Type) where
  name : String
  minParams : Option ℕ
  maxParams : Option ℕ
  values : List Restriction
  units : List (UnitRestriction U)
  unitsRelative : Bool := false
  unitsMulti : Bool := false
  unitsNormalise : Bool := true
  canBeExc : Bool := false
  convertIn : Bool := true
  convertOut : Bool := true
  ref : List (Opd S U R) → Act σ (OpResult S U R)
  /-- What setting `number_cast` on the result (`operators.py:214`) does besides changing the
  result, when the result is an object that is also stored elsewhere; `after inputs result`.
  Only the compound assignments use this. -/
  after : List (Opd S U R) → Opd S U R → σ → σ := fun _ _ s => s

/-- What `call` asks the calculator. -/
structure Calc (S U R K : Type) where
  /-- `calculator.validators`; the second argument is the sub-type. -/
  validator : String → Option (Opd S U R → Option String → Except Raise Bool)
  /-- `calculator.number` on a value that is not a list or an exception. -/
  number : S → Option S
  /-- `isinstance(x, Number)`. -/
  isNumber : S → Bool
  /-- `x.number_cast`. -/
  cast : S → Option K
  /-- Setting `number_cast`. -/
  setCast : K → S → S
  /-- `calculator.unit_normaliser.normalise_inputs(values, units, units_multi, units_relative)`:
  the new values and units, and the result unit; `none` if there is no normaliser. -/
  normalise : Option (List (S × Option U) → Bool → Bool →
    Except Raise (List (S × Option U) × Option U))
  /-- `OperandResult.to_string(calculator)`; it may raise. -/
  toString : Opd S U R → Except Raise String

namespace Operation
variable (op : Operation S U R σ)

/-- Whether restriction `r` applies to parameter `i` (`operators.py:312`, `325`). -/
def applies (r : Restriction) (i : ℕ) : Bool :=
  decide (r.first ≤ i) && (match r.last with | none => true | some t => decide (i ≤ t))

/-- `input_can_be_type(i, t)` (`operators.py:304-314`). -/
def canBe (i : ℕ) (t : String) : Bool :=
  op.values.any (fun r => applies r i && (r.types.map ObjType.main).contains (some t))

/-- The test in `input_must_be_type` (`operators.py:326`). -/
def onlyType (r : Restriction) (t : String) (sub : Option String) : Bool :=
  (r.types.map ObjType.main).contains (some t) && decide (r.types.length = 1)
    && (match sub with
      | none => true
      | some u => (r.types.map ObjType.subType).contains (some u))

/-- `input_must_be_type(i, t, sub)` (`operators.py:316-330`): some restriction applies to `i`,
and all that do allow only this type. -/
def mustBe (i : ℕ) (t : String) (sub : Option String) : Bool :=
  op.values.any (fun r => applies r i)
    && op.values.all (fun r => !applies r i || onlyType r t sub)

end Operation

section
variable (c : Calc S U R K) (op : Operation S U R σ)

/-- `validate_input` (`operators.py:284-292`). -/
def validateInput (t : ObjType) (x : Opd S U R) : Except Raise Bool :=
  match t with
  | .any => .ok true
  | .ty n =>
    match c.validator n with
    | none => .ok false
    | some v => v x none
  | .sub n u =>
    match c.validator n with
    | none => .error (.py "KeyError")
    | some v => v x (some u)

/-- The loop over the allowed types (`operators.py:260-262`). -/
def anyType (x : Opd S U R) : List ObjType → Except Raise Bool
  | [] => .ok false
  | t :: ts =>
    match validateInput c t x with
    | .error e => .error e
    | .ok true => .ok true
    | .ok false => anyType x ts

/-- The parameters of one value restriction from `i` on (`operators.py:253-264`). -/
def checkFrom (r : Restriction) : ℕ → List (Opd S U R) → Except Raise Unit
  | _, [] => .ok ()
  | i, x :: xs =>
    if Operation.applies r i then
      match anyType c x r.types with
      | .error e => .error e
      | .ok true => checkFrom r (i + 1) xs
      | .ok false => .error (.calc (op.name ++ " parameter " ++ toString (i + 1)
          ++ " must be of type(s) " ++ ", ".intercalate (r.types.map ObjType.text)))
    else checkFrom r (i + 1) xs

/-- All value restrictions (`operators.py:252-264`). -/
def checkValues (xs : List (Opd S U R)) : List Restriction → Except Raise Unit
  | [] => .ok ()
  | r :: rs =>
    match checkFrom c op r 0 xs with
    | .error e => .error e
    | .ok () => checkValues xs rs

/-- The parameters of one unit restriction from `i` on (`operators.py:268-282`).  The message
of a malformed definition (`282`) is not distinguished. -/
def checkUnitsFrom (r : UnitRestriction U) : ℕ → List (Opd S U R) → Except Raise Unit
  | _, [] => .ok ()
  | i, x :: xs =>
    if Operation.applies ⟨r.first, r.last, []⟩ i then
      match r.check x.unit with
      | .error e => .error e
      | .ok true => checkUnitsFrom r (i + 1) xs
      | .ok false => .error (.calc (op.name ++ " parameter " ++ toString (i + 1)
          ++ " must have unit dimensions: " ++ r.text))
    else checkUnitsFrom r (i + 1) xs

/-- All unit restrictions (`operators.py:267-282`). -/
def checkUnits (xs : List (Opd S U R)) : List (UnitRestriction U) → Except Raise Unit
  | [] => .ok ()
  | r :: rs =>
    match checkUnitsFrom op r 0 xs with
    | .error e => .error e
    | .ok () => checkUnits xs rs

/-- `validate` (`operators.py:242-282`). -/
def validate (xs : List (Opd S U R)) : Except Raise Unit :=
  if op.minParams.any (fun m => decide (xs.length < m)) then
    .error (.calc (op.name ++ " requires at least " ++ toString (op.minParams.getD 0)
      ++ " parameters, only given " ++ toString xs.length))
  else if op.maxParams.any (fun m => decide (m < xs.length)) then
    .error (.calc (op.name ++ " requires at most " ++ toString (op.maxParams.getD 0)
      ++ " parameters, was given " ++ toString xs.length))
  else
    match checkValues c op xs op.values with
    | .error e => .error e
    | .ok () => checkUnits op xs op.units

/-- `validate_number` (`numericalengine.py:51-56`) with the converted number.  Lists and
exceptions are not numbers. -/
def asNumber (v : Val S U R) : Option S :=
  match v with
  | .sc x => c.number x
  | _ => none

/-- Whether `convert_numbers` looks at parameter `i` (`operators.py:337-344`). -/
def convertible (i : ℕ) : Bool :=
  op.values.any (fun r => Operation.applies r i && r.types.contains (.ty "number"))

/-- The new values of `convert_numbers` (`operators.py:332-353`), from parameter `i` on. -/
def convertFrom : ℕ → List (Opd S U R) → List (Opd S U R)
  | _, [] => []
  | i, x :: xs =>
    (match (if convertible op i then asNumber c x.value else none) with
      | some n => { x with value := .sc n }
      | none => x) :: convertFrom (i + 1) xs

/-- The number type found for one restriction (`operators.py:344-350`), from parameter `i`. -/
def castFrom (r : Restriction) : ℕ → List (Opd S U R) → Option K
  | _, [] => none
  | i, x :: xs =>
    match (if Operation.applies r i then (asNumber c x.value).bind c.cast else none) with
    | some k => some k
    | none => castFrom r (i + 1) xs

/-- The number type kept by `convert_numbers` (`operators.py:334`, `349-350`): the first one
that is not `None`, over the restrictions in order. -/
def castOf (xs : List (Opd S U R)) : Option K :=
  op.values.findSome? (fun r => if r.types.contains (.ty "number") then castFrom c r 0 xs
    else none)

/-- `[(value, unit)]` when every input is a number and may be one (`operators.py:172`). -/
def numbersFrom : ℕ → List (Opd S U R) → Option (List (S × Option U))
  | _, [] => some []
  | i, x :: xs =>
    match x.value with
    | .sc v =>
      if op.canBe i "number" && (c.number v).isSome then
        (numbersFrom (i + 1) xs).map (fun l => (v, x.unit) :: l)
      else none
    | _ => none

/-- Putting the new values and units back (`operators.py:176`). -/
def setNumbers : List (Opd S U R) → List (S × Option U) → List (Opd S U R)
  | x :: xs, v :: vs => { x with value := .sc v.1, unit := v.2 } :: setNumbers xs vs
  | xs, _ => xs

/-- `[calculator.number(v.value) for v in values[i]]` with the units
(`operators.py:187-196`). -/
def elementNumbers : List (Opd S U R) → Except Raise (List (S × Option U))
  | [] => .ok []
  | x :: xs =>
    match asNumber c x.value with
    | none => .error (.calc "Can't cast to number")
    | some n =>
      match elementNumbers xs with
      | .error e => .error e
      | .ok l => .ok ((n, x.unit) :: l)

/-- Replacing the elements by normalised ones that remember the original
(`operators.py:200-207`). -/
def setElements : List (Opd S U R) → List (S × Option U) → List (Opd S U R)
  | x :: xs, v :: vs =>
    ⟨.sc v.1, v.2, x.ref, some (x.value, x.unit)⟩ :: setElements xs vs
  | xs, _ => xs

/-- The loop over the inputs for arrays of numbers (`operators.py:181-207`), from input `i`:
the inputs, the result unit and the number type. -/
def normaliseArrays : ℕ → Option U → Option K → List (Opd S U R) →
    Except Raise (List (Opd S U R) × Option U × Option K)
  | _, ru, k, [] => .ok ([], ru, k)
  | i, ru, k, x :: xs =>
    match x.value with
    | .arr els =>
      if op.mustBe i "array" (some "number") then
        match elementNumbers c els with
        | .error e => .error e
        | .ok nums =>
          let k' := match k with
            | some k => some k
            | none => nums.findSome? (fun n => c.cast n.1)
          match (match c.normalise with
              | some f => if op.unitsNormalise then f nums op.unitsMulti op.unitsRelative
                  else .ok (nums, ru)
              | none => .ok (nums, ru)) with
          | .error e => .error e
          | .ok (nums', ru') =>
            match normaliseArrays (i + 1) ru' k' xs with
            | .error e => .error e
            | .ok (ys, r) => .ok ({ x with value := .arr (setElements els nums') } :: ys, r)
      else
        match normaliseArrays (i + 1) ru k xs with
        | .error e => .error e
        | .ok (ys, r) => .ok (x :: ys, r)
    | _ =>
      match normaliseArrays (i + 1) ru k xs with
      | .error e => .error e
      | .ok (ys, r) => .ok (x :: ys, r)

/-- Everything between validation and the implementation (`operators.py:165-207`): the inputs
for the implementation, the result unit, and the number type for the result. -/
def prepare (xs : List (Opd S U R)) :
    Except Raise (List (Opd S U R) × Option U × Option K) :=
  let ys := if op.convertIn then convertFrom c op 0 xs else xs
  let k := if op.convertIn then castOf c op xs else none
  match numbersFrom c op 0 ys with
  | some nums =>
    match c.normalise with
    | some f =>
      if op.unitsNormalise then
        match f nums op.unitsMulti op.unitsRelative with
        | .error e => .error e
        | .ok (nums', ru) => .ok (setNumbers ys nums', ru, k)
      else .ok (ys, none, k)
    | none => .ok (ys, none, k)
  | none => normaliseArrays c op 0 none k ys

/-- Restoring the original value and unit of an element (`operators.py:219-222`).  The
attributes stay on the object in the code; restoring again changes nothing. -/
def restore (x : Opd S U R) : Opd S U R :=
  match x.orig with
  | some (v, u) => ⟨v, u, x.ref, none⟩
  | none => x

/-- Building the result (`operators.py:209-229`). -/
def finishResult (ru : Option U) (k : Option K) (res : OpResult S U R) : Opd S U R :=
  let v := match res.value with
    | .sc x =>
      match k with
      | some k => if op.convertOut && c.isNumber x then .sc (c.setCast k x) else .sc x
      | none => .sc x
    | .arr xs => .arr (xs.map restore)
    | .exc e => .exc e
  ⟨v, res.unit.getD ru, res.ref.getD none, none⟩

/-- The block inside `try` (`operators.py:157-229`). -/
def attempt (xs : List (Opd S U R)) : Act σ (Opd S U R) := fun s =>
  match validate c op xs with
  | .error e => (.error e, s)
  | .ok () =>
    match prepare c op xs with
    | .error e => (.error e, s)
    | .ok (ys, ru, k) =>
      match op.ref ys s with
      | (.error e, s') => (.error e, s')
      | (.ok res, s') =>
        let r := finishResult c op ru k res
        (.ok r, op.after ys r s')

/-- `[op_input.to_string(calculator) for op_input in inputs]` (`operators.py:234`, `239`). -/
def showAll : List (Opd S U R) → Except Raise (List String)
  | [] => .ok []
  | x :: xs =>
    match c.toString x with
    | .error e => .error e
    | .ok t =>
      match showAll xs with
      | .error e => .error e
      | .ok ts => .ok (t :: ts)

/-- The handlers (`operators.py:231-240`). -/
def wrap (xs : List (Opd S U R)) (e : Raise) : Raise :=
  match e with
  | .calc m true => .calc m true
  | .calc m false => named ((", ".intercalate · ++ " - " ++ m)) true
  | .exec x => named ((", ".intercalate · ++ " - " ++ x.msg)) true
  | .py _ => named (", ".intercalate ·) false
where
  /-- The message with the inputs. -/
  named (f : List String → String) (wrapped : Bool) : Raise :=
    match showAll c xs with
    | .error e => e
    | .ok ts => .calc ("Could not execute " ++ op.name ++ " with parameters: " ++ f ts) wrapped

/-- The last branch of `call` (`operators.py:149-240`). -/
def callScalar (xs : List (Opd S U R)) : Act σ (Opd S U R) := fun s =>
  match (if op.canBeExc then none else xs.find? (fun x => x.value.err?.isSome)) with
  | some x => (.ok x, s)
  | none =>
    match attempt c op xs s with
    | (.ok r, s') => (.ok r, s')
    | (.error e, s') => (.error (wrap c op xs e), s')

/-- Whether an input is an array that the operation does not take as one
(`operators.py:71`). -/
def spread (i : ℕ) (x : Opd S U R) : Option (List (Opd S U R)) :=
  match x.value with
  | .arr xs =>
    if op.canBe i "array" || (x.ref.isSome && op.canBe i "variable") then none else some xs
  | _ => none

/-- The arrays to iterate over (`operators.py:69-72`), from input `i` on. -/
def spreads : ℕ → List (Opd S U R) → List (List (Opd S U R))
  | _, [] => []
  | i, x :: xs =>
    match spread op i x with
    | some l => l :: spreads (i + 1) xs
    | none => spreads (i + 1) xs

/-- The inputs for iteration `k` (`operators.py:90-97`), from input `i` on.  All arrays are
longer than `k`, so `none` of `l[k]?` is not reached. -/
def row (k : ℕ) : ℕ → List (Opd S U R) → List (Opd S U R)
  | _, [] => []
  | i, x :: xs =>
    (match spread op i x with
      | some l => (l[k]?).getD x
      | none => x) :: row k (i + 1) xs

/-- The inputs for iteration `k` in the second branch (`operators.py:131-138`). -/
def collect (k : ℕ) (xs : List (Opd S U R)) : List (Opd S U R) :=
  xs.map (fun x => match x.value with
    | .arr l => (l[k]?).getD x
    | _ => x)

/-- `len(lengths) > 1` (`operators.py:80-84`). -/
def sameLength (ls : List (List (Opd S U R))) : Bool :=
  match ls with
  | [] => true
  | l :: rest => rest.all (fun m => decide (m.length = l.length))

/-- The loop of the first branch (`operators.py:88-104`) over the iterations in `ks`: a
`CalculatorException` becomes an element. -/
def eachRow (f : List (Opd S U R) → Act σ (Opd S U R)) (mk : ℕ → List (Opd S U R)) :
    List ℕ → Act σ (List (Opd S U R))
  | [], s => (.ok [], s)
  | k :: ks, s =>
    match f (mk k) s with
    | (.error (.py m), s') => (.error (.py m), s')
    | (.error e, s') =>
      match eachRow f mk ks s' with
      | (.ok rs, s'') => (.ok (Opd.pure (.exc e) :: rs), s'')
      | (.error e', s'') => (.error e', s'')
    | (.ok r, s') =>
      match eachRow f mk ks s' with
      | (.ok rs, s'') => (.ok (r :: rs), s'')
      | (.error e', s'') => (.error e', s'')

/-- The loop of the second branch (`operators.py:129-143`) with at least one array. -/
def eachCollected (f : List (Opd S U R) → Act σ (Opd S U R)) (mk : ℕ → List (Opd S U R)) :
    List ℕ → Act σ (List (Opd S U R))
  | [], s => (.ok [], s)
  | k :: ks, s =>
    match f [Opd.pure (.arr (mk k))] s with
    | (.error e, s') => (.error e, s')
    | (.ok r, s') =>
      match r.value with
      | .arr _ =>
        (.error (.calc "Cannot pass multiple arrays to an operation that returns an array"), s')
      | _ =>
        match eachCollected f mk ks s' with
        | (.ok rs, s'') => (.ok (r :: rs), s'')
        | (.error e', s'') => (.error e', s'')

/-- `call` (`operators.py:67-240`) with at most `fuel` nested iterations over arrays.  In the
second branch the recursive call has one input, an array, which the operation takes: it goes
straight to the last branch, so the model calls that (`call_array` in
`Lemmas/Operation.lean` shows that it is the same). -/
def callF : ℕ → List (Opd S U R) → Act σ (Opd S U R)
  | fuel, xs, s =>
    match spreads op 0 xs with
    | l :: ls =>
      if sameLength (l :: ls) then
        match fuel with
        | 0 => (.error (.py "out of fuel"), s)
        | fuel + 1 =>
          match eachRow (callF fuel) (fun k => row op k 0 xs) (List.range l.length) s with
          | (.ok rs, s') => (.ok (Opd.pure (.arr rs)), s')
          | (.error e, s') => (.error e, s')
      else (.error (.calc "All array inputs must all be same length"), s)
    | [] =>
      if op.maxParams = some 1 ∧ op.mustBe 0 "array" none = true ∧ 1 < xs.length then
        let arrays := xs.filterMap (fun x => x.value.arr?)
        if sameLength arrays then
          match arrays with
          | [] => callScalar c op [Opd.pure (.arr (collect 0 xs))] s
          | l :: _ =>
            match eachCollected (callScalar c op) (fun k => collect k xs)
                (List.range l.length) s with
            | (.ok rs, s') => (.ok (Opd.pure (.arr rs)), s')
            | (.error e, s') => (.error e, s')
        else (.error (.calc "All array inputs must all be same length"), s)
      else callScalar c op xs s

mutual
/-- How deeply arrays are nested in a value. -/
def Val.depth : Val S U R → ℕ
  | .sc _ => 0
  | .exc _ => 0
  | .arr xs => depthList xs + 1
/-- The largest nesting in a list. -/
def depthList : List (OpdF (Val S U R) U R) → ℕ
  | [] => 0
  | x :: xs => max (depthOpd x) (depthList xs)
/-- How deeply arrays are nested in an operand. -/
def depthOpd : OpdF (Val S U R) U R → ℕ
  | ⟨v, _, _, _⟩ => v.depth
end

/-- `call` (`operators.py:67-240`).  The nesting of the inputs bounds the nested iterations
(`call_eq` in `Lemmas/Operation.lean`). -/
def call (xs : List (Opd S U R)) : Act σ (Opd S U R) := callF c op (depthList xs) xs

end

end MC
