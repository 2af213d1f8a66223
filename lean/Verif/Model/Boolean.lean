import Verif.Model.Operation

/-!
# Model of the operators in `features/boolean/booleans.py`

Booleans are among the scalars: `asBool` recognises them (`type(val) == bool`,
`booleans.py:192-195`), `ofBool` makes them.
-/

namespace MC.Boolean

variable {S U R σ : Type} (asBool : S → Option Bool) (ofBool : Bool → S)

/-- `boolean` (`booleans.py:192-195`). -/
def boolean (x : Opd S U R) : Except Raise Bool :=
  match x.value with
  | .sc v =>
    match asBool v with
    | some b => .ok b
    | none => .error (.calc "Cannot cast to boolean")
  | _ => .error (.calc "Cannot cast to boolean")

/-- `validate_boolean` (`booleans.py:197-202`). -/
def validateBoolean (x : Opd S U R) (_ : Option String) : Except Raise Bool :=
  match boolean asBool x with
  | .ok _ => .ok true
  | .error _ => .ok false

/-- `validate_exception` (`engine.py:339-340`). -/
def validateException (x : Opd S U R) (_ : Option String) : Except Raise Bool :=
  .ok x.value.err?.isSome

/-- Two inputs, as `validate` guarantees; `IndexError` otherwise. -/
def two (f : Opd S U R → Opd S U R → Except Raise (OpResult S U R)) (xs : List (Opd S U R)) :
    Act σ (OpResult S U R) := fun s =>
  match xs with
  | a :: b :: _ => (f a b, s)
  | _ => (.error (.py "IndexError"), s)

/-- The restrictions of `and`, `or` and `xor` (`booleans.py:104`, `operators.py:388-389`). -/
def logicTypes : List Restriction :=
  [⟨0, some 0, [.ty "boolean"]⟩, ⟨1, some 1, [.ty "boolean", .ty "exception"]⟩]

/-- `and` (`booleans.py:97-105`, `172-173`). -/
def opAnd : Operation S U R σ where
  name := "operator and"
  minParams := some 2
  maxParams := some 2
  values := logicTypes
  units := []
  canBeExc := true
  ref := two (fun a b =>
    match boolean asBool a with
    | .error e => .error e
    | .ok false => .ok { value := .sc (ofBool false) }
    | .ok true =>
      match boolean asBool b with
      | .error e => .error e
      | .ok y => .ok { value := .sc (ofBool y) })

/-- `or` (`booleans.py:107-115`, `175-176`). -/
def opOr : Operation S U R σ where
  name := "operator or"
  minParams := some 2
  maxParams := some 2
  values := logicTypes
  units := []
  canBeExc := true
  ref := two (fun a b =>
    match boolean asBool a with
    | .error e => .error e
    | .ok true => .ok { value := .sc (ofBool true) }
    | .ok false =>
      match boolean asBool b with
      | .error e => .error e
      | .ok y => .ok { value := .sc (ofBool y) })

/-- `xor` (`booleans.py:117-125`, `178-179`). -/
def opXor : Operation S U R σ where
  name := "operator xor"
  minParams := some 2
  maxParams := some 2
  values := logicTypes
  units := []
  canBeExc := true
  ref := two (fun a b =>
    match boolean asBool a with
    | .error e => .error e
    | .ok x =>
      match boolean asBool b with
      | .error e => .error e
      | .ok y => .ok { value := .sc (ofBool (x != y)) })

/-- `then ... else` (`booleans.py:127-135`, `181-190`). -/
def opThen : Operation S U R σ where
  name := "operator then"
  minParams := some 3
  maxParams := some 3
  values := [⟨0, some 0, [.ty "boolean"]⟩]
  units := []
  unitsNormalise := false
  canBeExc := true
  ref := fun xs s =>
    match xs with
    | a :: b :: d :: _ =>
      match boolean asBool a with
      | .error e => (.error e, s)
      | .ok true => (.ok ⟨b.value, some b.unit, some b.ref⟩, s)
      | .ok false => (.ok ⟨d.value, some d.unit, some d.ref⟩, s)
    | _ => (.error (.py "IndexError"), s)

/-- `not` (`booleans.py:33-41`, `151-152`). -/
def opNot : Operation S U R σ where
  name := "operator not"
  minParams := some 1
  maxParams := some 1
  values := [⟨0, none, [.ty "boolean"]⟩]
  units := []
  ref := fun xs s =>
    match xs with
    | a :: _ =>
      match boolean asBool a with
      | .error e => (.error e, s)
      | .ok b => (.ok { value := .sc (ofBool (!b)), unit := some none }, s)
    | _ => (.error (.py "IndexError"), s)

end MC.Boolean
