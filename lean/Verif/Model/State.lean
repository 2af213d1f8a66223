import Verif.Model.Operation

/-!
# Model of the features in `features/state` and of user-defined functions

`S`, `U`, `K` are the scalars, units and number types of `Model/Operation.lean`.  A reference
is a variable or something else.  The state is the dictionary `calculator.vars` and the rest.

Objects are values here.  Setting `number_cast` on a result also changes a variable holding
that same object; where an operation stores its own result (compound assignments) the model
does that with `Operation.after`.  Other sharing of objects is the subject of
`Model/Heap.lean`.
-/

namespace MC

/-- The `ref` of an `OperandResult`: a `VariableItem` (`assignment.py:93-98`) or another
item. -/
inductive Ref where
  | var (name : String)
  | other
  deriving DecidableEq, Repr

/-- `calculator.vars`: name to value and unit. -/
abbrev Vars (S U : Type) := String → Option (Val S U Ref × Option U)

/-- The calculator's state: variables, and everything else. -/
structure St (S U τ : Type) where
  vars : Vars S U
  rest : τ

namespace State

variable {S U K τ : Type}

/-- `self.vars[n] = (v, u)`. -/
def setVar (s : St S U τ) (n : String) (v : Val S U Ref) (u : Option U) : St S U τ :=
  { s with vars := fun m => if m = n then some (v, u) else s.vars m }

/-- `VariableItem.value` (`assignment.py:106-114`); `nothing` is Python's `None`. -/
def readVar (nothing : S) (n : String) : Act (St S U τ) (Opd S U Ref) := fun s =>
  match s.vars n with
  | none => (.ok ⟨.sc nothing, none, some (.var n), none⟩, s)
  | some (v, u) => (.ok ⟨v, u, some (.var n), none⟩, s)

/-- `validate_variable` (`assignment.py:86-90`). -/
def validateVariable (x : Opd S U Ref) (_ : Option String) : Except Raise Bool :=
  match x.ref with
  | some (.var _) => .ok true
  | _ => .ok false

/-- `isinstance(refs[0], VariableItem)` and `refs[0].var`, else the exception of line 73. -/
def target (x : Opd S U Ref) : Except Raise String :=
  match x.ref with
  | some (.var n) => .ok n
  | some .other => .error (.exec ⟨"Expecting variable, received", 0, false⟩)
  | none => .error (.py "AttributeError")

/-- The restrictions of `=` and `||=` (`assignment.py:39`, `48`). -/
def setTypes : List Restriction :=
  [⟨0, some 0, [.ty "variable"]⟩, ⟨1, some 1, [.any, .ty "array"]⟩]

/-- `=` (`assignment.py:32-40`, `65-73`). -/
def opSet (stateless : Bool) : Operation S U Ref (St S U τ) where
  name := "operator ="
  minParams := some 2
  maxParams := some 2
  values := setTypes
  units := []
  unitsNormalise := false
  ref := fun xs s =>
    match xs with
    | x :: v :: _ =>
      match target x with
      | .error e => (.error e, s)
      | .ok n => (.ok ⟨v.value, some v.unit, none⟩, if stateless then s else setVar s n v.value v.unit)
    | _ => (.error (.py "IndexError"), s)

/-- `||=` (`assignment.py:41-49`, `75-84`). -/
def opSetIfEmpty (stateless : Bool) : Operation S U Ref (St S U τ) where
  name := "operator ||="
  minParams := some 2
  maxParams := some 2
  values := setTypes
  units := []
  unitsNormalise := false
  ref := fun xs s =>
    match xs with
    | x :: v :: _ =>
      match target x with
      | .error e => (.error e, s)
      | .ok n => (.ok ⟨v.value, some v.unit, none⟩,
          if stateless then s
          else if (s.vars n).isSome then s else setVar s n v.value v.unit)
    | _ => (.error (.py "IndexError"), s)

/-- `assignment_operator` (`assignmentoperators.py:137-149`) with the operation `op` found
under the symbol.  When stateless, `varname` is not assigned before line 145. -/
def assignmentOperator (c : Calc S U Ref K) (op : Operation S U Ref (St S U τ))
    (stateless : Bool) (x v : Opd S U Ref) : Act (St S U τ) (OpResult S U Ref) := fun s =>
  match target x with
  | .error e => (.error e, s)
  | .ok n =>
    if stateless then (.error (.py "UnboundLocalError"), s)
    else
      match s.vars n with
      | none => (.error (.py "KeyError"), s)
      | some (v0, u0) =>
        match call c op [⟨v0, u0, none, none⟩, v] s with
        | (.error e, s') => (.error e, s')
        | (.ok r, s') => (.ok ⟨r.value, some r.unit, none⟩, setVar s' n r.value r.unit)

/-- The result of a compound assignment is the object stored in the variable, so line 214 of
`operators.py` changes the variable as well. -/
def writeBack (stateless : Bool) (xs : List (Opd S U Ref)) (r : Opd S U Ref) (s : St S U τ) :
    St S U τ :=
  match xs with
  | x :: _ =>
    match target x with
    | .ok n => if stateless then s else setVar s n r.value r.unit
    | .error _ => s
  | [] => s

/-- `+=`, `-=`, `*=`, `/=`, `^=`, `%=`, `\=` (`assignmentoperators.py:46-108`, `116-135`). -/
def opCompound (c : Calc S U Ref K) (symbol : String) (op : Operation S U Ref (St S U τ))
    (stateless : Bool) : Operation S U Ref (St S U τ) where
  name := "operator " ++ symbol
  minParams := some 2
  maxParams := some 2
  values := [⟨0, some 0, [.ty "variable"]⟩, ⟨1, some 1, [.ty "number"]⟩]
  units := []
  unitsNormalise := false
  ref := fun xs s =>
    match xs with
    | x :: v :: _ => assignmentOperator c op stateless x v s
    | _ => (.error (.py "IndexError"), s)
  after := writeBack stateless

/-- `++` and `--` (`assignmentoperators.py:30-45`, `110-114`); `one` is `Number(1)`. -/
def opStep (c : Calc S U Ref K) (symbol : String) (op : Operation S U Ref (St S U τ)) (one : S)
    (stateless : Bool) : Operation S U Ref (St S U τ) where
  name := "operator " ++ symbol
  minParams := some 1
  maxParams := some 1
  values := [⟨0, some 0, [.ty "variable"]⟩]
  units := []
  ref := fun xs s =>
    match xs with
    | x :: _ => assignmentOperator c op stateless x ⟨.sc one, none, none, none⟩ s
    | _ => (.error (.py "IndexError"), s)
  after := writeBack stateless

/-- `reset` (`assignmentfunctions.py:30-37`, `47-49`). -/
def funcReset (nothing : S) : Operation S U Ref (St S U τ) where
  name := "reset"
  minParams := some 0
  maxParams := some 0
  values := []
  units := []
  ref := fun _ s => (.ok { value := .sc nothing }, { s with vars := fun _ => none })

/-- `delete` (`assignmentfunctions.py:38-45`, `51-57`). -/
def funcDelete (nothing : S) : Operation S U Ref (St S U τ) where
  name := "delete"
  minParams := some 1
  maxParams := some 1
  values := []
  units := []
  ref := fun xs s =>
    match xs with
    | x :: _ =>
      match target x with
      | .error e => (.error e, s)
      | .ok n =>
        match s.vars n with
        | none => (.error (.py "KeyError"), s)
        | some _ => (.ok { value := .sc nothing },
            { s with vars := fun m => if m = n then none else s.vars m })
    | _ => (.error (.py "IndexError"), s)

/-- `ConstantItem.value` (`constants.py:61-64`). -/
def readConstant (v : Val S U Ref) (u : Option U) : Act (St S U τ) (Opd S U Ref) := fun s =>
  (.ok ⟨v, u, some .other, none⟩, s)

/-! ## User-defined functions -/

/-- Setting `PARAM1`, `PARAM2`, ... (`inlinefunctions.py:145-146`,
`externalfunctions.py:111-112`), from number `i`. -/
def setParams : ℕ → List (Opd S U Ref) → St S U τ → St S U τ
  | _, [], s => s
  | i, x :: xs, s =>
    setParams (i + 1) xs (setVar s ("PARAM" ++ toString i) x.value x.unit)

/-- The statements of the body one after the other (`inlinefunctions.py:149-159`): the last
value, `none` if there was no statement.  `body` has an execution for each statement with
functional items. -/
def runBody : List (Act (St S U τ) (Opd S U Ref)) → Option (Opd S U Ref) →
    Act (St S U τ) (Option (Opd S U Ref))
  | [], last, s => (.ok last, s)
  | run :: rest, _, s =>
    match run s with
    | (.error e, s') => (.error e, s')
    | (.ok v, s') => runBody rest (some v) s'

/-- `InlineFunctionsPointerHandler.do_function` (`inlinefunctions.py:139-172`). -/
def doInline (body : List (Act (St S U τ) (Opd S U Ref))) (xs : List (Opd S U Ref)) :
    Act (St S U τ) (OpResult S U Ref) := fun s =>
  let backup := s.vars
  match runBody body none (setParams 1 xs s) with
  | (.error (.exec e), s') => (.error (.exec e), { s' with vars := backup })
  | (.error e, s') => (.error e, s')
  | (.ok none, s') => (.error (.py "AttributeError"), s')
  | (.ok (some v), s') =>
    match v.value with
    | .exc e => (.error e, { s' with vars := backup })
    | val => (.ok ⟨val, some v.unit, none⟩, { s' with vars := backup })

/-- `ExternalFunctionsPointerHandler.do_function` (`externalfunctions.py:104-128`).  `run`
is `calculate` on the file's text, with the value and unit of the last result; `none` if there
is no result (`api.py:5` raises `IndexError`). -/
def doExternal (run : Act (St S U τ) (Option (Val S U Ref × Option U)))
    (xs : List (Opd S U Ref)) : Act (St S U τ) (OpResult S U Ref) := fun s =>
  let backup := s.vars
  match run (setParams 1 xs { s with vars := fun _ => none }) with
  | (.error e, s') => (.error e, { s' with vars := backup })
  | (.ok none, s') => (.error (.py "IndexError"), { s' with vars := backup })
  | (.ok (some (v, u)), s') => (.ok ⟨v, some u, none⟩, { s' with vars := backup })

/-- The function made for a pointer (`inlinefunctions.py:125-137`; `externalfunctions.py:55-65`
with the restrictions of its first line). -/
def userFunc (name : String) (restrictions : List Restriction) (units : List (UnitRestriction U))
    (run : List (Opd S U Ref) → Act (St S U τ) (OpResult S U Ref)) :
    Operation S U Ref (St S U τ) where
  name := name
  minParams := none
  maxParams := none
  values := restrictions
  units := units
  unitsNormalise := false
  convertIn := false
  convertOut := false
  ref := run

end State

end MC
