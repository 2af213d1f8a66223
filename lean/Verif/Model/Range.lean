import Verif.Model.Number
import Verif.Model.Engine

/-!
# Model of array literals: `ArrayElement.value` and `ArrayItem.value` in
`features/arrays/arrays.py`

Evaluating the expressions inside an element is an action on the calculator's state; what it
may raise it raises here too.  `state['items']` (only used for the position in error messages)
is not modelled.
-/

namespace MC.Range

/-- The value of an operand, as far as ranges tell values apart. -/
inductive RVal where
  /-- a `Number` -/
  | num (n : Number)
  /-- not a `Number`, but `validate_number` accepts it (`engine.py:326-331`): a string that can
  be read as a number, a boolean, ... -/
  | castable
  /-- an `ExecuteException` as a value -/
  | err (e : ExecErr)
  /-- anything else -/
  | other
  deriving DecidableEq, Repr

/-- `OperandResult` (`items.py:154-159`). -/
structure RRes (U : Type) where
  value : RVal
  unit : Option U
  deriving DecidableEq, Repr

/-- Errors of number arithmetic (`decimal`/`number.py`) as raised exceptions. -/
def lift {α : Type} : Except Err α → Except Raise α
  | .ok x => .ok x
  | .error (.py m) => .error (.py m)
  | .error (.calc m) => .error (.calc m)
  | .error (.exec m) => .error (.calc m)

variable {U σ : Type} (p : ℕ)

/-- The loop condition (`arrays.py:258`). -/
def more (stop step n : Number) : Bool :=
  (decide (0 < step.toDecimal p) && n.le p stop) ||
  (decide (step.toDecimal p < 0) && n.ge p stop)

/-- The loop (`arrays.py:256-260`) for at most `fuel` rounds; `none` if it is not over then. -/
def rangeLoop (stop step : Number) : ℕ → Number → Option (Except Raise (List Number))
  | fuel, n =>
    if more p stop step n then
      match fuel with
      | 0 => none
      | fuel + 1 =>
        match lift (n.add p step) with
        | .error e => some (.error e)
        | .ok n' => (rangeLoop stop step fuel n').map (fun r => r.map (fun l => n :: l))
    else some (.ok [])

/-- Lines 253-261, once start, end and step are numbers in the same unit. -/
def progression (fuel : ℕ) (start stop step : Number) : Option (Except Raise (List Number)) :=
  match lift (do (← stop.sub p start).mul p step) with
  | .error e => some (.error e)
  | .ok d =>
    if d.toDecimal p < 0 then some (.error (.exec ⟨"Can't get from", 0, false⟩))
    else rangeLoop p stop step fuel start

/-- The message of lines 245 and 248. -/
def unitMessage : String :=
  "Arrays with range must have a consistent unit for the start, end and step components"

/-- One round of the loop in lines 246-251: convert the end or the step to the unit of the
start.  `conv` is `normalise_inputs([start, x], [unit of start, unit of x], True, False)[0][1]`. -/
def unify (conv : Number × U → Number × U → Except Raise Number) (start : Number)
    (unit : U) (x : Number × Option U) : Except Raise Number :=
  match x.2 with
  | none => .error (.exec ⟨unitMessage, 0, false⟩)
  | some w => conv (start, unit) (x.1, w)

/-- Lines 243-251. -/
def unifyAll (conv : Number × U → Number × U → Except Raise Number)
    (start stop step : Number × Option U) : Except Raise (Number × Number) :=
  if start.2.isSome || stop.2.isSome || step.2.isSome then
    match start.2 with
    | none => .error (.exec ⟨unitMessage, 0, false⟩)
    | some u => do
      let b ← unify conv start.1 u stop
      let s ← unify conv start.1 u step
      return (b, s)
  else .ok (stop.1, step.1)

/-- Lines 213-216, 223-226 and 237-240: the value of a component of a range.  The middle
alternative is not a `Number` although it was accepted. -/
def component (x : RRes U) : Except Raise (Option Number) :=
  match x.value with
  | .num n => .ok (some n)
  | .castable => .ok none
  | .err e => .error (.exec e)
  | .other => .error (.exec ⟨"Arrays with range must be numerical", 0, false⟩)

/-- Lines 253-261 with the unit of the start. -/
def rangeFinish (conv : Number × U → Number × U → Except Raise Number) (fuel : ℕ)
    (start stop step : Number × Option U) : Option (Except Raise (List (RRes U))) :=
  match unifyAll conv start stop step with
  | .error e => some (.error e)
  | .ok (b, s) =>
    (progression p fuel start.1 b s).map (fun r => r.map (fun l => l.map (fun n => ⟨.num n, start.2⟩)))

/-- The default step (`arrays.py:231-233`): 1 or -1 in the unit of the start. -/
def defaultStep (start stop : Number × Option U) : Number × Option U :=
  (if stop.1.lt p start.1 then ⟨-1, 1⟩ else ⟨1, 1⟩, start.2)

/-- `ArrayElement.value` (`arrays.py:211-261`).  Comparing an accepted value that is not a
`Number` with a `Number`, or calculating with it, raises an error of Python (232, 249-253); the
model raises it at 232, or at 253 if only the step is such a value.  (Two strings, or two
booleans, as start and end do compare; they fail at 253, or in the unit check before.) -/
def elementValue (conv : Number × U → Number × U → Except Raise Number) (fuel : ℕ)
    (start : Act σ (RRes U)) (stop step : Option (Act σ (RRes U))) (s : σ) :
    Option (Except Raise (List (RRes U)) × σ) :=
  match start s with
  | (.error e, s) => some (.error e, s)
  | (.ok x, s) =>
    match stop with
    | none =>
      match x.value with
      | .err e => some (.error (.exec e), s)                         -- 213-214
      | _ => some (.ok [x], s)                                       -- 229
    | some stop =>
      match component x with
      | .error e => some (.error e, s)
      | .ok a =>
        match stop s with
        | (.error e, s) => some (.error e, s)
        | (.ok y, s) =>
          match component y with
          | .error e => some (.error e, s)
          | .ok b =>
            match a, b with
            | some a, some b =>
              match step with
              | none =>
                let st := defaultStep p (a, x.unit) (b, y.unit)
                (rangeFinish p conv fuel (a, x.unit) (b, y.unit) st).map (fun r => (r, s))
              | some step =>
                match step s with
                | (.error e, s) => some (.error e, s)
                | (.ok z, s) =>
                  match component z with
                  | .error e => some (.error e, s)
                  | .ok none => some (.error (.py "AttributeError"), s)
                  | .ok (some c) =>
                    (rangeFinish p conv fuel (a, x.unit) (b, y.unit) (c, z.unit)).map (fun r => (r, s))
            | _, _ => some (.error (.py "AttributeError"), s)

end MC.Range
