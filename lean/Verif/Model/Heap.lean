import Verif.Model.Numerical

/-!
# Numbers as objects

`Model/Operation.lean` treats numbers as values.  In the code a `Number` is an object with an
attribute `number_cast`, its display type (`number.py:15-16`), and `call` sets that attribute on
the object an implementation returns (`operators.py:213-214`).  If that object is also stored in a
variable, the variable's display changes.  This file models that.

An object that is stored in a variable has an address.  An object that is not is used once, by the
operation that consumes it, so it is modelled as a value (`new`).  Attributes other than
`number_cast` are never assigned after the object is made (`num` and `den` only in `__init__`,
`number.py:15-53`), and `number_cast` is assigned only there and to copies
(`decimalnumbers.py:64,77`, `hexadecimalnumbers.py:90`, `octalnumbers.py:90`,
`binarynumbers.py:95`, `arbitrarybasenumbers.py:81`, `expnumbers.py:148`,
`percentagenumbers.py:76,83`).  Units and lists are values here.
-/

namespace MC.Heap

variable {K U R σ : Type}

/-- A number object with an address: its number and its `number_cast` (`number.py:15-16`). -/
structure Cell (K : Type) where
  num : Number
  cast : Option K
  deriving DecidableEq

/-- A scalar: a number object stored somewhere, a number object stored nowhere, a boolean. -/
inductive HS (K : Type) where
  | obj (a : ℕ)
  | new (n : Number) (k : Option K)
  | flag (b : Bool)
  deriving DecidableEq

/-- The calculator's variables (`assignment.py:55`), whose numbers are objects. -/
structure HSt (K U R : Type) where
  heap : List (Cell K)
  vars : String → Option (Val (HS K) U R × Option U)

/-- The number of an object. -/
def numIn (heap : List (Cell K)) : HS K → Option Number
  | .obj a => heap[a]?.map Cell.num
  | .new n _ => some n
  | .flag _ => none

/-- `x.number_cast`. -/
def castIn (heap : List (Cell K)) : HS K → Option K
  | .obj a => heap[a]?.bind Cell.cast
  | .new _ k => k
  | .flag _ => none

/-- `x.number_cast = k` (`operators.py:214`). -/
def assignCast (x : HS K) (k : K) (s : HSt K U R) : HSt K U R :=
  match x with
  | .obj a => { s with heap := s.heap.modify a (fun c => { c with cast := some k }) }
  | _ => s

section call
variable (c : HSt K U R → Calc (HS K) U R K) (op : Operation (HS K) U R (HSt K U R))

/-- The block inside `try` (`operators.py:157-229`): as `MC.attempt`, with the calculator of the
current state, and with the assignment to `number_cast` (`213-214`) made to the object. -/
def attemptH (xs : List (Opd (HS K) U R)) : Act (HSt K U R) (Opd (HS K) U R) := fun s =>
  match validate (c s) op xs with
  | .error e => (.error e, s)
  | .ok () =>
    match prepare (c s) op xs with
    | .error e => (.error e, s)
    | .ok (ys, ru, k) =>
      match op.ref ys s with
      | (.error e, s') => (.error e, s')
      | (.ok res, s') =>
        (.ok (finishResult (c s) op ru k res),
          match res.value, k with
          | .sc x, some k => if op.convertOut && (c s).isNumber x then assignCast x k s' else s'
          | _, _ => s')

/-- The last branch of `call` (`operators.py:149-240`), as `MC.callScalar`. -/
def callScalarH (xs : List (Opd (HS K) U R)) : Act (HSt K U R) (Opd (HS K) U R) := fun s =>
  match (if op.canBeExc then none else xs.find? (fun x => x.value.err?.isSome)) with
  | some x => (.ok x, s)
  | none =>
    match attemptH c op xs s with
    | (.ok r, s') => (.ok r, s')
    | (.error e, s') => (.error (wrap (c s') op xs e), s')

/-- `call` (`operators.py:67-240`), as `MC.callF`. -/
def callFH : ℕ → List (Opd (HS K) U R) → Act (HSt K U R) (Opd (HS K) U R)
  | fuel, xs, s =>
    match spreads op 0 xs with
    | l :: ls =>
      if sameLength (l :: ls) then
        match fuel with
        | 0 => (.error (.py "out of fuel"), s)
        | fuel + 1 =>
          match eachRow (callFH fuel) (fun k => row op k 0 xs) (List.range l.length) s with
          | (.ok rs, s') => (.ok (Opd.pure (.arr rs)), s')
          | (.error e, s') => (.error e, s')
      else (.error (.calc "All array inputs must all be same length"), s)
    | [] =>
      if op.maxParams = some 1 ∧ op.mustBe 0 "array" none = true ∧ 1 < xs.length then
        let arrays := xs.filterMap (fun x => x.value.arr?)
        if sameLength arrays then
          match arrays with
          | [] => callScalarH c op [Opd.pure (.arr (collect 0 xs))] s
          | l :: _ =>
            match eachCollected (callScalarH c op) (fun k => collect k xs)
                (List.range l.length) s with
            | (.ok rs, s') => (.ok (Opd.pure (.arr rs)), s')
            | (.error e, s') => (.error e, s')
        else (.error (.calc "All array inputs must all be same length"), s)
      else callScalarH c op xs s

/-- `call` (`operators.py:67-240`). -/
def callH (xs : List (Opd (HS K) U R)) : Act (HSt K U R) (Opd (HS K) U R) :=
  callFH c op (depthList xs) xs

end call

/-- An operation on numbers, reading them from the heap.  `mk` is one of the definitions in
`Model/Arrays.lean` or `Model/Numerical.lean`, which take the function that reads a number; only
the implementation uses it. -/
def onHeap (mk : (HS K → Option Number) → Operation (HS K) U R (HSt K U R)) :
    Operation (HS K) U R (HSt K U R) :=
  { mk (fun _ => none) with ref := fun xs s => (mk (numIn s.heap)).ref xs s }

/-- `VariableItem.value` (`assignment.py:100-108`): the stored object itself.  A variable without
a value gives `None`, which is not modelled here: an error. -/
def readVar (name : String) : Act (HSt K U R) (Opd (HS K) U R) := fun s =>
  match s.vars name with
  | some (v, u) => (.ok ⟨v, u, none, none⟩, s)
  | none => (.error (.calc "no value"), s)

end MC.Heap
