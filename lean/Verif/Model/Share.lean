import Verif.Model.To

/-!
# Answers that are shown are finalized in place

`finalize` (`engine.py:324-337`) overwrites the value and the unit of the elements of the list it is given.
A list is the same object wherever it is held: in the array that was computed, in the variable it was
assigned to (`features/state/assignment.py:65-73`, `106-114`) and in the answers given earlier (`engine.py:66`).  The
elements of lists (`OperandResult`s, `objects/items.py:154-159`) are objects with addresses here.
Numbers and units are overwritten as a whole, so holding one is holding a copy.
-/

namespace MC.Share
open MC.Unit MC.Unit.To

/-- An `OperandResult`, and what a variable or an answer holds: a value that is not an array, with its unit,
or the addresses of the elements. -/
inductive Obj (S V : Type) where
  | one (v : S) (u : Option V)
  | list (els : List ℕ)
  deriving DecidableEq

/-- The objects. -/
abbrev Objs (S V : Type) := ℕ → Obj S V

/-- What `finalize` asks the calculator: `unit.no_simplify` and `unit_normaliser.simplify_units`
(`engine.py:332-334`). -/
structure Tidy (S V : Type) where
  keeps : V → Bool
  simplify : S → V → Except Raise (S × Option V)

variable {S V : Type} (ti : Tidy S V)

/-- Lines 332-334, for a value that is not an array; `on` is `unit_simplification`.  No feature installs a
finalizer (lines 335-336). -/
def tidy (on : Bool) (v : S) : Option V → Except Raise (S × Option V)
  | none => .ok (v, none)
  | some u => if on && !ti.keeps u then ti.simplify v u else .ok (v, some u)

/-- Overwriting an object. -/
def put (h : Objs S V) (a : ℕ) (x : Obj S V) : Objs S V := fun b => if b = a then x else h b

/-- A loop that stops at the first error, keeping what was overwritten before. -/
def each (f : ℕ → Objs S V → Except Raise Unit × Objs S V) : List ℕ → Objs S V → Except Raise Unit × Objs S V
  | [], h => (.ok (), h)
  | a :: as, h =>
    match f a h with
    | (.ok (), h') => each f as h'
    | (.error e, h') => (.error e, h')

/-- `finalize` on an element (`engine.py:324-337`).  The elements of lists are older than the lists, so that the
recursion ends; `fuel` bounds its depth, as Python does. -/
def finalizeAt (on : Bool) : ℕ → ℕ → Objs S V → Except Raise Unit × Objs S V
  | 0, _, h => (.error (.py "maximum recursion depth exceeded"), h)
  | n + 1, a, h =>
    match h a with
    | .list els => each (finalizeAt on n) els h                         -- 328-330
    | .one v u =>
      match tidy ti on v u with                                         -- 332-334
      | .ok (v', u') => (.ok (), put h a (.one v' u'))
      | .error e => (.error e, h)

/-- `finalize` on the answer itself, which is a new object. -/
def finalizeAnswer (on : Bool) (n : ℕ) (x : Obj S V) (h : Objs S V) : Except Raise (Obj S V) × Objs S V :=
  match x with
  | .list els =>
    match each (finalizeAt ti on n) els h with
    | (.ok (), h') => (.ok (.list els), h')
    | (.error e, h') => (.error e, h')
  | .one v u =>
    match tidy ti on v u with
    | .ok (v', u') => (.ok (.one v' u'), h)
    | .error e => (.error e, h)

/-- The objects, the variables (`self.vars`) and the answers given so far. -/
structure St (S V : Type) where
  objs : Objs S V
  /-- The addresses from here on are free. -/
  next : ℕ
  vars : String → Option (Obj S V)
  answers : List (Obj S V)

/-- A statement, by what executing it does: the objects it makes, its answer before `finalize`, and the variable it
assigns the answer to, if any (`assignment.py:65-73`); `on` is the setting of `unit_simplification` at that
time.  How the answer is computed is modelled elsewhere (`Model/Operation`, `Model/Engine`). -/
structure Stmt (S V : Type) where
  on : Bool
  made : List (Obj S V)
  answer : Obj S V
  target : Option String

/-- Objects made at the free addresses. -/
def make (h : Objs S V) (next : ℕ) (xs : List (Obj S V)) : Objs S V :=
  fun a => if a < next then h a else (xs[a - next]?).getD (h a)

/-- One turn of `calculate` (`engine.py:53-73`): execute, finalize, keep the answer.  An error ends the calculation; what was
assigned or overwritten before it stays. -/
def turn (n : ℕ) (t : Stmt S V) (s : St S V) : St S V :=
  let vars := match t.target with
    | none => s.vars
    | some x => fun y => if y = x then some t.answer else s.vars y
  match finalizeAnswer ti t.on n t.answer (make s.objs s.next t.made) with
  | (.ok x, h) => ⟨h, s.next + t.made.length, vars, s.answers ++ [x]⟩
  | (.error _, h) => ⟨h, s.next + t.made.length, vars, s.answers⟩

/-- A session. -/
def session (n : ℕ) (ts : List (Stmt S V)) (s : St S V) : St S V := ts.foldl (fun s t => turn ti n t s) s

section
variable {U D K : Type} [DecidableEq U] [DecidableEq D] [Field K] [DecidableEq K] (pw : K → ℚ → K) (N : Norm U D K)

/-- `simplify_units` (`unitnormaliser.py:194-263`) for numbers with units; the unit it returns is a new one. -/
def unitTidy (fuel : ℕ) : Tidy K (UnitObj U) where
  keeps o := o.keep
  simplify x o :=
    match simplifyUnits pw N fuel x o.list with
    | some (.ok (y, u)) => .ok (y, u.map (fun l => ⟨l, false⟩))
    | some (.error e) => .error e
    | none => .error (.py "out of steps")
end

end MC.Share
