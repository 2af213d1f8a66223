import Verif.Model.Share
import Verif.Spec.Units

/-! # What a variable holds, as seen by indexing it -/

namespace MC.Spec
open MC.Share MC.Unit MC.Unit.To MC.Unit.Spec
variable {S V : Type}

/-- The element at some indices (from 0): `[]` for a value that is not an array, `[i]` for an element of an array,
`[i, j]` for an element of an element, ... -/
def part (h : Objs S V) : Obj S V → List ℕ → Option (S × Option V)
  | .one v u, [] => some (v, u)
  | .one _ _, _ :: _ => none
  | .list _, [] => none
  | .list els, i :: is => match els[i]? with
    | none => none
    | some a => part h (h a) is

/-- Every address held is in use. -/
def InUse (s : St S V) : Prop :=
  (∀ a < s.next, ∀ els, s.objs a = .list els → ∀ b ∈ els, b < s.next) ∧
  (∀ x o els, s.vars x = some o → o = .list els → ∀ b ∈ els, b < s.next) ∧
  ∀ o ∈ s.answers, ∀ els, o = .list els → ∀ b ∈ els, b < s.next

/-- The same quantity: nothing changes without a unit, or with a unit asked for by `to`; otherwise the number times the
size of the unit is the same, unless there is a temperature (dimension `t`). -/
def KeptQuantity {U D K : Type} [DecidableEq U] [DecidableEq D] [Field K] (pw : K → ℚ → K) (N : Norm U D K) (t : D)
    (x y : K × Option (UnitObj U)) : Prop :=
  match x.2 with
  | none => y = x
  | some o => if o.keep then y = x else Without N t o.list →
      quantity pw N (y.1, y.2.map (·.list)) = quantity pw N (x.1, some o.list) ∧ ∀ o' ∈ y.2, Without N t o'.list

end MC.Spec
