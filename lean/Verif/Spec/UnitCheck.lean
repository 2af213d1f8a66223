import Verif.Spec.Units

/-!
# What it means to require a dimension
-/

namespace MC.Unit.Spec

variable {U D K : Type} [DecidableEq D]

/-- The power of a base dimension in a dimension. -/
def baseDim (N : Norm U D K) (dim d : D) : ℚ :=
  match N.rel dim with
  | some l => total l d
  | none => if dim = d then 1 else 0

/-- The power of a base dimension in a product of powers of dimensions. -/
def required (N : Norm U D K) (relationship : PL D) (d : D) : ℚ :=
  (relationship.map (fun o => o.2 * baseDim N o.1 d)).sum

/-- The unit has the dimension that is required. -/
def HasDimension [DecidableEq U] [Field K] (N : Norm U D K) (unit : Option (PL U)) (relationship : PL D) : Prop :=
  ∃ l, unit = some l ∧ ∀ d, dimOf N l d = required N relationship d

end MC.Unit.Spec
