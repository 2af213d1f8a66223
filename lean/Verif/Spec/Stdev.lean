import Mathlib.Analysis.Real.Sqrt
import Verif.Spec.Number
import Verif.Spec.Stats

/-! Specification of the standard deviation. -/

namespace MC.Spec

/-- The variance of a sample: the sum of the squared distances from the mean, divided by one less than the
number of values. -/
def varianceOf (l : List ℚ) : ℚ := (l.map (fun x => (x - meanOf l) ^ 2)).sum / ((l.length : ℚ) - 1)

/-- `r` has at most `p` digits, and no such number is nearer to the square root of `v`. -/
def IsNearestRoot (p : ℕ) (v r : ℚ) : Prop :=
  0 ≤ r ∧ Representable p r ∧ ∀ g : ℚ, Representable p g → |Real.sqrt v - r| ≤ |Real.sqrt v - g|

end MC.Spec
