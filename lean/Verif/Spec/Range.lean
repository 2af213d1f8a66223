import Mathlib.Data.Rat.Defs
import Mathlib.Algebra.Order.Ring.Rat

/-! # Specification: arithmetic progressions -/

namespace MC.Spec

/-- `l` lists, in order, exactly those of `a`, `a + s`, `a + 2 s`, ... that are not beyond `b`
in the direction of `s`. -/
def IsRange (a b s : ℚ) (l : List ℚ) : Prop :=
  ∀ (k : ℕ) (x : ℚ), l[k]? = some x ↔ x = a + k * s ∧ (0 < s ∧ x ≤ b ∨ s < 0 ∧ b ≤ x)

end MC.Spec
