import Mathlib.Data.Rat.Defs
import Mathlib.Algebra.BigOperators.Group.List.Basic

/-! Specification of the statistics, independent of the model. -/

namespace MC.Spec

/-- The arithmetic mean. -/
def meanOf (l : List ℚ) : ℚ := l.sum / l.length

/-- `m` is the middle of the values put in order, or half the sum of the two in the middle. -/
def IsMedian (l : List ℚ) (m : ℚ) : Prop :=
  ∃ d : List ℚ, d.Perm l ∧ d.Pairwise (· ≤ ·) ∧
    ((∃ k, l.length = 2 * k + 1 ∧ d[k]? = some m) ∨
     (∃ k a b, l.length = 2 * k + 2 ∧ d[k]? = some a ∧ d[k + 1]? = some b ∧ m = (a + b) / 2))

/-- `m` occurs in `l`, nothing occurs more often, and what comes before its first occurrence
occurs less often. -/
def IsMode (l : List ℚ) (m : ℚ) : Prop :=
  ∃ before after, l = before ++ m :: after ∧ (∀ x ∈ l, l.count x ≤ l.count m) ∧
    ∀ x ∈ before, l.count x < l.count m

end MC.Spec
