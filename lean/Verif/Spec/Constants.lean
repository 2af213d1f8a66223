import Mathlib.Analysis.SpecialFunctions.Exp
import Mathlib.Analysis.SpecialFunctions.Trigonometric.Basic
import Verif.Spec.International

/-! # What the constants should be -/

namespace MC.Spec
open MC.Spec.International

/-- The mathematical constants. -/
noncomputable def mathematical : List (String × ℝ) :=
  [("e", Real.exp 1), ("pi", Real.pi), ("tau", 2 * Real.pi)]

/-- `q` has `k` decimal places, and no number with `k` decimal places is nearer to `x`. -/
def NearestDecimal (k : ℕ) (x : ℝ) (q : ℚ) : Prop :=
  (∃ m : ℤ, q = m / 10 ^ k) ∧ ∀ m : ℤ, |(q : ℝ) - x| ≤ |(m : ℝ) / 10 ^ k - x|

/-- The constants of nature, in base units: the speed of light and the constant of Planck (SI brochure, 2019) and the standard
acceleration of free fall (CGPM 1901), which have their value by definition, and the constant of gravitation, measured (CODATA
2014: 6.67408(31)). -/
def physical : List (String × Worth) :=
  [("speedoflight", ⟨299792458, [1, 0, -1, 0, 0, 0, 0, 0, 0, 0]⟩),
   ("Planck", ⟨662607015 / 10 ^ 42, [2, 1, -1, 0, 0, 0, 0, 0, 0, 0]⟩),
   ("earthgravity", ⟨980665 / 10 ^ 5, [1, 0, -2, 0, 0, 0, 0, 0, 0, 0]⟩),
   ("G", ⟨667408 / 10 ^ 16, [3, -1, -2, 0, 0, 0, 0, 0, 0, 0]⟩)]

end MC.Spec
