import Mathlib.Analysis.SpecialFunctions.Pow.Real
import Verif.Model.Number

/-! # What is assumed of the powers of the library -/

namespace MC.Spec

/-- `powF`, the powers of `decimal`, when it gives an answer gives one to less than one unit of the last of `p` digits; asked
here only of bases from 1 and exponents from 0. -/
def AnswersPowers (p : ℕ) (powF : ℚ → ℚ → Except Err ℚ) : Prop :=
  ∀ x y q : ℚ, 1 ≤ x → 0 ≤ y → powF x y = .ok q → 0 < q ∧
    |(q : ℝ) - (x : ℝ) ^ (y : ℝ)| * 10 ^ p ≤ 10 * (x : ℝ) ^ (y : ℝ)

end MC.Spec
