import Verif.Model.Bases

/-! # Specification: texts with a number in base ten or with a repeated base -/

namespace MC.Spec

/-- Somewhere in the text, in either case: `10z`, or a `z`, digits and another `z`. -/
def OddBase (text : List Char) : Prop :=
  ['1', '0', 'z'] <:+: lowerText text ∨
    ∃ ds : List Char, ds ≠ [] ∧ (∀ c ∈ ds, c.isDigit = true) ∧ ('z' :: ds ++ ['z']) <:+: lowerText text

end MC.Spec
