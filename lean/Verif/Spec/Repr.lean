import Mathlib.Data.List.Basic

/-! # Calls of `Number` in Python, with texts as arguments -/

namespace MC.Spec

/-- The characters of a text that can stand between single quotes as they are. -/
def Quotable (t : List Char) : Prop := ∀ c ∈ t, c ≠ '\'' ∧ c ≠ '\\' ∧ c ≠ '\n'

/-- `text` is a call of `Number` with these texts as arguments. -/
inductive IsCall : List Char → List (List Char) → Prop
  | one {a} : Quotable a → IsCall ("Number('".toList ++ a ++ "')".toList) [a]
  | two {a b} : Quotable a → Quotable b →
      IsCall ("Number('".toList ++ a ++ "', '".toList ++ b ++ "')".toList) [a, b]

end MC.Spec
