import Verif.Model.ArrayLit

/-!
# The elements of an array, one after the other
-/

namespace MC.Spec

/-- Elements, separated by commas. -/
inductive Commas : List (List Parse.Item) → List Parse.Item → Prop
  | last {e} : Commas [e] e
  | more {e es t its} : Commas es its → Commas (e :: es) (e ++ .leaf .arrParam t :: its)

/-- The elements are run one after the other, each where the one before it left off. -/
inductive InOrder {σ V : Type} (run : List Parse.Item → Act σ V) : List (List Parse.Item) → σ → List V → σ → Prop
  | nil {s} : InOrder run [] s [] s
  | cons {e es s x s' xs s''} : run e s = (.ok x, s') → InOrder run es s' xs s'' → InOrder run (e :: es) s (x :: xs) s''

/-- The element has no brackets, commas, ranges or steps of the array itself. -/
def Single (e : List Parse.Item) : Prop :=
  ∀ t, ∀ k ∈ [Parse.Kind.arrStart, .arrEnd, .arrRange, .arrStep, .arrParam], Parse.Item.leaf k t ∉ e

end MC.Spec
