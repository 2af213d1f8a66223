import Verif.Spec.Units

/-!
# Where a value lies on the scale of its dimension

20 degrees Celsius and 68 degrees Fahrenheit are the same point on the scale of temperatures, 293.15 kelvin.
-/

namespace MC.Unit.Spec

variable {U D K : Type} [DecidableEq U] [DecidableEq D] [Field K]

/-- The point on the scale of the dimension, in base units: for a temperature in degrees Celsius or Fahrenheit the kelvins above
absolute zero, for anything else the value times the size of the unit. -/
def level (pw : K → ℚ → K) (N : Norm U D K) (x : K × Option (PL U)) : K :=
  match x.2 with
  | some [(u, p)] =>
    if p = 1 then
      match (N.info u).kind with
      | .scale => quantity pw N x
      | .celsius => x.1 + 27315 / 100
      | .fahrenheit => (x.1 + 45967 / 100) * (5 / 9)
    else quantity pw N x
  | _ => quantity pw N x

/-- The values of this unit are points on a scale: the unit is a product of powers of units proportional to base units, or one
unit (a temperature may be in degrees, but not part of a product). -/
def OnScale (N : Norm U D K) (l : PL U) : Prop := Proportional N false l ∨ ∃ u, l = [(u, 1)]

/-- `m` is the middle of the values put in order, or half the sum of the two in the middle. -/
def IsMiddle [LE K] (l : List K) (m : K) : Prop :=
  ∃ d : List K, d.Perm l ∧ d.Pairwise (· ≤ ·) ∧
    ((∃ k, l.length = 2 * k + 1 ∧ d[k]? = some m) ∨
     (∃ k a b, l.length = 2 * k + 2 ∧ d[k]? = some a ∧ d[k + 1]? = some b ∧ m = (a + b) / 2))

end MC.Unit.Spec
