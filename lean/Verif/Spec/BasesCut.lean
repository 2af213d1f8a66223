import Verif.Spec.Bases
import Verif.Model.Number

/-! What it means to show a number cut off after some places (C98). -/

namespace MC

/-- The digits `ip.fp` in base `b` are `v` cut off after `prec` places: there is a whole part
without zeros in front, at most `prec` places without a zero at the end, and the number written is
`v` or less than one in the last place below it. -/
structure CutOff (b prec : ℕ) (v : ℚ) (ip fp : List ℕ) : Prop where
  whole : ip ≠ []
  noLeading : ip.length = 1 ∨ ip.head? ≠ some 0
  places : fp.length ≤ prec
  noTrailing : fp.getLast? ≠ some 0
  below : positionalQ b ip fp ≤ v
  close : v < positionalQ b ip fp + 1 / (b:ℚ) ^ prec

/-- A minus sign if the number is negative, the prefix, and the digits; a point if `point`. -/
def basedWith (pre : List Char) (neg : Bool) (ics fcs : List Char) (point : Bool) : List Char :=
  (if neg then ['-'] else []) ++ pre ++ ics ++ (if point then '.' :: fcs else [])

/-- The fraction is small enough for the working precision `p`: everything worked out on the way
to its digits in base `b`, and back, is exact. -/
def FitsBase (p b prec : ℕ) (a : Number) : Prop :=
  5 * (b * a.num.natAbs * a.den.natAbs) < 10 ^ p ∧
  5 * (a.den.natAbs * b * (a.den.natAbs * b ^ prec)) < 10 ^ p ∧
  (a.num.natAbs + 1) * b ^ (2 * prec) < 10 ^ p

/-- The fraction part of a number is there, but shorter than one in the last place. -/
def FractionLost (b prec : ℕ) (a : Number) : Prop :=
  0 < Int.fract |a.val| ∧ Int.fract |a.val| < 1 / (b:ℚ) ^ prec

end MC
