import Verif.Model.Notation

/-! Specification for C91: what a conversion between notations does. -/

namespace MC.Spec
open MC.Notation

/-- `y` is the number of `x` with the same unit, to be shown in notation `k` (`none`: the plain decimal one). -/
structure SameNumber {U R : Type} (n : Number) (x y : Opd Scal U R) (k : Option Cast) : Prop where
  value : y.value = .sc (.num ⟨n, k, none⟩)
  unit : y.unit = x.unit

/-- The notation a user asks for by the name of a number type. -/
def asked : NumType → Option Cast
  | .decimal => none
  | .scientific => some .scientific
  | .percentage => some .percentage
  | .binary => some .binary
  | .octal => some .octal
  | .hexadecimal => some .hexadecimal
  | .arbitrary => none

/-- The rational `x` can be written exactly in the notation, with at most `prec` places, and is not too long for `p`
digits. -/
def Writable (p prec : ℕ) : NumType → ℚ → Prop
  | .decimal, x => ∃ k : ℤ, x = k / 10 ^ prec ∧ 10 ^ (prec + 1) * |x.num| < 10 ^ p
  | .percentage, x => ∃ k : ℤ, x * 100 = k / 10 ^ prec ∧ 10 ^ (prec + 3) * |x.num| < 10 ^ p ∧
      (x.den : ℤ) * 100 < 10 ^ p
  | .scientific, x => ∃ m k : ℤ, x = m * 10 ^ k ∧ |m| < 10 ^ (prec + 1) ∧
      (x = 0 ∨ ((10:ℚ) ^ (-(p - prec - 1 : ℤ)) ≤ |x| ∧ |x| < 10 ^ (p - prec : ℤ)))
  | .binary, x => ∃ (z : ℤ) (k : ℕ), k ≤ prec ∧ x = z / 2 ^ k ∧ 5 * (2 * z.natAbs * 2 ^ k) < 10 ^ p
  | .octal, x => ∃ (z : ℤ) (k : ℕ), k ≤ prec ∧ x = z / 8 ^ k ∧ 5 * (8 * z.natAbs * 8 ^ k) < 10 ^ p
  | .hexadecimal, x => ∃ (z : ℤ) (k : ℕ), k ≤ prec ∧ x = z / 16 ^ k ∧ 5 * (16 * z.natAbs * 16 ^ k) < 10 ^ p
  | .arbitrary, _ => False

/-- `y` is `x` rounded to `digits` significant digits: it has that many, and `x` is at most half a unit of the last one
away. -/
def RoundedTo (digits : ℕ) (x y : ℚ) : Prop :=
  ∃ m e : ℤ, y = m * 10 ^ e ∧ 10 ^ (digits - 1) ≤ |m| ∧ |m| < 10 ^ digits ∧ |y - x| ≤ 10 ^ e / 2

end MC.Spec
