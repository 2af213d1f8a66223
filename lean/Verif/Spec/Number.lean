import Verif.Model.Number

/-! What a stored number denotes, and what lowest terms means. -/

namespace MC.Number

/-- The rational number denoted. -/
def val (a : Number) : ℚ := a.num / a.den

/-- Lowest terms with positive denominator. -/
def Canonical (a : Number) : Prop := 0 < a.den ∧ Int.gcd a.num a.den = 1

/-- Numerator and denominator have at most `k` decimal digits. -/
def Digits (k : ℕ) (a : Number) : Prop := |a.num| < 10 ^ k ∧ |a.den| < 10 ^ k

end MC.Number

namespace MC

/-- `k` is the integer nearest to `x`, a tie being resolved away from zero. -/
def IsNearestInt (x : ℚ) (k : ℤ) : Prop :=
  (∀ j : ℤ, |x - k| ≤ |x - j|) ∧ ∀ j : ℤ, |x - j| = |x - k| → |j| ≤ |k|

/-- `x` can be written with at most `p` significant decimal digits. -/
def Representable (p : ℕ) (x : ℚ) : Prop := ∃ (m e : ℤ), x = m * 10 ^ e ∧ |m| < 10 ^ p

end MC
