import Verif.Spec.Number

/-! # What rounding to places, factorials and common divisors are -/

namespace MC.Spec

/-- `r` has at most `n` places in base `b`. -/
def HasPlaces (b n : ℕ) (r : ℚ) : Prop := ∃ k : ℤ, r * (b : ℚ) ^ n = k

/-- `r` is the greatest number with `n` places not above `x`. -/
def IsFloorAt (b n : ℕ) (x r : ℚ) : Prop :=
  HasPlaces b n r ∧ r ≤ x ∧ ∀ g, HasPlaces b n g → g ≤ x → g ≤ r

/-- `r` is the least number with `n` places not below `x`. -/
def IsCeilAt (b n : ℕ) (x r : ℚ) : Prop :=
  HasPlaces b n r ∧ x ≤ r ∧ ∀ g, HasPlaces b n g → x ≤ g → r ≤ g

/-- `r` is the number with `n` places nearest to `x`, a tie being resolved away from zero. -/
def IsRoundAt (b n : ℕ) (x r : ℚ) : Prop :=
  HasPlaces b n r ∧ (∀ g, HasPlaces b n g → |x - r| ≤ |x - g|) ∧
    ∀ g, HasPlaces b n g → |x - g| = |x - r| → |g| ≤ |r|

/-- `d` divides both, and every number that divides both divides `d`. -/
def IsGreatestDivisor (a b : ℤ) (d : ℕ) : Prop :=
  (d : ℤ) ∣ a ∧ (d : ℤ) ∣ b ∧ ∀ e : ℤ, e ∣ a → e ∣ b → e ∣ d

/-- Both divide `m`, and `m` divides every number that both divide. -/
def IsLeastMultiple (a b : ℤ) (m : ℕ) : Prop :=
  a ∣ m ∧ b ∣ m ∧ ∀ e : ℤ, a ∣ e → b ∣ e → (m : ℤ) ∣ e

end MC.Spec
