import Verif.Spec.Number

/-! What a well-formed displayed decimal looks like. -/

namespace MC

/-- Optional minus, digits without superfluous leading zeros, and optionally a point
followed by at most `n` digits, the last of which is not 0. -/
def WellFormedDecimal (n : ℕ) (t : List Char) : Prop :=
  ∃ sign ip fp : List Char, t = sign ++ ip ++ fp ∧ (sign = [] ∨ sign = ['-']) ∧
    ip ≠ [] ∧ (∀ c ∈ ip, c.isDigit) ∧ (ip.head? ≠ some '0' ∨ ip = ['0']) ∧
    (fp = [] ∨ ∃ ds : List Char, fp = '.' :: ds ∧ ds ≠ [] ∧ ds.length ≤ n ∧ (∀ c ∈ ds, c.isDigit) ∧
      ds.getLast? ≠ some '0')

end MC
