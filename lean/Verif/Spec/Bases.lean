import Verif.Spec.Number
import Mathlib.Data.Nat.Digits.Defs

/-! Positional notation. -/

namespace MC

/-- The value of a digit character, in either case. -/
def digitValue (c : Char) : Option ℕ :=
  if '0' ≤ c ∧ c ≤ '9' then some (c.toNat - 48)
  else if 'A' ≤ c ∧ c ≤ 'Z' then some (c.toNat - 55)
  else if 'a' ≤ c ∧ c ≤ 'z' then some (c.toNat - 87)
  else none

/-- `cs` are digits of base `b` with values `ds`. -/
def DigitsAre (b : ℕ) (cs : List Char) (ds : List ℕ) : Prop :=
  List.Forall₂ (fun c d => digitValue c = some d ∧ d < b) cs ds

/-- The number written with the digits `ds`, most significant first. -/
def positional (b : ℕ) (ds : List ℕ) : ℕ := ds.foldl (fun acc d => acc * b + d) 0

/-- The number written `ip.fp`. -/
def positionalQ (b : ℕ) (ip fp : List ℕ) : ℚ :=
  (positional b ip : ℚ) + (positional b fp : ℚ) / (b : ℚ) ^ fp.length

end MC
