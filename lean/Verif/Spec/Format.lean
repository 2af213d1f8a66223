import Mathlib.Algebra.Order.Field.Basic
import Mathlib.Data.Nat.Cast.Defs
import Mathlib.Algebra.BigOperators.Group.List.Basic

/-!
# What it means to write a quantity with several units

The units have sizes and kinds: `meter` and `kilometer` are of one kind.
-/

namespace MC.Spec.Format

variable {U T K : Type} [Field K] [LinearOrder K] (size : U → K) (kind : U → T)

/-- Some units, so many of each, together. -/
def together (l : List (K × U)) : K := (l.map (fun p => p.1 * size p.2)).sum

/-- `p` is how `k` of unit `b` is written with the units `sys`: the same amount in a unit of the same
kind, the largest of which there is at least one; or else the smallest unit there is. -/
def WrittenAs (sys : List U) (b : K × U) (p : K × U) : Prop :=
  p.2 ∈ sys ∧ kind p.2 = kind b.2 ∧ p.1 * size p.2 = b.1 * size b.2 ∧
  (1 ≤ p.1 ∨ ∀ w ∈ sys, size p.2 ≤ size w) ∧
  ∀ w ∈ sys, kind w = kind b.2 → size p.2 < size w → b.1 * size b.2 < size w

/-- `amounts` divides `q` among the units `bases`: together they are `q`; of every unit but the last
there is a whole number, and what the units after it hold is less than one of it.  A negative `q` is
left to the last unit. -/
structure Divides (bases : List U) (q : K) (amounts : List (K × U)) : Prop where
  units : amounts.map (·.2) = bases
  all : together size amounts = q
  whole : ∀ pre b post, amounts = pre ++ b :: post → post ≠ [] → ∃ n : ℕ, b.1 = (n : K)
  less : ∀ pre b post, amounts = pre ++ b :: post → post ≠ [] → 0 ≤ q →
    0 ≤ together size post ∧ together size post < size b.2
  negative : ∀ pre b post, amounts = pre ++ b :: post → post ≠ [] → q < 0 → b.1 = 0

/-- `parts` is `q` written with the units `bases`, and with units of the same kinds in `sys`. -/
def Breakdown (sys bases : List U) (q : K) (parts : List (K × U)) : Prop :=
  ∃ amounts : List (K × U), Divides size bases q amounts ∧
    List.Forall₂ (WrittenAs size kind sys) (amounts.filter (fun a => a.1 ≠ 0)) parts

/-- `t` says `c` of unit `u`: the number, a space and a name, which is the singular for exactly one.
`names` are the plural and the singular of a unit. -/
def Says (number : K → List Char) (names : U → List Char × List Char) (c : K) (u : U) (t : List Char) : Prop :=
  (c = 1 ∧ t = number c ++ [' '] ++ (names u).2) ∨ (c ≠ 1 ∧ t = number c ++ [' '] ++ (names u).1)

/-- The text for some units, so many of each, with commas between them. -/
inductive Wording (number : K → List Char) (names : U → List Char × List Char) : List (K × U) → List Char → Prop
  | none : Wording number names [] []
  | one {c u t} : Says number names c u t → Wording number names [(c, u)] t
  | more {c u t p ps ts} : Says number names c u t → Wording number names (p :: ps) ts →
      Wording number names ((c, u) :: p :: ps) (t ++ [',', ' '] ++ ts)

end MC.Spec.Format
