import Mathlib.Data.Nat.Notation
import Mathlib.Logic.Basic

/-!
# What the string functions mean

Written from the documentation of the functions, without using the model.
-/

namespace MC.Spec

/-- `sub` occurs in `s` behind `k` characters. -/
def OccursAt (sub s : List Char) (k : ℕ) : Prop := ∃ a b, s = a ++ sub ++ b ∧ a.length = k

/-- `sub` occurs in `s`. -/
def Contains (sub s : List Char) : Prop := ∃ k, OccursAt sub s k

/-- The first occurrence of `sub` in `s` is behind `k` characters. -/
def FirstAt (sub s : List Char) (k : ℕ) : Prop :=
  OccursAt sub s k ∧ ∀ j, OccursAt sub s j → k ≤ j

/-- `parts` are the pieces of `s` between occurrences of `sep`, found from the left: either
`sep` does not occur, or the first piece ends at its first occurrence and the others are the
pieces of what follows it. -/
inductive Pieces (sep : List Char) : List Char → List (List Char) → Prop
  | whole {s : List Char} : ¬ Contains sep s → Pieces sep s [s]
  | cut {p rest : List Char} {ps : List (List Char)} :
      FirstAt sep (p ++ sep ++ rest) p.length → Pieces sep rest ps →
      Pieces sep (p ++ sep ++ rest) (p :: ps)

/-- The pieces with `sep` between them. -/
def glue (sep : List Char) : List (List Char) → List Char
  | [] => []
  | [p] => p
  | p :: q :: ps => p ++ sep ++ glue sep (q :: ps)

/-- Dictionary order by code points: a proper prefix comes first, otherwise the first
difference decides. -/
def Precedes (a b : List Char) : Prop :=
  (∃ c r, b = a ++ c :: r) ∨
  ∃ pre c d r r', a = pre ++ c :: r ∧ b = pre ++ d :: r' ∧ c.toNat < d.toNat

/-- `r` is `s` without the characters of `chars` at its left end. -/
def StrippedLeft (chars s r : List Char) : Prop :=
  ∃ pre, s = pre ++ r ∧ (∀ c ∈ pre, c ∈ chars) ∧ ∀ c, r.head? = some c → c ∉ chars

/-- `r` is `s` without the characters of `chars` at its right end. -/
def StrippedRight (chars s r : List Char) : Prop :=
  ∃ post, s = r ++ post ∧ (∀ c ∈ post, c ∈ chars) ∧ ∀ c, r.getLast? = some c → c ∉ chars

end MC.Spec
