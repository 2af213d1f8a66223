import Mathlib.Data.Nat.Notation
import Mathlib.Data.Int.Notation
import Mathlib.Data.List.DropRight

/-!
# Functions of texts

Written from the documentation of the functions, without using the model.  Texts are lists of characters,
and places are counted from 0.
-/

namespace MC.Spec

/-- Only ASCII characters. -/
def Ascii (t : List Char) : Prop := ∀ c ∈ t, c.toNat < 128

instance (t : List Char) : Decidable (Ascii t) := by unfold Ascii; infer_instance

/-- The place of the first occurrence. -/
def placeOf (sub t : List Char) : Option ℕ :=
  (List.range (t.length + 1)).find? (fun i => sub.isPrefixOf (t.drop i))

/-- Cutting a text where the separator stands, after `skip` characters: the first piece, and the others. -/
def cutting (sep : List Char) : ℕ → List Char → List Char × List (List Char)
  | _, [] => ([], [])
  | skip + 1, _ :: t => cutting sep skip t
  | 0, c :: t =>
    if sep.isPrefixOf (c :: t) then
      let r := cutting sep (sep.length - 1) t
      ([], r.1 :: r.2)
    else
      let r := cutting sep 0 t
      (c :: r.1, r.2)

/-- The pieces between the separators. -/
def pieces (sep t : List Char) : List (List Char) :=
  let r := cutting sep 0 t
  r.1 :: r.2

/-- The pieces with `new` between them. -/
def joined (new : List Char) (ps : List (List Char)) : List Char := (ps.intersperse new).flatten

/-- Without the given characters at the beginning. -/
def withoutLeft (chars t : List Char) : List Char := t.dropWhile (· ∈ chars)

/-- Without the given characters at the end. -/
def withoutRight (chars t : List Char) : List Char := t.rdropWhile (· ∈ chars)

/-- A place that may be counted from the end. -/
def placeIn (t : List Char) (i : ℤ) : ℤ := if i < 0 then i + t.length else i

/-- The characters from the place `i` to the place `j`. -/
def between (t : List Char) (i j : ℤ) : List Char :=
  (t.drop i.toNat).take (j + 1 - max i 0).toNat

end MC.Spec
