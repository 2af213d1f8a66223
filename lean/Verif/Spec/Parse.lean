import Verif.Model.Parse

/-!
# Specification of parsing

What a parser may return, what it means that items cover a text, and what an error says about
the text.  Nothing here mentions how `parse` works.
-/

namespace MC.Parse.Spec

open MC.Parse

/-- In an item, and in every item inside it, the text is the texts of the items inside one after
the other. -/
inductive Whole : Item → Prop
  | leaf (k : Kind) (t : Text) : Whole (.leaf k t)
  | nest (k : Nest) (t : Text) (items : List Item) :
      (∀ it ∈ items, Whole it) → itemsText items = t → Whole (.nest k t items)

/-- The items cover exactly this text. -/
def Covers (items : List Item) (text : Text) : Prop :=
  itemsText items = text ∧ ∀ it ∈ items, Whole it

/-- What is expected of a parser that makes one item: the item has the text that it was read
from, which is not empty; if it raises a `ParseException`, the items and the rest of the
exception make up the text. -/
def LeafOk (f : List Item → Text → Except PErr (Option (Item × ℕ))) : Prop :=
  ∀ items next, next ≠ [] →
    match f items next with
    | .ok none => True
    | .ok (some (it, n)) => 1 ≤ n ∧ n ≤ next.length ∧ Covers [it] (next.take n)
    | .error (.parse _ its nx) => ∃ pre, Covers its pre ∧ pre ++ nx = next
    | .error (.py _) => True

/-- What is expected of the calculator's parsers and symbols. -/
structure Ok (c : Cfg) : Prop where
  leaf : ∀ f, Parser.leaf f ∈ c.parsers → LeafOk f
  term : c.termSym ≠ []
  func : ∀ next name, c.funcName next = some name → (name ++ ['(']) <+: next
  pointer : ∀ next name, c.pointerName next = some name → (name ++ ['(']) <+: next
  open_ : c.arrOpen ≠ []

/-- A parser that makes one item raises this exception of Python somewhere in the text. -/
def Raised (c : Cfg) (msg : String) (text : Text) : Prop :=
  ∃ f, Parser.leaf f ∈ c.parsers ∧ ∃ items rest, rest <:+ text ∧ rest ≠ [] ∧
    f items rest = .error (.py msg)

/-- Writing a string as a literal: the quote and the escape character get an escape character in
front, and the whole is put in quotes. -/
def quoted (sym esc : Char) (s : Text) : Text :=
  sym :: s.flatMap (fun ch => if ch = sym ∨ ch = esc then [esc, ch] else [ch]) ++ [sym]

end MC.Parse.Spec
