import Verif.Model.Parse

/-!
# Model of `services/syntaxhighlighter.py`

The text printed for unexpected characters is left out.  The category of an item
(`item.category()`) is a parameter.
-/

namespace MC.Parse

/-- A highlighted fragment: type and text. -/
abbrev Frag := String × Text

variable (cat : Kind → String)

mutual
/-- `highlight` (`syntaxhighlighter.py:20-50`) on the items from position `i` on; `none` is the
exception of line 29. -/
def highlightFrom (text : Text) : List Item → ℕ → Option (List Frag)
  | [], i => some (if i < text.length then [("default", text.drop i)] else [])     -- 46-48
  | it :: its, i =>
    match pyFind text it.text i with                                               -- 27
    | none => none
    | some ii =>
      let gap := if i ≠ ii then [("default", (text.drop i).take (ii - i))] else [] -- 30-37
      match highlightItem it with
      | none => none
      | some inner =>
        match highlightFrom text its (ii + it.text.length) with
        | none => none
        | some rest => some (gap ++ inner ++ rest)
/-- The fragments of one item (`syntaxhighlighter.py:38-43`). -/
def highlightItem : Item → Option (List Frag)
  | .leaf k t => some [(cat k, t)]
  | .nest _ t items => highlightFrom t items 0
end

/-- `highlight` (`syntaxhighlighter.py:20-50`). -/
def highlight (text : Text) (items : List Item) : Option (List Frag) :=
  highlightFrom cat text items 0

/-- `highlight_statements` (`syntaxhighlighter.py:13-18`). -/
def highlightStatements (statements : List (List Item)) : Option (List (List Frag)) :=
  statements.mapM (fun items => highlight cat (itemsText items) items)

end MC.Parse
