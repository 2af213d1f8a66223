import Verif.Spec.Broken

/-!
# Texts that cannot be read

`Unreadable n top first t msg bad`: the text `t` has a mistake; `bad` is the text from there on and
`msg` says what is wrong.  `top`: not between brackets.  `first`: an operand is expected at the
start of `t`.
-/

namespace MC.Parse.Spec
open MC.Parse

variable (x : Lex) (funcs : List Text)

/-- No word, operator, unit or bracket starts with this character. -/
structure Foreign (c : Char) : Prop where
  noWord : isLetter c = false ∧ c ≠ '_' ∧ isSpaceChar c = false
  noSign : c ∉ ['#', '\'', '@', '(', ')', '[', '{', '}', '-']
  noOp : ∀ o ∈ x.ops, o.head? ≠ some c
  noUnit : ∀ u ∈ x.unitNames ++ x.unitSymbols, u.head? ≠ some c

/-- The message for a text that no parser accepts. -/
def cannot (t : Text) : String := "Could not parse: " ++ String.ofList t

/-- Arguments, each followed by a comma. -/
inductive Begun (L : Text → List Item → Option Char → Prop) : Text → List Item → Prop
  | nil : Begun L [] []
  | more {t its ts rest} : L t its (some ',') → Begun L ts rest →
      Begun L (t ++ ',' :: ts) (its ++ .leaf .funcParam [','] :: rest)

inductive Unreadable : ℕ → Bool → Bool → Text → String → Text → Prop
  /-- A character that nothing starts with; a comma between brackets is left out. -/
  | foreign {n top first c r} : Foreign x c → c.isDigit = false → (c = ',' → top = true) →
      Unreadable n top first (c :: r) (cannot (c :: r)) (c :: r)
  /-- A number where no operand is expected, as in `1 2`. -/
  | number {n top c r} : Foreign x c → c.isDigit = true →
      Unreadable n top false (c :: r) (cannot (c :: r)) (c :: r)
  /-- A closing bracket that closes nothing. -/
  | close {n first r} :
      Unreadable n true first (')' :: r) "Unexpected inner expression close symbol found" (')' :: r)
  | closeInline {n top first r} :
      Unreadable n top first ('}' :: r) "Unexpected inline function close symbol found" ('}' :: r)
  /-- A string without its end. -/
  | quote {n top first r} : '\'' ∉ r → Unreadable n top first ('\'' :: r) "Missing end '" ('\'' :: r)
  /-- An opening bracket, and what is between it and the end of the text. -/
  | unclosed {n top first ts its} : Line (Reading x funcs n true) true ts its none →
      Unreadable (n + 1) top first ('(' :: ts) "Inner expression missing close symbol" ('(' :: ts)
  | unclosedCall {n top first w ts its t' its'} : FreeName x w → w ∈ funcs →
      Begun (Line (Reading x funcs n true) true) ts its → Line (Reading x funcs n true) true t' its' none →
      Unreadable (n + 1) top first (w ++ '(' :: (ts ++ t')) "Function missing close symbol"
        (w ++ '(' :: (ts ++ t'))
  /-- A mistake between brackets. -/
  | bracket {n top first ts msg bad} : Unreadable n false true ts msg bad →
      Unreadable (n + 1) top first ('(' :: ts) msg bad
  | call {n top first w ts its t' msg bad} : FreeName x w → w ∈ funcs →
      Begun (Line (Reading x funcs n true) true) ts its → Unreadable n false true t' msg bad →
      Unreadable (n + 1) top first (w ++ '(' :: (ts ++ t')) msg bad
  /-- A mistake after something that can be read. -/
  | after {n top first t its rest msg bad} : Line (Reading x funcs n (!top)) first t its rest.head? →
      Unreadable n top (its.foldl after first) rest msg bad → Unreadable n top first (t ++ rest) msg bad

/-- Lines that are complete statements, and then a mistake. -/
inductive Rejected (n : ℕ) (complete : List Item → Prop) : Text → String → Text → Prop
  | here {t msg bad} : Unreadable x funcs n true true t msg bad → Rejected n complete t msg bad
  | line {t its ts msg bad} : Line (Reading x funcs n false) true t its (some '\n') →
      complete (words its) → Rejected n complete ts msg bad →
      Rejected n complete (t ++ '\n' :: ts) msg bad

end MC.Parse.Spec
