import Verif.Spec.Written

/-!
# Statements over several lines

A statement may be broken after an operator that takes something on its right.
-/

namespace MC.Parse.Spec
open MC.Parse

/-- The words of a statement without spaces and comments. -/
def words (its : List Item) : List Item := its.filter Item.functional

/-- The words written one after the other, with nothing between them. -/
def joined (ws : List Item) : Text := ws.flatMap Item.text

/-- A statement may be broken between the words `ws` and `next`: the last word is an operator other
than `++` and `--`, or the next word is `else`. -/
def MayBreak (ws next : List Item) : Prop :=
  (∃ before o, ws = before ++ [.leaf .op o] ∧ o ≠ "++".toList ∧ o ≠ "--".toList) ∨
  next.head? = some (.leaf .op "else".toList)

/-- Whether an operand is expected after these items. -/
def expects (its : List Item) : Bool := its.foldl after true

variable (x : Lex) (funcs : List Text)

/-- The rest of a statement, after the items `before`, on one or more lines.  `bs`: the words before
each of the line breaks. -/
inductive Broken (n : ℕ) : List Item → Text → List Item → List (List Item) → Option Char → Prop
  | line {before t its tail} : Line (Reading x funcs n false) (expects before) t its tail →
      Broken n before t its [] tail
  | brk {before t its ts rest bs tail} : Line (Reading x funcs n false) (expects before) t its (some '\n') →
      MayBreak (words (before ++ its)) (words rest) →
      Broken n (before ++ its ++ [.leaf .space ['\n']]) ts rest bs tail →
      Broken n before (t ++ '\n' :: ts) (its ++ .leaf .space ['\n'] :: rest) (words (before ++ its) :: bs) tail

/-- Statements, each on one or more lines.  `bs`: the words of the statement before each line break
inside a statement; `es`: the words of each statement that is followed by another. -/
inductive Statements (n : ℕ) : Text → List (List Item) → List (List Item) → List (List Item) → Prop
  | last {t its bs} : Broken x funcs n [] t its bs none → Statements n t [its] bs []
  | more {t its ts st bs bs' es} : Broken x funcs n [] t its bs (some '\n') → Statements n ts st bs' es →
      Statements n (t ++ '\n' :: ts) ((its ++ [.leaf .terminator ['\n']]) :: st) (bs ++ bs') (words its :: es)

end MC.Parse.Spec
