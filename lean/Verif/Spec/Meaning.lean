import Verif.Spec.Grammar
import Verif.Model.Parse

/-!
# What an expression means

The meaning of the items an expression is read as, given what operands (`lit`), operators (`f`) and
functions (`g`) mean: a bracket means what is inside, a call what the function makes of its arguments,
and a sequence of operands and operators is a phrase of the documented grammar.
-/

namespace MC.Spec
open MC.Parse (Kind Text)

/-- The kinds of words that have a value. -/
def valueKinds : List Kind := [.num, .bool, .str, .var, .constant, .unit, .special]

/-- The kinds of words that have no meaning. -/
def emptyKinds : List Kind := [.space, .comment, .terminator]

/-- Words that have a value, inline functions, calls of function pointers, and arrays. -/
def isOperand : Parse.Item → Bool
  | .leaf k _ => k ∈ valueKinds
  | .nest k _ _ => k ∈ [.inline, .pointer, .array]

/-- Words with these meanings are the only operands. -/
def onlyWords {V : Type} (lit : Kind → Text → V → Prop) : Parse.Item → V → Prop
  | .leaf k t => lit k t
  | .nest _ _ _ => fun _ => False

variable {V : Type} (lit : Parse.Item → V → Prop) (f g : String → List V → Except String V)

mutual
/-- The operands and operators that items stand for. -/
inductive Stands : List Parse.Item → List (Tok V) → Prop
  | nil : Stands [] []
  | skip {k t its toks} : k ∈ emptyKinds → Stands its toks → Stands (.leaf k t :: its) toks
  | op {o its toks} : Stands its toks →
      Stands (.leaf .op o :: its) (.op (String.ofList o) :: toks)
  | word {it v its toks} : isOperand it = true → lit it v → Stands its toks →
      Stands (it :: its) (.val v :: toks)
  | bracket {t inner v its toks} : Means inner v → Stands its toks →
      Stands (.nest .inner t (.leaf .innerStart ['('] :: inner ++ [.leaf .innerEnd [')']]) :: its)
        (.val v :: toks)
  | call {t w args vs v its toks} : ArgsMean args vs → g (String.ofList w) vs = .ok v →
      Stands its toks →
      Stands (.nest .func t (.leaf .funcName w :: .leaf .funcStart ['('] :: args
        ++ [.leaf .funcEnd [')']]) :: its) (.val v :: toks)
/-- Items that are a phrase of the documented grammar mean its value. -/
inductive Means : List Parse.Item → V → Prop
  | phrase {its toks v} : Stands its toks → Reads documented f documented.length toks v →
      Means its v
/-- The arguments of a call. -/
inductive ArgsMean : List Parse.Item → List V → Prop
  | none : ArgsMean [] []
  | last {its v} : Means its v → ArgsMean its [v]
  | more {its v rest v' vs} : Means its v → ArgsMean rest (v' :: vs) →
      ArgsMean (its ++ .leaf .funcParam [','] :: rest) (v :: v' :: vs)
end

end MC.Spec
