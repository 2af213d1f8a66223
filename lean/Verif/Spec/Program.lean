import Verif.Spec.Arithmetic
import Verif.Spec.Meaning

/-!
# What the lines of a program mean

A line answers with a value, or with nothing if it is empty, and may change one variable.  `env`
gives the variables that are known to hold a number or a truth value.
-/

namespace MC.Spec
open MC.Parse (Kind Text)

/-- Variables and what they hold. -/
abbrev Store (W : Type) := String → Option W

/-- One variable changed. -/
def Store.set {W : Type} (env : Store W) (x : String) (v : W) : Store W := fun y => if y = x then some v else env y

/-- Spaces and comments, and the end of the line. -/
def Blank (its : List Parse.Item) : Prop := ∀ it ∈ its, ∃ k ∈ emptyKinds, ∃ t, it = .leaf k t

/-- A variable, an operator after it, and the rest of the line. -/
inductive Change : List Parse.Item → String → String → List Parse.Item → Prop
  | mk {a b x o rest} : Blank a → Blank b →
      Change (a ++ .leaf .var x :: (b ++ .leaf .op o :: rest)) (String.ofList x) (String.ofList o) rest

section
variable {W : Type} (mean : Store W → List Parse.Item → W → Prop) (f : String → List W → Except String W) (one : W)

/-- What a line answers, and the variables after it: `mean` is what expressions mean, `f` what operators
mean, and `one` is the number 1. -/
inductive LineOf (env : Store W) : List Parse.Item → Option W → Store W → Prop
  | blank {its} : Blank its → LineOf env its none env
  | value {its v} : mean env its v → LineOf env its (some v) env
  | assign {its x rest v} : Change its x "=" rest → mean env rest v → LineOf env its (some v) (env.set x v)
  | keep {its x rest u v} : Change its x "||=" rest → mean env rest v → env x = some u →
      LineOf env its (some v) env
  | update {its x rest o u v w} : o ∈ ["+", "-", "*", "/", "^", "%", "\\"] →
      Change its x (o ++ "=") rest → mean env rest v → env x = some u →
      f o [u, v] = .ok w → LineOf env its (some w) (env.set x w)
  | step {its x rest o u w} : o ∈ ["+", "-"] → Change its x (o ++ o) rest → Blank rest →
      env x = some u → f o [u, one] = .ok w → LineOf env its (some w) (env.set x w)

/-- What the lines answer one after the other, and the variables after the last. -/
inductive LinesOf : Store W → List (List Parse.Item) → List (Option W) → Store W → Prop
  | nil {env} : LinesOf env [] [] env
  | cons {env its a env' st as env''} : LineOf mean f one env its a env' → LinesOf env' st as env'' →
      LinesOf env (its :: st) (a :: as) env''

end

/-- Variables that hold numbers, truth values and texts. -/
abbrev Env := Store Plain

/-- What the items of an expression mean where the variables are `env`. -/
def Says (p k : ℕ) (rounding : Bool) (env : Env) : List Parse.Item → Plain → Prop :=
  Means (onlyWords (Word p env)) (school k rounding) (schoolFunctions k rounding)

/-- What a line of arithmetic answers, and the variables after it. -/
abbrev LineMeans (p k : ℕ) (rounding : Bool) := LineOf (Says p k rounding) (school k rounding) (.num 1)

/-- What lines of arithmetic answer one after the other, and the variables after the last. -/
abbrev LinesMean (p k : ℕ) (rounding : Bool) := LinesOf (Says p k rounding) (school k rounding) (.num 1)

end MC.Spec
