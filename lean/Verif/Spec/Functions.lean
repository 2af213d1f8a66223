import Verif.Spec.Program

/-!
# What functions that are written in a program mean

`{ … }` is a function.  `@f(a, b)` calls the function that the variable `f` holds: its lines are
answered one after the other, where `PARAM1`, `PARAM2` and so on are the arguments and the other
variables are as they are where the call stands.  The call is the last answer.  What the lines do to
variables is forgotten after the call.
-/

namespace MC.Spec
open MC.Parse (Kind Text)

/-- A number, a truth value, or a function with what is between its braces. -/
inductive Thing where
  | plain (v : Plain)
  | func (body : List Parse.Item)

/-- The things as numbers and truth values, if they all are. -/
def allPlain : List Thing → Option (List Plain)
  | [] => some []
  | .plain v :: vs => (allPlain vs).map (v :: ·)
  | .func _ :: _ => none

/-- Operators and functions for numbers and truth values do not take functions. -/
def lifted (f : String → List Plain → Except String Plain) (o : String) (vs : List Thing) : Except String Thing :=
  match allPlain vs with
  | some ws => (f o ws).map .plain
  | none => .error "a function"

/-- The operators: only `then` takes functions too. -/
def thingOps (k : ℕ) (rounding : Bool) : String → List Thing → Except String Thing
  | "then", [.plain (.truth b), u, v] => .ok (if b then u else v)
  | o, vs => lifted (school k rounding) o vs

/-- What is between braces, line by line. -/
inductive Splits : List Parse.Item → List (List Parse.Item) → Prop
  | last {its} : (∀ t, Parse.Item.leaf .terminator t ∉ its) → Splits its [its]
  | more {its t rest lines} : (∀ t, Parse.Item.leaf .terminator t ∉ its) → Splits rest lines →
      Splits (its ++ .leaf .terminator t :: rest) (its :: lines)

/-- The variables with `PARAM`*i*, `PARAM`*i+1* and so on set. -/
def params {W : Type} : ℕ → List W → Store W → Store W
  | _, [], env => env
  | i, v :: vs, env => params (i + 1) vs (env.set ("PARAM" ++ toString i) v)

section
variable (p k : ℕ) (rounding : Bool)

/-- What items mean where the operands mean `lit`. -/
def SaysWith (lit : Store Thing → Parse.Item → Thing → Prop) (env : Store Thing) : List Parse.Item → Thing → Prop :=
  Means (lit env) (thingOps k rounding) (lifted (schoolFunctions k rounding))

/-- What an operand means.  `inner` is what operands mean in the arguments and in the lines of functions
that are called. -/
inductive Operand (inner : Store Thing → Parse.Item → Thing → Prop) (env : Store Thing) :
    Parse.Item → Thing → Prop
  | word {kind t v} : Word p (fun _ => none) kind t v → Operand inner env (.leaf kind t) (.plain v)
  | var {x v} : env (String.ofList x) = some v → Operand inner env (.leaf .var x) v
  | inline {t body} : Operand inner env
      (.nest .inline t (.leaf .inlineStart ['{'] :: body ++ [.leaf .inlineEnd ['}']])) (.func body)
  | call {t f args vs body lines answers env' v} :
      ArgsMean (inner env) (thingOps k rounding) (lifted (schoolFunctions k rounding)) args vs →
      env (String.ofList f) = some (.func body) → Splits body lines →
      LinesOf (SaysWith k rounding inner) (thingOps k rounding) (.plain (.num 1)) (params 1 vs env) lines answers env' →
      (answers.filterMap id).getLast? = some v →
      Operand inner env (.nest .pointer t (.leaf .funcName ('@' :: f) :: .leaf .funcStart ['('] :: args
        ++ [.leaf .funcEnd [')']])) v

/-- What an operand means, with calls nested less than `d` deep. -/
def OperandAt : ℕ → Store Thing → Parse.Item → Thing → Prop
  | 0 => fun _ _ _ => False
  | d + 1 => Operand p k rounding (OperandAt d)

/-- What lines mean, with calls nested less than `d` deep. -/
abbrev FunctionLines (d : ℕ) :=
  LinesOf (SaysWith k rounding (OperandAt p k rounding d)) (thingOps k rounding) (.plain (.num 1))

end

/-- Items that are an expression, an assignment or nothing, whatever the operands are. -/
def Grammatical (its : List Parse.Item) : Prop :=
  ∃ a env', LineOf (fun _ => Means (fun _ _ => True) (fun _ _ => .ok ()) (fun _ _ => .ok ()))
    (fun _ _ => .ok ()) () (fun _ => some ()) its a env'

/-- The same without the spaces and comments. -/
def Sentence (its : List Parse.Item) : Prop := ∃ line, Grammatical line ∧ its = line.filter Parse.Item.functional

end MC.Spec
