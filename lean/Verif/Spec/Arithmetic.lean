import Mathlib.Algebra.Order.Floor.Ring
import Mathlib.Data.Rat.Floor
import Mathlib.Data.Nat.Factorial.Basic
import Verif.Spec.Bases
import Verif.Spec.Texts
import Verif.Spec.Parse
import Verif.Model.Parse

/-!
# Arithmetic as it is taught, and texts

Numbers are rational numbers, with nothing rounded.  `short k` asks that the numbers an operator is
applied to are fractions of at most `k` digits above and below the line.  Operators on texts take the
text of a value.
-/

namespace MC.Spec
open MC.Parse (Kind Text)

/-- A number, a truth value or a text. -/
inductive Plain where
  | num (q : ℚ)
  | truth (b : Bool)
  | text (t : Text)

/-- At most `k` digits above and below the line. -/
def Short (k : ℕ) (q : ℚ) : Prop := |q.num| < 10 ^ k ∧ (q.den : ℤ) < 10 ^ k

instance (k : ℕ) (q : ℚ) : Decidable (Short k q) := by unfold Short; infer_instance

/-- The result, if the numbers are short. -/
def short (k : ℕ) (a b : ℚ) (r : Plain) : Except String Plain :=
  if Short k a ∧ Short k b then .ok r else .error "too long"

/-- A number without its fraction. -/
def wholePart (q : ℚ) : ℤ := if 0 ≤ q then ⌊q⌋ else ⌈q⌉

/-- The text of a value.  Whole numbers of at most `k` digits are written with decimal digits; numbers are
left out unless `decimal` is set. -/
def textOf (k : ℕ) (decimal : Bool) : Plain → Option Text
  | .text t => some t
  | .truth b => some (if b then "True".toList else "False".toList)
  | .num q => if decimal ∧ q.den = 1 ∧ |q.num| < 10 ^ k then some (toString q.num).toList else none

/-- A test of texts in small letters. -/
def caseless (a b : Text) (test : Text → Text → Bool) : Except String Plain :=
  if Ascii a ∧ Ascii b then .ok (.truth (test (a.map Char.toLower) (b.map Char.toLower))) else .error "not ASCII"

/-- The operators on texts. -/
def textOps : String → Text → Text → Except String Plain
  | "+$", a, b => .ok (.text (a ++ b))
  | "<$", a, b => .ok (.truth (a < b))
  | ">$", a, b => .ok (.truth (a > b))
  | "<=$", a, b => .ok (.truth (a ≤ b))
  | ">=$", a, b => .ok (.truth (a ≥ b))
  | "==$", a, b => .ok (.truth (a = b))
  | "!=$", a, b => .ok (.truth (a ≠ b))
  | "<~", a, b => caseless a b (fun a b => a < b)
  | ">~", a, b => caseless a b (fun a b => a > b)
  | "<=~", a, b => caseless a b (fun a b => a ≤ b)
  | ">=~", a, b => caseless a b (fun a b => a ≥ b)
  | "==~", a, b => caseless a b (fun a b => a = b)
  | "!=~", a, b => caseless a b (fun a b => a ≠ b)
  | _, _, _ => .error "not an operator"

/-- An operator on the texts of two values, or a text that is repeated. -/
def onTexts (k : ℕ) (decimal : Bool) (o : String) (v w : Plain) : Except String Plain :=
  match textOf k decimal v with
  | none => .error "no text"
  | some a =>
    match o, w with
    | "*$", .num n => if n.den = 1 ∧ Short k n then .ok (.text (List.replicate n.num.toNat a).flatten) else .error "not whole"
    | o, w =>
      match textOf k decimal w with
      | none => .error "no text"
      | some b => textOps o a b

/-- The operators. -/
def school (k : ℕ) (decimal : Bool) : String → List Plain → Except String Plain
  | "+", [.num a, .num b] => short k a b (.num (a + b))
  | "-", [.num a, .num b] => short k a b (.num (a - b))
  | "*", [.num a, .num b] => short k a b (.num (a * b))
  | "IMPLICIT_MULTIPLY", [.num a, .num b] => short k a b (.num (a * b))
  | "/", [.num a, .num b] => if b = 0 then .error "division by zero" else short k a b (.num (a / b))
  | "\\", [.num a, .num b] =>
    if b = 0 then .error "division by zero" else short k a b (.num ⌊a / b⌋)
  | "%", [.num a, .num b] =>
    if b = 0 then .error "division by zero"
    else short k a b (.num (a - b * wholePart (a / b)))
  | "^", [.num a, .num b] =>
    if b.den = 1 ∧ (a ≠ 0 ∨ 0 < b) ∧ |a.num| ^ b.num.natAbs < 10 ^ k ∧ a.den ^ b.num.natAbs < 10 ^ k
    then short k a b (.num (a ^ b.num)) else .error "not a whole power, or too long"
  | "<", [.num a, .num b] => short k a b (.truth (a < b))
  | ">", [.num a, .num b] => short k a b (.truth (a > b))
  | "<=", [.num a, .num b] => short k a b (.truth (a ≤ b))
  | ">=", [.num a, .num b] => short k a b (.truth (a ≥ b))
  | "==", [.num a, .num b] => short k a b (.truth (a = b))
  | "!=", [.num a, .num b] => short k a b (.truth (a ≠ b))
  | "and", [.truth a, .truth b] => .ok (.truth (a && b))
  | "or", [.truth a, .truth b] => .ok (.truth (a || b))
  | "xor", [.truth a, .truth b] => .ok (.truth (a ^^ b))
  | "not", [.truth a] => .ok (.truth (!a))
  | "then", [.truth a, x, y] => .ok (if a then x else y)
  | o, [v, w] => onTexts k decimal o v w
  | _, _ => .error "not arithmetic"

/-- The words: decimal numbers with less than `p` digits after the point, truth values, texts between
quotes, and variables, whose values are given by `env`. -/
inductive Word (p : ℕ) (env : String → Option Plain) : Kind → Text → Plain → Prop
  | number {neg : Bool} {whole frac : Text} {ip fp : List ℕ} : DigitsAre 10 whole ip → whole ≠ [] →
      DigitsAre 10 frac fp → frac.length < p →
      Word p env .num ((if neg then ['-'] else []) ++ whole ++ (if frac = [] then [] else '.' :: frac))
        (.num ((if neg then -1 else 1) * positionalQ 10 ip fp))
  | «true» {t : Text} : t.map Char.toLower = "true".toList → Word p env .bool t (.truth true)
  | «false» {t : Text} : t.map Char.toLower = "false".toList → Word p env .bool t (.truth false)
  | text (s : Text) : Word p env .str (Parse.Spec.quoted '\'' '\\' s) (.text s)
  | var {t : Text} {v : Plain} : env (String.ofList t) = some v → Word p env .var t v

/-- The nearest whole number; halves go away from zero. -/
def nearest (q : ℚ) : ℤ := if 0 ≤ q then ⌊q + 1 / 2⌋ else ⌈q - 1 / 2⌉

/-- A number rounded to decimal places. -/
def rounded (k : ℕ) (decimal : Bool) (f : ℚ → ℤ) (a n : ℚ) : Except String Plain :=
  if decimal ∧ n.den = 1 ∧ 0 ≤ n ∧ n ≤ k then
    short k a n (.num (f (a * 10 ^ n.num.toNat) / 10 ^ n.num.toNat))
  else .error "not a number of places"

/-- The functions of texts. -/
def textFunctions : String → List Text → Except String Plain
  | "length", [t] => .ok (.num t.length)
  | "lower", [t] => if Ascii t then .ok (.text (t.map Char.toLower)) else .error "not ASCII"
  | "upper", [t] => if Ascii t then .ok (.text (t.map Char.toUpper)) else .error "not ASCII"
  | "rstrip", [t, chars] => .ok (.text (withoutRight chars t))
  | "strip", [t, chars] => .ok (.text (withoutRight chars (withoutLeft chars t)))
  | "find", [t, sub] => .ok (.num (match placeOf sub t with | some i => i | none => -1))
  | "replace", [t, old, new] => if old = [] then .error "nothing" else .ok (.text (joined new (pieces old t)))
  | _, _ => .error "not a function"

/-- The texts of the values, if all have one. -/
def textsOf (k : ℕ) (decimal : Bool) : List Plain → Option (List Text)
  | [] => some []
  | v :: vs =>
    match textOf k decimal v, textsOf k decimal vs with
    | some t, some ts => some (t :: ts)
    | _, _ => none

/-- The functions.  Those that round are left out unless `decimal` is set. -/
def schoolFunctions (k : ℕ) (decimal : Bool) : String → List Plain → Except String Plain
  | "abs", [.num a] => short k a a (.num |a|)
  | "fact", [.num a] =>
    if a.den = 1 ∧ 0 ≤ a then short k a a (.num a.num.toNat.factorial) else .error "no factorial"
  | "gcd", [.num a, .num b] =>
    if a.den = 1 ∧ b.den = 1 then short k a b (.num (Int.gcd a.num b.num)) else .error "not whole"
  | "lcm", [.num a, .num b] =>
    if a.den = 1 ∧ b.den = 1 then short k a b (.num (Int.lcm a.num b.num)) else .error "not whole"
  | "floor", [.num a] => rounded k decimal Int.floor a 0
  | "floor", [.num a, .num n] => rounded k decimal Int.floor a n
  | "ceil", [.num a] => rounded k decimal Int.ceil a 0
  | "ceil", [.num a, .num n] => rounded k decimal Int.ceil a n
  | "round", [.num a] => rounded k decimal nearest a 0
  | "round", [.num a, .num n] => rounded k decimal nearest a n
  | "lstrip", [.text t, .text chars] => .ok (.text (withoutLeft chars t))
  | "substr", [.text t, .num i] =>
    if i.den = 1 ∧ Short k i then .ok (.text (between t (placeIn t i.num) t.length)) else .error "not whole"
  | "substr", [.text t, .num i, .num j] =>
    if i.den = 1 ∧ Short k i ∧ j.den = 1 ∧ Short k j ∧ -1 ≤ placeIn t j.num
    then .ok (.text (between t (placeIn t i.num) (placeIn t j.num))) else .error "not whole, or before the text"
  | o, vs =>
    match textsOf k decimal vs with
    | some ts => textFunctions o ts
    | none => .error "not arithmetic"

end MC.Spec
