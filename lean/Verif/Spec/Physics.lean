import Mathlib.Algebra.Order.Field.Basic
import Mathlib.Data.Rat.Cast.Order
import Verif.Spec.Units
import Verif.Spec.Bases
import Verif.Model.Parse
import Verif.Model.UnitCalc

/-!
# Calculating with physical quantities

A quantity is an amount, measured in base units, with a dimension: the power of each base dimension.
No units are left in it, so nothing here depends on which units are written.  `pw` are the powers of
numbers.
-/

namespace MC.Unit.Spec
open MC.Parse (Text)

/-- Powers of numbers with rational exponents. -/
structure RealPowers {K : Type} [Field K] [LinearOrder K] (pw : K → ℚ → K) : Prop where
  whole : ∀ x (z : ℤ), pw x z = x ^ z
  pos : ∀ x p, 0 < x → 0 < pw x p
  add : ∀ x p q, 0 < x → pw x (p + q) = pw x p * pw x q
  mul : ∀ x y p, 0 < x → 0 < y → pw (x * y) p = pw x p * pw y p
  twice : ∀ x p q, 0 < x → pw (pw x p) q = pw x (p * q)

/-- What an expression may stand for: a number, an amount of something, a unit, a truth value. -/
inductive Quantity (D K : Type) where
  | number (q : K)
  | amount (q : K) (d : D → ℚ)
  | unit (size : K) (d : D → ℚ)
  | truth (b : Bool)

/-- Units. -/
def Quantity.isUnit {D K : Type} : Quantity D K → Bool
  | .unit _ _ => true
  | _ => false

section
variable {D K : Type} [Field K]

/-- Numbers and amounts as amounts; numbers have no dimension. -/
def Quantity.measure : Quantity D K → Option (K × (D → ℚ))
  | .number q => some (q, 0)
  | .amount q d => some (q, d)
  | _ => none

/-- A unit is one of it. -/
def Quantity.worth : Quantity D K → Option (K × (D → ℚ))
  | .unit s d => some (s, d)
  | x => x.measure

/-- Sums and differences are of amounts of the same dimension. -/
noncomputable def combine (f : K → K → K) (x y : Quantity D K) : Except String (Quantity D K) :=
  open Classical in
  match x, y with
  | .number a, .number b => .ok (.number (f a b))
  | x, y =>
    match x.measure, y.measure with
    | some (a, d), some (b, e) => if d = e then .ok (.amount (f a b) d) else .error "dimensions"
    | _, _ => .error "not amounts"

/-- Products. -/
def product (x y : Quantity D K) : Except String (Quantity D K) :=
  match x, y with
  | .number a, .number b => .ok (.number (a * b))
  | .unit a d, .unit b e => .ok (.unit (a * b) (d + e))
  | x, y =>
    match x.worth, y.worth with
    | some (a, d), some (b, e) => .ok (.amount (a * b) (d + e))
    | _, _ => .error "not amounts"

/-- Quotients. -/
noncomputable def quotient (x y : Quantity D K) : Except String (Quantity D K) :=
  open Classical in
  match x, y with
  | .number a, .number b => if b = 0 then .error "division by zero" else .ok (.number (a / b))
  | .unit a d, .unit b e => .ok (.unit (a / b) (d - e))
  | x, y =>
    match x.worth, y.worth with
    | some (a, d), some (b, e) =>
      if b = 0 then .error "division by zero" else .ok (.amount (a / b) (d - e))
    | _, _ => .error "not amounts"

variable [LinearOrder K] (pw : K → ℚ → K)

/-- The exponents an amount may have: all if it is positive, else whole ones, for zero positive ones. -/
def MayRaise (a : K) (p : ℚ) : Prop := 0 < a ∨ p.den = 1 ∧ (a ≠ 0 ∨ 0 < p)

/-- Powers; exponents are numbers. -/
noncomputable def raised (x y : Quantity D K) : Except String (Quantity D K) :=
  open Classical in
  match y with
  | .number c =>
    if h : ∃ p : ℚ, (p : K) = c then
      match x with
      | .number a => if MayRaise a h.choose then .ok (.number (pw a h.choose)) else .error "no such power"
      | .amount a d =>
        if MayRaise a h.choose then .ok (.amount (pw a h.choose) (fun x => h.choose * d x))
        else .error "no such power"
      | .unit a d =>
        if h.choose ≠ 0 then .ok (.unit (pw a h.choose) (fun x => h.choose * d x)) else .error "no unit"
      | .truth _ => .error "not an amount"
    else .error "not rational"
  | _ => .error "not a number"

/-- Comparisons are of amounts of the same dimension. -/
noncomputable def compared (f : K → K → Prop) (x y : Quantity D K) : Except String (Quantity D K) :=
  open Classical in
  match x.measure, y.measure with
  | some (a, d), some (b, e) => if d = e then .ok (.truth (decide (f a b))) else .error "dimensions"
  | _, _ => .error "not amounts"

/-- The same amount in another unit of its dimension. -/
noncomputable def inUnit (a : K) (d e : D → ℚ) : Except String (Quantity D K) :=
  open Classical in if d = e then .ok (.amount a d) else .error "dimensions"

/-- The operators. -/
noncomputable def physics : String → List (Quantity D K) → Except String (Quantity D K)
  | "+", [x, y] => combine (· + ·) x y
  | "-", [x, y] => combine (· - ·) x y
  | "*", [x, y] => product x y
  | "/", [x, y] => quotient x y
  | "^", [x, y] => raised pw x y
  | "IMPLICIT_MULTIPLY", [.number a, .number b] => product (.number a) (.number b)
  | "IMPLICIT_MULTIPLY", [.number a, .amount b e] => product (.number a) (.amount b e)
  | "IMPLICIT_MULTIPLY", [.amount a d, .number b] => product (.amount a d) (.number b)
  | "IMPLICIT_MULTIPLY", [.amount a d, .amount b e] => product (.amount a d) (.amount b e)
  | "UNIT_MULTIPLY", [.unit a d, .unit b e] => product (.unit a d) (.unit b e)
  | "UNIT_DIVIDE", [.unit a d, .unit b e] => quotient (.unit a d) (.unit b e)
  | "UNIT_ASSIGNMENT", [.number a, .unit b e] => product (.number a) (.unit b e)
  | "UNIT_ASSIGNMENT", [.amount a d, .unit b e] => product (.amount a d) (.unit b e)
  | "to", [.amount a d, .unit _ e] => inUnit a d e
  | "to", [.unit a d, .unit _ e] => inUnit a d e
  | "<", [x, y] => compared (· < ·) x y
  | ">", [x, y] => compared (· > ·) x y
  | "<=", [x, y] => compared (· ≤ ·) x y
  | ">=", [x, y] => compared (· ≥ ·) x y
  | "==", [x, y] => compared (· = ·) x y
  | "!=", [x, y] => compared (· ≠ ·) x y
  | _, _ => .error "not physics"

variable {U : Type} [DecidableEq D]

/-- The words: decimal numbers with less than `p` digits after the point, and names of units that are
not of dimension `t`. -/
inductive Measure (p : ℕ) (N : Norm U D K) (t : D) (named : Text → Option U) :
    Parse.Kind → Text → Quantity D K → Prop
  | number {neg : Bool} {whole frac : Text} {ip fp : List ℕ} : DigitsAre 10 whole ip → whole ≠ [] →
      DigitsAre 10 frac fp → frac.length < p →
      Measure p N t named .num
        ((if neg then ['-'] else []) ++ whole ++ (if frac = [] then [] else '.' :: frac))
        (.number (((if neg then -1 else 1) * positionalQ 10 ip fp : ℚ) : K))
  | unit {w : Text} {u : U} : named w = some u → (N.info u).dim ≠ t →
      Measure p N t named .unit w (.unit (stepSize (N.info u)) (unitDim N u))

variable {pw} in
/-- The answer `x` shows the quantity: a number without a unit, a number of units whose size together is
the amount, a unit of that size and dimension, or a truth value. -/
def Shows (pw : K → ℚ → K) (N : Norm U D K) (x : QVal U K) : Quantity D K → Prop
  | .number q => x = .arg (.num q none)
  | .amount q _ => ∃ v u, x = .arg (.num v u) ∧ v * size pw N (u.getD []) = q
  | .unit s d => ∃ l, x = .arg (.unit l) ∧ size pw N l = s ∧ ∀ z, dimOf N l z = d z
  | .truth b => x = .truth b

/-- An answer that is an amount has its dimension. -/
def ShowsDimension (N : Norm U D K) (x : QVal U K) : Quantity D K → Prop
  | .amount _ d => ∃ v u, x = .arg (.num v u) ∧ ∀ z, dimOf N (u.getD []) z = d z
  | _ => True

end
end MC.Unit.Spec
