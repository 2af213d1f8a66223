import Verif.Model.Heap

/-! # What a variable holds, as the user can tell -/

namespace MC.Spec
open MC.Heap

/-- A value with something of type `T` in place of each scalar. -/
inductive HTree (T U : Type) where
  | leaf (x : T)
  | node (xs : List (HTree T U × Option U))
  | failed (e : Raise)

variable {K U R T : Type}

mutual
/-- The value with `f` applied to each scalar. -/
def tree (f : HS K → T) : Val (HS K) U R → HTree T U
  | .sc x => .leaf (f x)
  | .arr xs => .node (trees f xs)
  | .exc e => .failed e
/-- For each element, with its unit. -/
def trees (f : HS K → T) : List (OpdF (Val (HS K) U R) U R) → List (HTree T U × Option U)
  | [] => []
  | x :: xs => treeOf f x :: trees f xs
/-- One element. -/
def treeOf (f : HS K → T) : OpdF (Val (HS K) U R) U R → HTree T U × Option U
  | ⟨v, u, _, _⟩ => (tree f v, u)
end

/-- A scalar: a number or a boolean. -/
def scalarOf (heap : List (Cell K)) (x : HS K) : Option Number × Option Bool :=
  (numIn heap x, match x with | .flag b => some b | _ => none)

/-- The value of a variable: its numbers, booleans and units, in their places. -/
def valueOf (s : HSt K U R) (name : String) :
    Option (HTree (Option Number × Option Bool) U × Option U) :=
  (s.vars name).map (fun v => (tree (scalarOf s.heap) v.1, v.2))

/-- What is displayed for a variable depends on this: its value and the type of each number. -/
def displayOf (s : HSt K U R) (name : String) :
    Option (HTree ((Option Number × Option Bool) × Option K) U × Option U) :=
  (s.vars name).map (fun v => (tree (fun x => (scalarOf s.heap x, castIn s.heap x)) v.1, v.2))

end MC.Spec
