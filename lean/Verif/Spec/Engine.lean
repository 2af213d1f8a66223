import Verif.Model.Engine

/-!
# Specification for operator precedence

Expression trees, the sequence of items a tree is written as, the value of a tree, and what
it means for a tree to be the one that a precedence table dictates.  None of these look at
the evaluation loop of the engine.
-/

namespace MC.Spec
open MC

mutual
/-- An expression tree.  Numbers are the positions of the items, used in error reports.
`app` is an operator with at most one operand on its left; what follows it is a sequence of
operands and fixed symbols (as in `a then b else c`).  `juxt s a b` is two operands next to
each other, joined by the invisible operator `s`. -/
inductive Tree (V : Type) where
  | leaf (pos : ℕ) (v : V)
  | app (pos : ℕ) (op : String) (l : Left V) (r : Rights V)
  | juxt (s : String) (l r : Tree V)
/-- The left operand of an operator, if it has one. -/
inductive Left (V : Type) where
  | none
  | some (t : Tree V)
/-- What follows an operator. -/
inductive Rights (V : Type) where
  | nil
  | sym (pos : ℕ) (s : String) (r : Rights V)
  | arg (t : Tree V) (r : Rights V)
end

variable {V : Type}

mutual
/-- The tree as it is written. -/
def Tree.flat : Tree V → List (Item V)
  | .leaf i v => [⟨.val v, i⟩]
  | .app i op l r => l.flat ++ ⟨.op op, i⟩ :: r.flat
  | .juxt _ l r => l.flat ++ r.flat
def Left.flat : Left V → List (Item V)
  | .none => []
  | .some t => t.flat
def Rights.flat : Rights V → List (Item V)
  | .nil => []
  | .sym i s r => ⟨.op s, i⟩ :: r.flat
  | .arg t r => t.flat ++ r.flat
end

/-- The position at which an error of the tree's outermost operator is reported. -/
def Tree.pos : Tree V → ℕ
  | .leaf i _ => i
  | .app i _ _ _ => i
  | .juxt _ _ r => r.pos

section eval
/- `f op args`: what the operator does, giving a value or the message of an error. -/
variable (f : String → List V → Except String V) (mkErr : ExecErr → V)

/-- A failed operator yields an error value at the operator's position. -/
def settle (pos : ℕ) : Except String V → V
  | .ok v => v
  | .error m => mkErr ⟨m, pos, false⟩

mutual
/-- The value of a tree. -/
def Tree.eval : Tree V → V
  | .leaf _ v => v
  | .app i op l r => settle mkErr i (f op (l.evals ++ r.evals))
  | .juxt s l r => settle mkErr r.pos (f s [l.eval, r.eval])
def Left.evals : Left V → List V
  | .none => []
  | .some t => [t.eval]
def Rights.evals : Rights V → List V
  | .nil => []
  | .sym _ _ r => r.evals
  | .arg t r => t.eval :: r.evals
end
end eval

section dictated
/- The table: the row of each operator, row 0 binding tightest, and which rows associate to
the right. -/
variable (row : String → Option ℕ) (rtl : ℕ → Bool)

/-- The tree is an operand or its outermost operator is in a row `j` with `p j`. -/
def Tree.RootIn (p : ℕ → Prop) : Tree V → Prop
  | .leaf _ _ => True
  | .app _ op _ _ => ∃ j, row op = some j ∧ p j
  | .juxt s _ _ => ∃ j, row s = some j ∧ p j

/-- May stand to the left of an operator of row `k`: operators of tighter rows, and of the
same row if it associates to the left. -/
def Tree.FitsLeft (k : ℕ) (t : Tree V) : Prop :=
  t.RootIn row (fun j => if rtl k then j < k else j ≤ k)

/-- May stand to the right of an operator of row `k`. -/
def Tree.FitsRight (k : ℕ) (t : Tree V) : Prop :=
  t.RootIn row (fun j => if rtl k then j ≤ k else j < k)

mutual
/-- The tree is the one the precedence table dictates: every operand of every operator of
row `k` is bound at least as tightly as `FitsLeft` and `FitsRight` ask. -/
def Tree.Dictated : Tree V → Prop
  | .leaf _ _ => True
  | .app _ op l r => ∃ k, row op = some k ∧ l.Dictated k ∧ r.Dictated k
  | .juxt s l r => ∃ k, row s = some k ∧ l.Dictated ∧ r.Dictated
      ∧ l.FitsLeft row rtl k ∧ r.FitsRight row rtl k
def Left.Dictated : Left V → ℕ → Prop
  | .none, _ => True
  | .some t, k => t.Dictated ∧ t.FitsLeft row rtl k
def Rights.Dictated : Rights V → ℕ → Prop
  | .nil, _ => True
  | .sym _ _ r, k => r.Dictated k
  | .arg t r, k => t.Dictated ∧ t.FitsRight row rtl k ∧ r.Dictated k
end
end dictated

section shaped
/- The inputs of each operator: an operand or a symbol each, before and after it; and the
invisible operator, if there is one. -/
variable (inputs : String → Option (List (Option String) × List (Option String)))
variable (juxt : Option String)

mutual
/-- Every operator of the tree has the operands and symbols it asks for. -/
def Tree.Shaped : Tree V → Prop
  | .leaf _ _ => True
  | .app _ op l r => ∃ a b, inputs op = some (a, b) ∧ l.Shaped a ∧ r.Shaped b
  | .juxt s l r => juxt = some s ∧ l.Shaped ∧ r.Shaped
def Left.Shaped : Left V → List (Option String) → Prop
  | .none, a => a = []
  | .some t, a => a = [none] ∧ t.Shaped
def Rights.Shaped : Rights V → List (Option String) → Prop
  | .nil, b => b = []
  | .sym _ s r, b => ∃ b', b = some s :: b' ∧ r.Shaped b'
  | .arg t r, b => ∃ b', b = none :: b' ∧ t.Shaped ∧ r.Shaped b'
end
end shaped

mutual
/-- Every operand of the tree satisfies `p`. -/
def Tree.All (p : V → Prop) : Tree V → Prop
  | .leaf _ v => p v
  | .app _ _ l r => l.All p ∧ r.All p
  | .juxt _ l r => l.All p ∧ r.All p
def Left.All (p : V → Prop) : Left V → Prop
  | .none => True
  | .some t => t.All p
def Rights.All (p : V → Prop) : Rights V → Prop
  | .nil => True
  | .sym _ _ r => r.All p
  | .arg t r => t.All p ∧ r.All p
end

mutual
/-- Every operator of the tree satisfies `p`. -/
def Tree.OnlyOps (p : String → Prop) : Tree V → Prop
  | .leaf _ _ => True
  | .app _ op l r => p op ∧ l.OnlyOps p ∧ r.OnlyOps p
  | .juxt s l r => p s ∧ l.OnlyOps p ∧ r.OnlyOps p
def Left.OnlyOps (p : String → Prop) : Left V → Prop
  | .none => True
  | .some t => t.OnlyOps p
def Rights.OnlyOps (p : String → Prop) : Rights V → Prop
  | .nil => True
  | .sym _ _ r => r.OnlyOps p
  | .arg t r => t.OnlyOps p ∧ r.OnlyOps p
end

mutual
/-- Number of operators in the tree. -/
def Tree.ops : Tree V → ℕ
  | .leaf _ _ => 0
  | .app _ _ l r => l.ops + r.ops + 1
  | .juxt _ l r => l.ops + r.ops + 1
def Left.ops : Left V → ℕ
  | .none => 0
  | .some t => t.ops
def Rights.ops : Rights V → ℕ
  | .nil => 0
  | .sym _ _ r => r.ops
  | .arg t r => t.ops + r.ops
end

end MC.Spec
