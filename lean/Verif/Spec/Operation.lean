import Verif.Model.Operation

/-!
# Specification: what it means to call an operation

Only the declaration of the operation (bounds and allowed types) and the calculator's
validators are used here; nothing of how `call` works.
-/

namespace MC.Spec

variable {S U R K σ : Type}

/-- Restriction `r` speaks about parameter number `i` (from 0). -/
def Covers (r : Restriction) (i : ℕ) : Prop :=
  r.first ≤ i ∧ ∀ t, r.last = some t → i ≤ t

/-- The operation declares that parameter `i` may be of type `t` (or `t[...]`). -/
def Declares (op : Operation S U R σ) (i : ℕ) (t : String) : Prop :=
  ∃ r ∈ op.values, Covers r i ∧ ∃ ty ∈ r.types, ty.main = some t

/-- Input number `i` is an array with elements `l`, and the operation does not take an array
(nor a variable holding one) there: the operation applies to its elements. -/
def Spreads (op : Operation S U R σ) (i : ℕ) (x : Opd S U R) (l : List (Opd S U R)) : Prop :=
  x.value = .arr l ∧ ¬ Declares op i "array" ∧ ¬ (x.ref ≠ none ∧ Declares op i "variable")

/-- The inputs `ys` of the `k`-th application: the `k`-th element of every array the operation
applies to, every other input as it is. -/
def IsRow (op : Operation S U R σ) (xs : List (Opd S U R)) (k : ℕ) (ys : List (Opd S U R)) :
    Prop :=
  ys.length = xs.length ∧ ∀ i x, xs[i]? = some x →
    (∀ l, Spreads op i x l → ys[i]? = l[k]?) ∧ ((¬ ∃ l, Spreads op i x l) → ys[i]? = some x)

/-- The array element for the outcome of one application: its result, or the calculator's
error as a value.  An internal error of Python is not an element. -/
inductive Element : Except Raise (Opd S U R) → Opd S U R → Prop
  | result (r) : Element (.ok r) r
  | calcError (m w) : Element (.error (.calc m w)) ⟨.exc (.calc m w), none, none, none⟩
  | execError (e) : Element (.error (.exec e)) ⟨.exc (.exec e), none, none, none⟩

/-- The calculator's validator accepts the input as being of this type. -/
def Accepts (c : Calc S U R K) (t : ObjType) (x : Opd S U R) : Prop :=
  match t with
  | .any => True
  | .ty n => ∃ v, c.validator n = some v ∧ v x none = .ok true
  | .sub n u => ∃ v, c.validator n = some v ∧ v x (some u) = .ok true

/-- The number of inputs is within the operation's bounds, every input has a type allowed for
it, and every unit the required dimensions. -/
structure Allowed (c : Calc S U R K) (op : Operation S U R σ) (xs : List (Opd S U R)) :
    Prop where
  atLeast : ∀ m, op.minParams = some m → m ≤ xs.length
  atMost : ∀ m, op.maxParams = some m → xs.length ≤ m
  types : ∀ r ∈ op.values, ∀ i x, xs[i]? = some x → Covers r i → ∃ t ∈ r.types, Accepts c t x
  units : ∀ r ∈ op.units, ∀ i x, xs[i]? = some x → r.first ≤ i →
    (∀ t, r.last = some t → i ≤ t) → r.check x.unit = .ok true

end MC.Spec
