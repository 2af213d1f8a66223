import Verif.Model.Operation

/-! # Model of `finalize`: `engine.py:324-337`

No feature installs a finalizer (`engine.py:17`, `335-336`).  The elements of an array are replaced
in the list itself; this model makes a new list. -/

namespace MC
variable {S U R σ : Type}

/-- What `finalize` asks the calculator. -/
structure Finish (S U R : Type) where
  /-- There is a unit normaliser and `unit_simplification` is on. -/
  on : Bool
  /-- `unit.no_simplify`. -/
  keeps : U → Bool
  /-- `unit_normaliser.simplify_units`. -/
  simplify : Val S U R → U → Except Raise (Val S U R × Option U)

variable (fi : Finish S U R)

mutual
/-- `finalize` (`engine.py:324-337`). -/
def finalizeOpd : OpdF (Val S U R) U R → Except Raise (OpdF (Val S U R) U R)
  | ⟨v, u, r, o⟩ =>
    match v with
    | .arr xs =>
      match finalizeList xs with
      | .ok ys => .ok ⟨.arr ys, u, r, o⟩
      | .error e => .error e
    | v =>
      match u with
      | none => .ok ⟨v, none, r, o⟩
      | some u =>
        if fi.on && !fi.keeps u then
          match fi.simplify v u with
          | .ok (v', u') => .ok ⟨v', u', r, o⟩
          | .error e => .error e
        else .ok ⟨v, some u, r, o⟩
/-- The loop over the elements (`engine.py:329-330`). -/
def finalizeList : List (OpdF (Val S U R) U R) → Except Raise (List (OpdF (Val S U R) U R))
  | [] => .ok []
  | x :: xs =>
    match finalizeOpd x with
    | .error e => .error e
    | .ok y =>
      match finalizeList xs with
      | .error e => .error e
      | .ok ys => .ok (y :: ys)
end

/-- `finalize` as an action. -/
def finalize (x : Opd S U R) : Act σ (Opd S U R) := fun s => (finalizeOpd fi x, s)

theorem finalize_plain {x : Opd S U R} {v : S} (hv : x.value = .sc v) (hu : x.unit = none) (s : σ) :
    finalize fi x s = (.ok x, s) := by
  obtain ⟨v', u, r, o⟩ := x
  cases hv
  cases hu
  simp [finalize, finalizeOpd]

end MC
