import Verif.Model.Operation

/-! # What may happen to an answer before it is shown -/

namespace MC.Spec

variable {S U R : Type}

/-- The answers have the same shape, references and so on, and their parts which are not arrays are related. -/
inductive Likewise (ok : Val S U R → Option U → Val S U R → Option U → Prop) :
    Opd S U R → Opd S U R → Prop
  | arr {xs ys : List (Opd S U R)} {u : Option U} {r : Option R} {o} :
    List.Forall₂ (Likewise ok) xs ys → Likewise ok ⟨.arr xs, u, r, o⟩ ⟨.arr ys, u, r, o⟩
  | leaf {v w : Val S U R} {u u' : Option U} {r : Option R} {o} :
    v.arr? = none → ok v u w u' → Likewise ok ⟨v, u, r, o⟩ ⟨w, u', r, o⟩

end MC.Spec
