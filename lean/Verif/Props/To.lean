import Verif.Model.To
import Verif.Props.Format
import Verif.Props.Units2
import Verif.Spec.Final

/-! # C76: an answer is given in the unit that was asked for, and is the same quantity -/

namespace MC.Props
open MC.Unit MC.Unit.Spec MC.Unit.To

section
variable {U D K : Type} [DecidableEq U] [DecidableEq D] [Field K] [DecidableEq K]
variable {pw : K → ℚ → K} {N : Norm U D K}

/-- C76: the answer of `x to unit` is shown in the unit asked for (the order of the factors may be that
of the unit of `x`), and it is the same quantity: a unit alone is one of it. -/
theorem C76_to (hL : Lawful pw N) {n : ℕ} {h h' : Heap U} {x : Left K} {v : K} {a dst r : ℕ} {w : K}
    (hx : x = .num v a ∨ x = .unit a ∧ v = 1)
    (hs : ∀ o ∈ (h a).list, (N.info o.1).kind = .scale) (hd : ∀ o ∈ (h dst).list, (N.info o.1).kind = .scale)
    (ho : opTo pw N h x dst = (.ok (w, r), h')) :
    ∃ l, answer pw N n h' w r = some (.ok (w, some l)) ∧ l.Perm (h dst).list ∧
      w * size pw N (h dst).list = v * size pw N (h a).list := by
  obtain ⟨rfl, rfl⟩ : v = x.split.1 ∧ a = x.split.2 := by
    rcases hx with rfl | ⟨rfl, rfl⟩ <;> exact ⟨rfl, rfl⟩
  unfold opTo at ho
  cases hc : unitConversion pw N x.split.1 (some (h x.split.2).list) (some (h dst).list) false with
  | error e => rw [hc] at ho; exact absurd ho (by simp)
  | ok y =>
    obtain ⟨w', u⟩ := y
    rw [hc] at ho
    simp only [Prod.mk.injEq, Except.ok.injEq] at ho
    obtain ⟨⟨rfl, rfl⟩, rfl⟩ := ho
    obtain ⟨hv, l, hl, hp⟩ := C42_conversion_value hL (fun o ho => .inr (hs o ho)) (fun o ho => .inr (hd o ho)) hc
    refine ⟨((h (if same (h x.split.2).list (h dst).list then x.split.2 else dst))).list, ?_, ?_, hv⟩
    · simp [answer, Heap.flag]
    · by_cases hsame : same (h x.split.2).list (h dst).list = true
      · rw [if_pos hsame]
        unfold unitConversion at hc
        simp only [hsame, if_true, Except.ok.injEq, Prod.mk.injEq] at hc
        rw [hl] at hc
        cases hc.2
        exact hp
      · rw [if_neg hsame]

/-- C76: `to` changes no unit: neither what any unit is, nor, unless the very same unit object is asked
for with `to`, how numbers with it are shown. -/
theorem C76_others_partial {n : ℕ} {h h' : Heap U} {x : Left K} {dst : ℕ} {res : Except Raise (K × ℕ)}
    (ho : opTo pw N h x dst = (res, h')) :
    (∀ a, (h' a).list = (h a).list) ∧
    ∀ a v, a ≠ dst → a ≠ x.split.2 → answer pw N n h' v a = answer pw N n h v a := by
  unfold opTo at ho
  cases hc : unitConversion pw N x.split.1 (some (h x.split.2).list) (some (h dst).list) false with
  | error e =>
    rw [hc] at ho
    simp only [Prod.mk.injEq] at ho
    rw [← ho.2]
    exact ⟨fun _ => rfl, fun _ _ _ _ => rfl⟩
  | ok y =>
    rw [hc] at ho
    simp only [Prod.mk.injEq] at ho
    rw [← ho.2]
    constructor
    · intro a; unfold Heap.flag; split <;> split <;> rfl
    · intro a v h1 h2
      have : (if same (h x.split.2).list (h dst).list then x.split.2 else dst) ≠ a := by
        split
        · exact fun e => h2 e.symm
        · exact fun e => h1 e.symm
      unfold answer Heap.flag
      simp [Ne.symm this]

/-! ### Whole answers -/

theorem leaf_likewise {S V R : Type} {fi : Finish S V R} {ok : Val S V R → Option V → Val S V R → Option V → Prop}
    (h0 : ∀ v, v.arr? = none → ok v none v none)
    (h1 : ∀ v u, v.arr? = none → (fi.on = false ∨ fi.keeps u = true) → ok v (some u) v (some u))
    (h2 : ∀ v u w u', fi.on = true → fi.keeps u = false → fi.simplify v u = .ok (w, u') → ok v (some u) w u')
    (v : Val S V R) (hv : v.arr? = none) (u : Option V) (r : Option R) (o : Option (Val S V R × Option V)) (y : Opd S V R)
    (h : (match u with
      | none => .ok ⟨v, none, r, o⟩
      | some u =>
        if fi.on && !fi.keeps u then
          match fi.simplify v u with
          | .ok (v', u') => .ok ⟨v', u', r, o⟩
          | .error e => .error e
        else .ok ⟨v, some u, r, o⟩ : Except Raise (Opd S V R)) = .ok y) : Spec.Likewise ok ⟨v, u, r, o⟩ y := by
  cases u with
  | none => cases h; exact .leaf hv (h0 v hv)
  | some u =>
    simp only at h
    by_cases hc : (fi.on && !fi.keeps u) = true
    · rw [if_pos hc] at h
      simp only [Bool.and_eq_true, Bool.not_eq_true'] at hc
      cases hs : fi.simplify v u with
      | error e => rw [hs] at h; exact absurd h (by simp)
      | ok p =>
        obtain ⟨w, u'⟩ := p
        rw [hs] at h
        cases h
        exact .leaf hv (h2 v u w u' hc.1 hc.2 hs)
    · rw [if_neg hc] at h
      cases h
      refine .leaf hv (h1 v u hv ?_)
      cases hon : fi.on <;> cases hk : fi.keeps u <;> simp [hon, hk] at hc ⊢

mutual
theorem finalizeOpd_likewise {S V R : Type} {fi : Finish S V R} {ok : Val S V R → Option V → Val S V R → Option V → Prop}
    (h0 : ∀ v, v.arr? = none → ok v none v none)
    (h1 : ∀ v u, v.arr? = none → (fi.on = false ∨ fi.keeps u = true) → ok v (some u) v (some u))
    (h2 : ∀ v u w u', fi.on = true → fi.keeps u = false → fi.simplify v u = .ok (w, u') → ok v (some u) w u') :
    ∀ (x y : OpdF (Val S V R) V R), finalizeOpd fi x = .ok y → Spec.Likewise ok x y
  | ⟨v, u, r, o⟩, y, h => by
    unfold finalizeOpd at h
    match v, h with
    | .arr xs, h =>
      simp only at h
      cases hx : finalizeList fi xs with
      | error e => rw [hx] at h; exact absurd h (by simp)
      | ok ys =>
        rw [hx] at h
        cases h
        exact .arr (finalizeList_likewise h0 h1 h2 xs ys hx)
    | .sc x, h =>
      simp only at h
      refine leaf_likewise h0 h1 h2 _ rfl u r o y ?_
      cases u <;> exact h
    | .exc x, h =>
      simp only at h
      refine leaf_likewise h0 h1 h2 _ rfl u r o y ?_
      cases u <;> exact h
theorem finalizeList_likewise {S V R : Type} {fi : Finish S V R} {ok : Val S V R → Option V → Val S V R → Option V → Prop}
    (h0 : ∀ v, v.arr? = none → ok v none v none)
    (h1 : ∀ v u, v.arr? = none → (fi.on = false ∨ fi.keeps u = true) → ok v (some u) v (some u))
    (h2 : ∀ v u w u', fi.on = true → fi.keeps u = false → fi.simplify v u = .ok (w, u') → ok v (some u) w u') :
    ∀ (xs ys : List (OpdF (Val S V R) V R)), finalizeList fi xs = .ok ys → List.Forall₂ (Spec.Likewise ok) xs ys
  | [], ys, h => by
    unfold finalizeList at h
    cases h
    exact .nil
  | x :: xs, ys, h => by
    unfold finalizeList at h
    cases hx : finalizeOpd fi x with
    | error e => rw [hx] at h; exact absurd h (by simp)
    | ok y =>
      rw [hx] at h
      cases hxs : finalizeList fi xs with
      | error e => rw [hxs] at h; exact absurd h (by simp)
      | ok ys' =>
        rw [hxs] at h
        cases h
        exact .cons (finalizeOpd_likewise h0 h1 h2 x y hx) (finalizeList_likewise h0 h1 h2 xs ys' hxs)
end

/-- What becomes of one number with a unit: nothing when there is no unit or the unit was asked for;
else the quantity is the same (`t`: temperature). -/
def SameQuantity {R : Type} (pw : K → ℚ → K) (N : Norm U D K) (t : D) (v : Val K (UnitObj U) R) (u : Option (UnitObj U))
    (w : Val K (UnitObj U) R) (u' : Option (UnitObj U)) : Prop :=
  match u with
  | none => w = v ∧ u' = none
  | some o =>
    if o.keep then w = v ∧ u' = some o
    else ∃ x y, v = .sc x ∧ w = .sc y ∧ (Without N t o.list →
      quantity pw N (y, u'.map (·.list)) = quantity pw N (x, some o.list))

variable {t : D}

/-- C76, whole answers: what is shown has the same shape as what was computed, and every number in it is
the same quantity; in the same unit if it was asked for with `to`.  Missing: temperatures. -/
theorem C76_answer_partial {R : Type} (hL : Lawful pw N) (hC : Coherent N) (hT : Thermal N t)
    {n : ℕ} {x y : Opd K (UnitObj U) R}
    (h : finalizeOpd (unitFinish pw N R n) x = .ok y) :
    Spec.Likewise (SameQuantity pw N t) x y := by
  refine finalizeOpd_likewise ?_ ?_ ?_ x y h
  · intro v _; exact ⟨rfl, rfl⟩
  · intro v u _ hk
    have hk : u.keep = true := hk.elim (fun h => absurd h (by simp [unitFinish])) id
    simp [SameQuantity, hk]
  · intro v u w u' _ hk hs
    have hk : u.keep = false := hk
    simp only [SameQuantity, hk, Bool.false_eq_true, if_false]
    unfold unitFinish at hs
    match v, hs with
    | .sc x, hs =>
      simp only at hs
      cases hq : simplifyUnits pw N n x u.list with
      | none => rw [hq] at hs; exact absurd hs (by simp)
      | some res =>
        rw [hq] at hs
        cases res with
        | error e => exact absurd hs (by simp)
        | ok p =>
          obtain ⟨y, l⟩ := p
          simp only [Except.ok.injEq, Prod.mk.injEq] at hs
          refine ⟨x, y, rfl, hs.1.symm, fun hw => ?_⟩
          have := C45_simplify_partial hL hC hT hw hq
          rw [← this, ← hs.2]
          cases l <;> rfl
    | .arr _, hs => exact absurd hs (by simp)
    | .exc _, hs => exact absurd hs (by simp)

end

/-! ### Examples -/

open MC.Unit.Table MC.Unit.Format

/-- The unit objects at two addresses: `hertz` and `seconds^-1`. -/
def twoUnits : Heap Shipped := fun a =>
  if a = 0 then ⟨((byName "hertz").map (fun u => (u, 1))).toList, false⟩
  else ⟨((byName "seconds").map (fun u => (u, -1))).toList, false⟩

/-- The names of the units of an answer. -/
def shownAnswer (r : Option (Except Raise (ℚ × Option (PL Shipped)))) : Option (ℚ × List (String × ℚ)) :=
  match r with
  | some (.ok (v, some l)) => some (v, l.map (fun o => (String.ofList (face.plural o.1), o.2)))
  | _ => none

/-- `3 hertz to seconds^-1` is shown as it was asked for. -/
example : (opTo intPow plainNorm twoUnits (.num 3 0) 1).1 = .ok (3, 1) ∧
    shownAnswer (answer intPow plainNorm 9 (opTo intPow plainNorm twoUnits (.num 3 0) 1).2 3 1)
      = some (3, [("seconds", -1)]) := by
  decide +kernel

/-- `hertz to seconds^-1` is one. -/
example : (opTo intPow plainNorm twoUnits (.unit 0) 1).1 = .ok (1, 1) := by
  decide +kernel

/-- The parts of an answer, as they are shown. -/
def shownParts : Opd ℚ (UnitObj Shipped) ℕ → List (ℚ × List (String × ℚ))
  | ⟨.arr xs, _, _, _⟩ => xs.flatMap (fun x => match x.value, x.unit with
    | .sc v, some o => [(v, o.list.map (fun o => (String.ofList (face.plural o.1), o.2)))]
    | .sc v, none => [(v, [])]
    | _, _ => [])
  | _ => []

/-- An array of a number, of 5 `seconds^-1` that may be simplified, and of 5 that may not. -/
example : (match finalizeOpd (unitFinish intPow plainNorm ℕ 9)
      ⟨.arr [⟨.sc 5, none, none, none⟩, ⟨.sc 5, some (twoUnits 1), none, none⟩,
        ⟨.sc 5, some ⟨(twoUnits 1).list, true⟩, none, none⟩], none, none, none⟩ with
    | .ok y => some (shownParts y)
    | .error _ => none) = some [(5, []), (5, [("hertz", 1)]), (5, [("seconds", -1)])] := by
  decide +kernel

/-- The hypotheses of `C76_answer_partial` and `C76_to` hold of the shipped units. -/
example {closer : ℝ → ℝ → Except Raise Bool} {simpler : ℝ → ℝ → Bool} {n : ℕ} {x y : Opd ℝ (UnitObj Shipped) ℕ}
    (h : finalizeOpd (unitFinish (fun (x : ℝ) (p : ℚ) => x ^ (p : ℝ)) (norm ℝ closer simpler) ℕ n) x = .ok y) :=
  C76_answer_partial (C74_registry powers_real).1 (C74_registry powers_real).2.1
    (C74_registry powers_real).2.2 h

/-- C76_others is false for the unit object that was asked for: after `u = seconds^-1`, the line `5 u` is
shown as `5 hertz`; after `3 hertz to u`, which assigns nothing, it is shown as `5 seconds^-1`. -/
theorem C76_others_violation :
    shownAnswer (answer intPow plainNorm 9 twoUnits 5 1) = some (5, [("hertz", 1)]) ∧
    shownAnswer (answer intPow plainNorm 9 (opTo intPow plainNorm twoUnits (.num 3 0) 1).2 5 1)
      = some (5, [("seconds", -1)]) := by
  decide +kernel

end MC.Props
