import Verif.Props.Compact

/-! # C76: answers in a single unit, temperatures included -/

namespace MC.Props
open MC.Unit MC.Unit.To MC.Unit.Spec MC.Arrays

/-- The unit is one unit to a positive power, such as `metres`, `Celsius` or `seconds^2`. -/
def Lone {U : Type} (o : UnitObj U) : Prop := ∃ u q, o.list = [(u, q)] ∧ 0 < q

/-- All numbers of the answer are without unit, or in one unit to a positive power. -/
inductive LoneUnits {K U R : Type} : Opd K (UnitObj U) R → Prop
  | arr {xs : List (Opd K (UnitObj U) R)} {u r o} : (∀ x ∈ xs, LoneUnits x) → LoneUnits ⟨.arr xs, u, r, o⟩
  | num {v : K} {w : UnitObj U} {r o} : Lone w → LoneUnits ⟨.sc v, some w, r, o⟩
  | bare {v : Val K (UnitObj U) R} {r o} : v.arr? = none → LoneUnits ⟨v, none, r, o⟩

section
variable {U D K R C σ : Type} [DecidableEq U] [DecidableEq D] [Field K] [DecidableEq K] {pw : K → ℚ → K} {N : Norm U D K}
  {c : Calc K (UnitObj U) R C}

theorem simplify_lone {fuel : ℕ} {v : K} {u : U} {q : ℚ} (hq : 0 < q) :
    simplifyUnits pw N fuel v [(u, q)] = some (.ok (v, some [(u, q)])) := by
  have h1 : needsSimplify [(u, q)] = false := by simp [needsSimplify, le_of_lt hq]
  simp [simplifyUnits, h1, dedupe, checkEmpty]

mutual
theorem finalize_lone {fuel : ℕ} : ∀ (x : OpdF (Val K (UnitObj U) R) (UnitObj U) R), LoneUnits x →
    finalizeOpd (unitFinish pw N R fuel) x = .ok x
  | ⟨.arr xs, u, r, o⟩, h => by
    have h' : ∀ x ∈ xs, LoneUnits x := by
      cases h with
      | arr h => exact h
      | bare h => exact absurd h (by simp [Val.arr?])
    simp only [finalizeOpd]
    rw [finalizeList_lone xs h']
  | ⟨.sc v, u, r, o⟩, h => by
    cases h with
    | num hw =>
      obtain ⟨b, q, h1, h2⟩ := hw
      rename_i w
      obtain ⟨l, k⟩ := w
      cases h1
      cases k <;> simp [finalizeOpd, unitFinish, simplify_lone h2]
    | bare h => simp [finalizeOpd]
  | ⟨.exc e, u, r, o⟩, h => by
    cases h with
    | bare h => simp [finalizeOpd]
theorem finalizeList_lone {fuel : ℕ} : ∀ (xs : List (OpdF (Val K (UnitObj U) R) (UnitObj U) R)), (∀ x ∈ xs, LoneUnits x) →
    finalizeList (unitFinish pw N R fuel) xs = .ok xs
  | [], _ => by simp [finalizeList]
  | x :: xs, h => by
    simp only [finalizeList]
    rw [finalize_lone x (h x (by simp)), finalizeList_lone xs (fun y hy => h y (by simp [hy]))]
end

/-- **C76**: an answer whose numbers have no unit, or one unit to a positive power, is shown exactly as it was computed: no number and no
unit of it changes.  This holds for all units, temperatures too. -/
theorem C76_one_unit {fuel : ℕ} {x : Opd K (UnitObj U) R} (h : LoneUnits x) :
    finalizeOpd (unitFinish pw N R fuel) x = .ok x := finalize_lone x h

/-- **C76**: `compact` of a number with one unit to a positive power is that number with that unit, for all units. -/
theorem C76_compact_one (hc : KnowsUnits c) {fuel : ℕ} {v : K} {o : UnitObj U} {r : Option R} (ho : Lone o) (s : σ) :
    call c (opCompact pw N fuel) [⟨.sc v, some o, r, none⟩] s = (.ok ⟨.sc v, some ⟨o.list, false⟩, none, none⟩, s) := by
  rw [compact_call hc]
  obtain ⟨u, q, h1, h2⟩ := ho
  rw [h1, simplify_lone h2]
  rfl

end

/-! ### Examples -/

open MC.Unit.Table MC.Unit.Format

/-- `[20 Celsius, 3]`. -/
def mildDay (u : Shipped) : Opd ℚ (UnitObj Shipped) ℕ :=
  ⟨.arr [⟨.sc 20, some ⟨[(u, 1)], false⟩, none, none⟩, ⟨.sc 3, none, none, none⟩], none, none, none⟩

/-- There is such a unit, and `[20 Celsius, 3]` is shown as it is. -/
example : ∃ u, byName "Celsius" = some u ∧ finalizeOpd (unitFinish intPow plainNorm ℕ 9) (mildDay u) = .ok (mildDay u) := by
  have h : (byName "Celsius").isSome = true := by decide +kernel
  obtain ⟨u, hu⟩ := Option.isSome_iff_exists.1 h
  refine ⟨u, hu, C76_one_unit (.arr ?_)⟩
  intro x hx
  simp only [List.mem_cons, List.not_mem_nil, or_false] at hx
  rcases hx with rfl | rfl
  · exact .num ⟨u, 1, rfl, by norm_num⟩
  · exact .bare rfl

end MC.Props
