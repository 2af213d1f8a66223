import Verif.Model.Compact
import Verif.Props.To
import Verif.Lemmas.Arrays
import Verif.Lemmas.Strings

/-! # C76: `compact` -/

namespace MC.Props
open MC.Unit MC.Unit.To MC.Unit.Spec MC.Arrays
set_option linter.unusedSectionVars false

section
variable {U D K R C σ : Type} [DecidableEq U] [DecidableEq D] [Field K] [DecidableEq K] {pw : K → ℚ → K} {N : Norm U D K} {t : D}
  {c : Calc K (UnitObj U) R C}

/-- A number with a unit. -/
def numberWithUnit (x : Opd K (UnitObj U) R) : Bool :=
  match x.value with
  | .sc _ => x.unit.isSome
  | _ => false

/-- The validator of numbers with units (`units.py:140-145`). -/
def KnowsUnits (c : Calc K (UnitObj U) R C) : Prop :=
  c.validator "number with unit" = some (fun x _ => .ok (numberWithUnit x))

theorem compact_call (hc : KnowsUnits c) {fuel : ℕ} {v : K} {o : UnitObj U} {r : Option R} (s : σ) :
    call c (opCompact pw N fuel) [⟨.sc v, some o, r, none⟩] s =
      match simplifyUnits pw N fuel v o.list with
      | some (.ok (w, u)) => (.ok ⟨.sc w, u.map (fun l => ⟨l, false⟩), none, none⟩, s)
      | some (.error e) => (.error (wrap c (opCompact (R := R) (σ := σ) pw N fuel) [⟨.sc v, some o, r, none⟩] e), s)
      | none => (.error (wrap c (opCompact (R := R) (σ := σ) pw N fuel) [⟨.sc v, some o, r, none⟩] (.py "out of steps")), s) := by
  have hsc : ∀ z ∈ [(⟨.sc v, some o, r, none⟩ : Opd K (UnitObj U) R)], Strings.IsScalar z := by simp [Strings.IsScalar]
  have hval : validate c (opCompact (R := R) (σ := σ) pw N fuel) [⟨.sc v, some o, r, none⟩] = .ok () := by
    simp [validate, opCompact, checkValues, checkFrom, Operation.applies, anyType, validateInput, checkUnits,
      show c.validator "number with unit" = _ from hc, numberWithUnit]
  rw [call_direct (Strings.spreads_scalar hsc 0) (by
      intro h; simp [opCompact, Operation.mustBe, Operation.onlyType, Operation.applies, ObjType.main] at h) rfl
    (by intro z hz; simp at hz; rw [hz]; rfl)]
  unfold attempt
  rw [hval]
  have hprep : prepare c (opCompact (R := R) (σ := σ) pw N fuel) [⟨.sc v, some o, r, none⟩] =
      .ok ([⟨.sc v, some o, r, none⟩], none, none) := by
    simp [prepare, opCompact, convertFrom, convertible, castOf, numbersFrom, Operation.canBe, Operation.applies,
      ObjType.main, normaliseArrays]
  rw [hprep]
  simp only [opCompact]
  cases simplifyUnits pw N fuel v o.list with
  | none => rfl
  | some res =>
    cases res with
    | error e => rfl
    | ok p => rfl

/-- **C76**: `compact(x)` is the same quantity as `x`, and changes no variable; it is the number and the unit that `x` would be
shown with as an answer whose unit was not asked for.  Missing: temperatures. -/
theorem C76_compact_partial (hL : Lawful pw N) (hC : Coherent N) (hT : Thermal N t) (hc : KnowsUnits c) {fuel : ℕ}
    {v : K} {o : UnitObj U} {r : Option R} {y : Opd K (UnitObj U) R} {s s' : σ} (hw : Without N t o.list)
    (h : call c (opCompact pw N fuel) [⟨.sc v, some o, r, none⟩] s = (.ok y, s')) :
    s' = s ∧ (∃ w, y.value = .sc w ∧ quantity pw N (w, y.unit.map (·.list)) = quantity pw N (v, some o.list)) ∧
    ∃ z, finalizeOpd (unitFinish pw N R fuel) ⟨.sc v, some ⟨o.list, false⟩, r, none⟩ = .ok z ∧
      z.value = y.value ∧ z.unit = y.unit := by
  rw [compact_call hc] at h
  cases hq : simplifyUnits pw N fuel v o.list with
  | none => rw [hq] at h; exact absurd (congrArg Prod.fst h) (by simp)
  | some res =>
    rw [hq] at h
    cases res with
    | error e => exact absurd (congrArg Prod.fst h) (by simp)
    | ok p =>
      obtain ⟨w, u⟩ := p
      cases h
      refine ⟨rfl, ⟨w, rfl, ?_⟩, ⟨.sc w, u.map (fun l => ⟨l, false⟩), r, none⟩, ?_, rfl, rfl⟩
      · have e := C45_simplify_partial hL hC hT hw hq
        rw [← e]
        cases u <;> rfl
      · simp [finalizeOpd, unitFinish, hq]

/-- **C76**: `compact` of a number without a unit is an error, and nothing changes. -/
theorem C76_compact_bare (hc : KnowsUnits c) {fuel : ℕ} {v : K} {r : Option R} (s : σ) :
    ∃ e, call c (opCompact pw N fuel) [⟨.sc v, none, r, none⟩] s = (.error e, s) := by
  have hsc : ∀ z ∈ [(⟨.sc v, none, r, none⟩ : Opd K (UnitObj U) R)], Strings.IsScalar z := by simp [Strings.IsScalar]
  have hval : ∃ e, validate c (opCompact (R := R) (σ := σ) pw N fuel) [⟨.sc v, none, r, none⟩] = .error e := by
    simp [validate, opCompact, checkValues, checkFrom, Operation.applies, anyType, validateInput,
      show c.validator "number with unit" = _ from hc, numberWithUnit]
  obtain ⟨e, he⟩ := hval
  rw [call_direct (Strings.spreads_scalar hsc 0) (by
      intro h; simp [opCompact, Operation.mustBe, Operation.onlyType, Operation.applies, ObjType.main] at h) rfl
    (by intro z hz; simp at hz; rw [hz]; rfl)]
  unfold attempt
  rw [he]
  exact ⟨_, rfl⟩

end

/-! ### Examples -/

open MC.Unit.Table MC.Unit.Format

/-- A calculator of rational numbers with units. -/
def unitKnower : Calc ℚ (UnitObj Shipped) ℕ ℕ where
  validator n := if n = "number with unit" then some (fun x _ => .ok (numberWithUnit x)) else none
  number x := some x
  isNumber _ := true
  cast _ := none
  setCast _ x := x
  normalise := none
  toString _ := .ok "?"

theorem unitKnower_knows : KnowsUnits unitKnower := by
  unfold KnowsUnits unitKnower
  simp

/-- `compact(5 seconds^-1)` is 5 hertz. -/
example : (match (call unitKnower (opCompact intPow plainNorm 9) [⟨.sc 5, some (twoUnits 1), none, none⟩] ()).1 with
    | .ok y => shownParts ⟨.arr [y], none, none, none⟩
    | .error _ => []) = [(5, [("hertz", 1)])] := by
  rw [compact_call unitKnower_knows]
  decide +kernel

/-- The unit has no temperature. -/
example : Without plainNorm "temperature" (twoUnits 1).list := by
  unfold Without
  decide +kernel

end MC.Props
