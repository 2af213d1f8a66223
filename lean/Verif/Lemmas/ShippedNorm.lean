import Mathlib.Data.Rat.Cast.CharZero
import Mathlib.Tactic.NormNum
import Verif.Model.ShippedNorm
import Verif.Spec.International
import Verif.Spec.Units

/-! # Checks of the sizes and dimensions of the shipped units -/

namespace MC.Unit.Table
open MC.Spec.International

/-- The size of a step of a shipped unit. -/
def Made.step (u : Made) : ℚ :=
  match u.cls.kind with
  | .scale => u.scale
  | .celsius => 1
  | .fahrenheit => 5 / 9

/-- The power of a base dimension in a shipped unit. -/
def Made.power (u : Made) (d : String) : ℚ :=
  match relOf u.dim with
  | some l => ((l.filter (fun o => o.1 = d)).map (·.2)).sum
  | none => if u.dim = d then 1 else 0

/-- The definition is about this unit, with all its names and symbols, and gives it the size and the
dimension that the unit has. -/
def fits (u : Made) (d : Definition × Worth) : Bool :=
  u.cls.names.all (fun n => (d.1.names.map String.toList).contains (lowerText n.toList))
  && u.cls.symbols.all (fun s => d.1.symbols.contains s)
  && (match u.pre.bind (·.name) with
  | none => decide (u.step = d.2.value) && decide (u.pre.bind (·.symbol) = none)
  | some pn => d.1.prefixes.any (fun q => decide (q.name = pn) && (decide (pn = "kibi") || decide (some q.symbol = u.pre.bind (·.symbol)))
      && decide (lowerText q.name.toList = q.name.toList) && decide (u.step = q.factor * d.2.value)))
  && decide (quantities.map u.power = d.2.powers.map (fun z : ℤ => (z : ℚ)))

/-- The units whose size is not the international one. -/
def odd : List Cls := [parsec, degree, acre, pSI, uSDram]

theorem all_fit : ∀ u ∈ units, u.cls ∈ odd ∨ worths.any (fits u) = true := by decide +kernel

theorem step_pos : ∀ u ∈ units, 0 < u.step := by decide +kernel

theorem scale_kind : ∀ u ∈ units, u.dim ≠ "temperature" → u.cls.kind = .scale := by decide +kernel

/-- The dimension is a base quantity or a product of powers of base quantities. -/
def dimKnown (d : String) : Bool :=
  match relOf d with
  | some l => l.all (fun o => quantities.contains o.1)
  | none => quantities.contains d

theorem dim_other {n : String} (h : dimKnown n = true) {d : String} (hd : d ∉ quantities) :
    (match relOf n with
      | some l => Spec.total l d
      | none => if n = d then 1 else 0) = 0 := by
  unfold dimKnown at h
  cases hr : relOf n with
  | some l =>
    rw [hr] at h
    simp only [List.all_eq_true, List.contains_iff_mem] at h
    simp only [Spec.total]
    rw [List.filter_eq_nil_iff.2]
    · rfl
    · intro o ho he
      simp only [decide_eq_true_eq] at he
      exact hd (he ▸ h o ho)
  | none =>
    rw [hr] at h
    simp only [List.contains_iff_mem] at h
    simp only
    rw [if_neg]
    rintro rfl
    exact hd h

theorem dims_known : ∀ u ∈ units, dimKnown u.dim = true := by decide +kernel

theorem power_other {u : Made} (hu : u ∈ units) {d : String} (hd : d ∉ quantities) :
    u.power d = 0 := dim_other (dims_known u hu) hd

theorem no_temperature : ∀ u ∈ units, u.dim ≠ "temperature" → u.power "temperature" = 0 := by
  decide +kernel

theorem rel_proper : ∀ d l, relOf d = some l → Spec.Proper l ∧ l ≠ [] := by
  intro d l h
  have hall : ∀ x ∈ lines, ∀ n r, x = .dim n r → (r.map (·.1)).Nodup ∧ ∀ o ∈ r, o.2 ≠ 0 := by
    have : ∀ x ∈ lines, (match x with
        | .dim _ r => decide ((r.map (·.1)).Nodup ∧ ∀ o ∈ r, o.2 ≠ 0)
        | _ => true) = true := by decide +kernel
    rintro x hx n r rfl
    simpa using this _ hx
  unfold relOf at h
  obtain ⟨x, hx, hm⟩ := List.exists_of_findSome?_eq_some h
  split at hm
  · rename_i n r
    split at hm
    · rename_i hc
      cases hm
      obtain ⟨h1, h2⟩ := hall _ hx n r rfl
      refine ⟨⟨by simpa [List.map_map, Function.comp_def] using h1, ?_⟩, by simpa using hc.2⟩
      intro o ho
      obtain ⟨o', ho', rfl⟩ := List.mem_map.1 ho
      simpa using h2 o' ho'
    · exact absurd hm (by simp)
  · exact absurd hm (by simp)

/-- A shipped multi-unit has the dimension it is registered for, and has nothing to do with
temperature. -/
def multiFits : Line → Bool
  | .multi n us =>
    decide ((((multiOf us).map (fun o => o.1.1)).Nodup ∧ ∀ o ∈ multiOf us, o.2 ≠ 0 ∧
      o.1.1.dim ≠ "temperature")) && dimKnown n && quantities.all (fun d =>
        decide (((multiOf us).map (fun o => o.2 * o.1.1.power d)).sum =
          match relOf n with
          | some l => Spec.total l d
          | none => if n = d then 1 else 0))
  | _ => true

theorem multis_fit : ∀ x ∈ lines, multiFits x = true := by decide +kernel

attribute [local irreducible] units lines

section
variable {K : Type} [Field K] [CharZero K]
variable {closer : K → K → Except Raise Bool} {simpler : K → K → Bool}

theorem stepSize_norm (u : Shipped) :
    Spec.stepSize ((norm K closer simpler).info u) = (u.1.step : K) := by
  unfold Spec.stepSize Made.step norm normInfo
  simp only
  cases u.1.cls.kind <;> simp

omit [CharZero K] in
theorem unitDim_norm (u : Shipped) (d : String) :
    Spec.unitDim (norm K closer simpler) u d = u.1.power d := by
  unfold Spec.unitDim Made.power
  have h1 : (norm K closer simpler).rel ((norm K closer simpler).info u).dim = relOf u.1.dim := rfl
  have h2 : ((norm K closer simpler).info u).dim = u.1.dim := rfl
  rw [h1, h2]
  cases relOf u.1.dim <;> rfl

omit [CharZero K] in
theorem rel_norm (d : String) : (norm K closer simpler).rel d = relOf d := rfl

theorem multi_mem {d : String} {m : PL Shipped} (h : m ∈ (norm K closer simpler).multiunits d) :
    ∃ us, Line.multi d us ∈ lines ∧ m = multiOf us := by
  unfold norm at h
  simp only at h
  obtain ⟨x, hx, e⟩ := List.mem_filterMap.1 h
  split at e
  · rename_i n us
    split at e
    · rename_i hn
      subst hn
      cases e
      exact ⟨us, hx, rfl⟩
    · exact absurd e (by simp)
  · exact absurd e (by simp)

theorem coherent_norm : Spec.Coherent (norm K closer simpler) where
  rel d l h := rel_proper d l h
  units := by
    intro e he u hu
    obtain ⟨d, _, rfl⟩ := List.mem_map.1 he
    have := (List.mem_filter.1 hu).2
    show u.1.dim = d
    simpa using this
  multi := by
    intro e _ m hm
    obtain ⟨us, hx, rfl⟩ := multi_mem hm
    have := multis_fit _ hx
    unfold multiFits at this
    simp only [Bool.and_eq_true, decide_eq_true_eq, List.all_eq_true] at this
    obtain ⟨⟨⟨h1, h2⟩, h3⟩, h4⟩ := this
    refine ⟨⟨?_, fun o ho => (h2 o ho).1⟩, ?_⟩
    · refine List.Nodup.of_map (fun u : Shipped => u.1) ?_
      rw [List.map_map]
      exact h1
    · intro d
      rw [rel_norm]
      by_cases hd : d ∈ quantities
      · refine Eq.trans ?_ ((h4 d hd).trans ?_)
        · unfold Spec.dimOf
          simp only [unitDim_norm]
        · cases relOf e.1 <;> rfl
      · refine Eq.trans ?_ ((dim_other h3 hd).symm.trans ?_)
        swap
        · cases relOf e.1 <;> rfl
        unfold Spec.dimOf
        apply List.sum_eq_zero
        intro x hx
        obtain ⟨o, ho, rfl⟩ := List.mem_map.1 hx
        rw [unitDim_norm, power_other o.1.2 hd, mul_zero]

theorem thermal_norm : Spec.Thermal (norm K closer simpler) "temperature" where
  kind u h := scale_kind u.1 u.2 h
  base := by
    show relOf "temperature" = none
    decide +kernel
  apart u h := by
    rw [unitDim_norm]
    exact no_temperature u.1 u.2 h
  multi := by
    intro d _ m hm o ho
    obtain ⟨us, hx, rfl⟩ := multi_mem hm
    have := multis_fit _ hx
    unfold multiFits at this
    simp only [Bool.and_eq_true, decide_eq_true_eq, List.all_eq_true] at this
    exact (this.1.1.2 o ho).2

end

end MC.Unit.Table
