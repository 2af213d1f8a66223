import Verif.Model.UnitCheck
import Verif.Spec.UnitCheck
import Verif.Props.Units
import Verif.Props.Dates
import Verif.Props.Operation
import Verif.Lemmas.ShippedNorm

/-! # C88: what requires a dimension takes the units of that dimension -/

namespace MC.Props
open MC.Unit MC.Unit.Spec

section
variable {U D K : Type} [DecidableEq U] [DecidableEq D] [Field K] {N : Norm U D K} {dims : List D}

omit [DecidableEq U] [Field K] in
theorem required_base {req : PL D} (h : ∀ o ∈ req, N.rel o.1 = none) (d : D) : required N req d = total req d := by
  induction req with
  | nil => rfl
  | cons o req ih =>
    have := ih (fun x hx => h x (by simp [hx]))
    unfold required at this ⊢
    rw [List.map_cons, List.sum_cons, this, total_cons, baseDim, h o (by simp)]
    by_cases hd : o.1 = d <;> simp [hd]

omit [DecidableEq U] [Field K] in
theorem check_known {req : PL D} (hk : ∀ o ∈ req, o.1 ∈ dims) (unit : Option (PL U)) :
    checkUnitDimensions N dims req unit = match unit with
      | none => .ok false
      | some l => .ok (decide (dimList N l = req)) := by
  unfold checkUnitDimensions
  rw [if_neg]
  · cases unit <;> rfl
  · rw [List.any_eq_true]
    rintro ⟨o, ho, h⟩
    simp [hk o ho] at h

/-- **C88** (part: base dimensions only, in lists the code handles correctly): a unit that is accepted has the dimension that
is required.  Missing: a requirement that names a derived dimension is never met (`C88_derived_violation`). -/
theorem C88_accepted_partial {req : PL D} (hb : ∀ o ∈ req, N.rel o.1 = none) {unit : Option (PL U)}
    (hs : ∀ l, unit = some l → Steady (contributions N l))
    (h : checkUnitDimensions N dims req unit = .ok true) : HasDimension N unit req := by
  unfold checkUnitDimensions at h
  split at h
  · cases h
  · cases unit with
    | none => cases h
    | some l =>
      simp only [Except.ok.injEq, decide_eq_true_eq] at h
      refine ⟨l, rfl, fun d => ?_⟩
      rw [required_base hb, ← h, (C49_dimension_partial (hs l rfl)).2]

/-- **C88** (part: one base dimension): where a power of one base dimension is required, exactly the units
of this dimension are accepted, however they are written; a number without a unit is not. -/
theorem C88_one_dimension_partial {t : D} {q : ℚ} (hb : N.rel t = none) (hk : t ∈ dims) (hq : q ≠ 0)
    {unit : Option (PL U)} (hs : ∀ l, unit = some l → Steady (contributions N l)) :
    (checkUnitDimensions N dims [(t, q)] unit = .ok true ↔ HasDimension N unit [(t, q)]) ∧
    (checkUnitDimensions N dims [(t, q)] unit = .ok false ↔ ¬ HasDimension N unit [(t, q)]) := by
  have hb' : ∀ o ∈ [(t, q)], N.rel o.1 = none := by simpa using hb
  have key : checkUnitDimensions N dims [(t, q)] unit = .ok true ↔ HasDimension N unit [(t, q)] := by
    refine ⟨C88_accepted_partial hb' hs, ?_⟩
    rintro ⟨l, rfl, h⟩
    rw [check_known (by simpa using hk)]
    simp only [Except.ok.injEq, decide_eq_true_eq]
    obtain ⟨h1, h2⟩ := C49_dimension_partial (hs l rfl)
    have hp : Proper [(t, q)] := ⟨by simp, by simpa using hq⟩
    have := (same_iff_total h1 hp).2 (fun d => by rw [h2, h, required_base hb'])
    rw [same_iff] at this
    exact List.perm_singleton.1 this
  refine ⟨key, ?_⟩
  rw [← key, check_known (by simpa using hk)]
  cases unit with
  | none => simp
  | some l => by_cases h : dimList N l = [(t, q)] <;> simp [h]

/-- **C88** fails for derived dimensions: what requires one accepts no unit at all. -/
theorem C88_derived_violation {req : PL D} {o : D × ℚ} {r : PL D} (ho : o ∈ req) (hr : N.rel o.1 = some r)
    (hbase : ∀ d l, N.rel d = some l → ∀ x ∈ l, N.rel x.1 = none)
    {unit : Option (PL U)} (hs : ∀ l, unit = some l → Steady (contributions N l)) :
    checkUnitDimensions N dims req unit ≠ .ok true := by
  intro h
  unfold checkUnitDimensions at h
  split at h
  · cases h
  · cases unit with
    | none => cases h
    | some l =>
      simp only [Except.ok.injEq, decide_eq_true_eq] at h
      subst h
      obtain ⟨h1, h2⟩ := C49_dimension_partial (hs l rfl)
      have hne : total (dimList N l) o.1 ≠ 0 := by
        rw [total_of_mem h1.1 ho]
        exact h1.2 o ho
      apply hne
      rw [h2]
      unfold dimOf
      apply List.sum_eq_zero
      intro z hz
      obtain ⟨u, _, rfl⟩ := List.mem_map.1 hz
      have : unitDim N u.1 o.1 = 0 := by
        unfold unitDim
        cases hu : N.rel (N.info u.1).dim with
        | none =>
          dsimp only
          rw [if_neg]
          intro e
          rw [e, hr] at hu
          cases hu
        | some l' =>
          dsimp only
          unfold total
          rw [List.filter_eq_nil_iff.2]
          · rfl
          · intro x hx
            simp only [decide_eq_true_eq]
            intro e
            have := hbase _ _ hu x hx
            rw [e, hr] at this
            cases this
      rw [this, mul_zero]

/-- **C88**: an operation that requires a power of a base dimension is not applied to a number without such a
unit: it fails, and changes nothing. -/
theorem C88_refused {S R K' σ : Type} {c : Calc S (PL U) R K'} {op : Operation S (PL U) R σ} {r : UnitRestriction (PL U)}
    (hr : r ∈ op.units) {t : D} {q : ℚ} (hc : r.check = checkUnitDimensions N dims [(t, q)])
    (hb : N.rel t = none) {xs : List (Opd S (PL U) R)} (hsc : ∀ x ∈ xs, ∃ v, x.value = .sc v)
    (hone : op.maxParams = some 1 → xs.length ≤ 1) {i : ℕ} {x : Opd S (PL U) R} (hx : xs[i]? = some x)
    (hi : r.first ≤ i ∧ ∀ t, r.last = some t → i ≤ t)
    (hs : ∀ l, x.unit = some l → Steady (contributions N l)) (hd : ¬ HasDimension N x.unit [(t, q)]) (s : σ) :
    ∃ e, call c op xs s = (.error e, s) := by
  refine C31_rejects c op (fun ha => ?_) ?_ hone (.inr ?_) s
  · have := ha.units r hr i x hx hi.1 hi.2
    rw [hc] at this
    exact hd (C88_accepted_partial (by simpa using hb) hs this)
  · rintro ⟨j, y, l, hy, hsp⟩
    obtain ⟨v, hv⟩ := hsc y (List.mem_of_getElem? hy)
    rw [hsp.1] at hv
    cases hv
  · intro y hy e he
    obtain ⟨v, hv⟩ := hsc y hy
    rw [he] at hv
    cases hv

end

/-! ### Dates and the shipped units -/

section
open MC.Unit.Table MC.Dates

variable {K : Type} [Field K] {closer : K → K → Except Raise Bool} {simpler : K → K → Bool}

/-- What `dateadd`, `datesubtract`, `+%` and `-%` require of the second argument (`datefunctions.py:84`, `97`,
`dateoperators.py:35`, `46`). -/
def aTime (K : Type) [Field K] (closer : K → K → Except Raise Bool) (simpler : K → K → Bool) :
    Option (PL Shipped) → Except Raise Bool :=
  checkUnitDimensions (norm K closer simpler) dimNames [("time", 1)]

theorem time_base : (norm K closer simpler).rel "time" = none := by
  have h : (relOf "time").isNone = true := by decide +kernel
  have e : (norm K closer simpler).rel = relOf := rfl
  rw [e]
  generalize relOf "time" = r at h
  cases r with
  | none => rfl
  | some l => cases h

theorem time_known : "time" ∈ dimNames := by decide +kernel

/-- **C88** (part: units the code handles correctly): a time may be added to a date in any unit of time, and
in nothing else. -/
theorem C88_time_partial {unit : Option (PL Shipped)}
    (hs : ∀ l, unit = some l → Steady (contributions (norm K closer simpler) l)) :
    (aTime K closer simpler unit = .ok true ↔ HasDimension (norm K closer simpler) unit [("time", 1)]) ∧
    (aTime K closer simpler unit = .ok false ↔ ¬ HasDimension (norm K closer simpler) unit [("time", 1)]) :=
  C88_one_dimension_partial time_base time_known one_ne_zero hs

/-- **C88** (part: as above): what is not a time is not added to a date, nor subtracted from it. -/
theorem C88_date_refuses_partial {S R K' σ : Type} {c : Calc S (PL Shipped) R K'} {num? : S → Option Number} {name : String}
    {f : Opd S (PL Shipped) R → Number → Option (PL Shipped) → Except Raise (OpResult S (PL Shipped) R)}
    {x y : Opd S (PL Shipped) R} (hx : ∃ v, x.value = .sc v) (hy : ∃ v, y.value = .sc v)
    (hs : ∀ l, y.unit = some l → Steady (contributions (norm K closer simpler) l))
    (hd : ¬ HasDimension (norm K closer simpler) y.unit [("time", 1)]) (s : σ) :
    ∃ e, call c (dateOp (σ := σ) num? (aTime K closer simpler) name f) [x, y] s = (.error e, s) := by
  refine C88_refused (r := ⟨1, some 1, aTime K closer simpler, "time"⟩) (dims := dimNames) (t := "time") (q := 1)
    (by simp [dateOp]) rfl time_base ?_
    (fun h => by cases h) (i := 1) (x := y) rfl ⟨le_refl 1, fun t h => by cases h; rfl⟩ hs hd s
  intro z hz
  simp only [List.mem_cons, List.not_mem_nil, or_false] at hz
  rcases hz with rfl | rfl
  · exact hx
  · exact hy

/-- Hours and a number without a unit. -/
example : aTime ℚ (fun _ _ => .ok true) (fun _ _ => true) ((byName "hours").map (fun u => [(u, 1)])) = .ok true ∧
    aTime ℚ (fun _ _ => .ok true) (fun _ _ => true) ((byName "meters").map (fun u => [(u, 1)])) = .ok false ∧
    aTime ℚ (fun _ _ => .ok true) (fun _ _ => true) none = .ok false ∧
    (byName "hours").isSome ∧ (byName "meters").isSome := by
  decide +kernel

/-- A number without a unit is no time. -/
example {unit : Option (PL Shipped)} (h : unit = none) :
    ¬ HasDimension (norm K closer simpler) unit [("time", 1)] := by
  rintro ⟨l, hl, _⟩
  rw [h] at hl
  cases hl

end

/-! ### Examples -/

section
open Demo

/-- **C88** fails for more than one dimension: `metres / second` is accepted, `second^-1 metres` is not. -/
theorem C88_order_violation :
    checkUnitDimensions (reg ℚ) [.distance, .time] [(.distance, 1), (.time, -1)] (some [(.metre, 1), (.second, -1)])
      = .ok true ∧
    checkUnitDimensions (reg ℚ) [.distance, .time] [(.distance, 1), (.time, -1)] (some [(.second, -1), (.metre, 1)])
      = .ok false ∧
    HasDimension (reg ℚ) (some [(.second, -1), (.metre, 1)]) [(.distance, 1), (.time, -1)] := by
  refine ⟨by decide +kernel, by decide +kernel, _, rfl, fun d => ?_⟩
  cases d <;> decide +kernel

/-- `acre`, which is an area, is not accepted as an area. -/
example : checkUnitDimensions (reg ℚ) [.distance, .area] [(.area, 1)] (some [(.acre, 1)]) ≠ .ok true ∧
    HasDimension (reg ℚ) (some [(.acre, 1)]) [(.area, 1)] := by
  refine ⟨C88_derived_violation (o := (.area, 1)) (r := [(.distance, 2)]) (by simp) rfl ?_ ?_, _, rfl, fun d => ?_⟩
  · intro d l h x hx
    cases d <;> first
      | (cases h; simp only [List.mem_cons, List.not_mem_nil, or_false] at hx; rcases hx with rfl | rfl <;> rfl)
      | cases h
  · rintro l h
    cases h
    exact steady_of_sign (fun d => .inl (fun o ho _ => by
      simp [contributions, reg, dim] at ho
      subst ho
      norm_num))
  · cases d <;> decide +kernel

/-- `metre minute foot^-1` is a time. -/
example : checkUnitDimensions (reg ℚ) [.distance, .time] [(.time, 1)] (some [(.metre, 1), (.minute, 1), (.foot, -1)])
    = .ok true := by decide +kernel

end

end MC.Props
