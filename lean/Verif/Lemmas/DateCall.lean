import Verif.Lemmas.DateOps

/-! # Calling the date operations -/

namespace MC.Dates
open MC.Strings MC.Arrays MC.Boolean MC.Numeric MC.Number
set_option linter.unusedSectionVars false

variable {S U R K σ : Type} {c : Calc S U R K} {p : ℕ} {num? : S → Option Number}
  {ofNum : Number → S} {text? : S → Option (List Char)} {ofText : List Char → S}

/-- The calculator accepts as dates what can be read as a date (`dates.py:59`). -/
def HasDates (c : Calc S U R K) (text? : S → Option (List Char)) : Prop :=
  c.validator "date" = some (fun x _ => .ok (isDate text? x))

/-- The operand `x` is a text that is read as the date `t`. -/
def IsDate (text? : S → Option (List Char)) (x : Opd S U R) (t : DT) : Prop :=
  ∃ v s, x.value = .sc v ∧ text? v = some s ∧ toDate s = .ok t

theorem IsDate.dateOf {x : Opd S U R} {t : DT} (h : IsDate text? x t) : dateOf text? x = .ok t := by
  obtain ⟨v, s, hv, hs, ht⟩ := h
  simp [Dates.dateOf, hv, hs, ht]

theorem IsDate.scalar {x : Opd S U R} {t : DT} (h : IsDate text? x t) : IsScalar x := by
  obtain ⟨v, s, hv, -⟩ := h
  exact ⟨v, hv⟩

theorem IsDate.valid (hd : HasDates c text?) {x : Opd S U R} {t : DT} (h : IsDate text? x t) :
    validateInput c (.ty "date") x = .ok true := by
  have hv : c.validator "date" = some (fun x _ => .ok (isDate text? x)) := hd
  simp [validateInput, hv, isDate, h.dateOf]

/-- A call of `dateadd`, `datesubtract`, `+%` or `-%`. -/
theorem call_dateOp (hc : HasNumbers c) (hd : HasDates c text?)
    {isTime : Option U → Except Raise Bool} {name : String}
    {f : Opd S U R → Number → Option U → Except Raise (OpResult S U R)}
    {x y : Opd S U R} {t : DT} {w : S} {n : Number} (hx : IsDate text? x t) (hy : IsNum c y w)
    (hw : num? w = some n) (hu : isTime y.unit = .ok true) (s : σ) :
    call c (dateOp (σ := σ) num? isTime name f) [x, y] s
      = match f x n y.unit with
        | .error e => (.error (wrap c (dateOp (σ := σ) num? isTime name f) [x, y] e), s)
        | .ok r => (.ok (finishResult c (dateOp (σ := σ) num? isTime name f) none (c.cast w) r), s) := by
  have hsc : ∀ z ∈ [x, y], IsScalar z := by
    intro z hz
    simp only [List.mem_cons, List.not_mem_nil, or_false] at hz
    rcases hz with rfl | rfl
    · exact hx.scalar
    · exact hy.scalar
  rw [call_direct (spreads_scalar hsc 0) (by simp [dateOp]) rfl
    (by intro z hz; obtain ⟨v, hv⟩ := hsc z hz; rw [hv]; rfl)]
  have hval : validate c (dateOp (σ := σ) num? isTime name f) [x, y] = .ok () := by
    have hv : c.validator "number" = some (validateNumber c) := hc
    have hn : validateInput c (.ty "number") y = .ok true := by
      simp [validateInput, hv, validateNumber, hy.asNumber]
    simp [validate, dateOp, checkValues, checkFrom, Operation.applies, anyType, hx.valid hd, hn,
      checkUnits, checkUnitsFrom, hu]
  have hprep : prepare c (dateOp (σ := σ) num? isTime name f) [x, y]
      = .ok ([x, { y with value := .sc w }], none, c.cast w) := by
    obtain ⟨v, hv⟩ := hx.scalar
    simp [prepare, dateOp, convertFrom, convertible, Operation.applies, hy.asNumber, numbersFrom,
      Operation.canBe, ObjType.main, hv, normaliseArrays, castOf, castFrom]
    cases c.cast w <;> rfl
  unfold attempt
  rw [hval]
  dsimp only
  rw [hprep]
  dsimp only
  have href : (dateOp (σ := σ) num? isTime name f).ref [x, { y with value := .sc w }] s
      = (f x n y.unit, s) := by
    simp [dateOp, two, numberOf, hw, bind, Except.bind]
  rw [href]
  cases f x n y.unit <;> rfl

/-- A call of `datedifference` with two dates and perhaps a unit. -/
theorem call_difference (hd : HasDates c text?) {repr : ℚ → ℚ} {second : U} {unit? : S → Option U}
    {convert : Number → U → Except Raise Number} {x y : Opd S U R} {t₁ t₂ : DT}
    (hx : IsDate text? x t₁) (hy : IsDate text? y t₂) (s : σ) :
    call c (opDateDifference (σ := σ) p ofNum text? repr second unit? convert) [x, y] s
      = match secondsBetween p repr t₁ t₂ with
        | .error e => (.error (wrap c (opDateDifference (σ := σ) p ofNum text? repr second unit?
            convert) [x, y] e), s)
        | .ok n => (.ok ⟨.sc (ofNum n), some second, none, none⟩, s) := by
  have hsc : ∀ z ∈ [x, y], IsScalar z := by
    intro z hz
    simp only [List.mem_cons, List.not_mem_nil, or_false] at hz
    rcases hz with rfl | rfl
    · exact hx.scalar
    · exact hy.scalar
  rw [call_direct (spreads_scalar hsc 0) (by simp [opDateDifference]) rfl
    (by intro z hz; obtain ⟨v, hv⟩ := hsc z hz; rw [hv]; rfl)]
  have hval : validate c (opDateDifference (σ := σ) p ofNum text? repr second unit? convert) [x, y]
      = .ok () := by
    simp [validate, opDateDifference, checkValues, checkFrom, Operation.applies, anyType,
      hx.valid hd, hy.valid hd, checkUnits]
  have hprep : prepare c (opDateDifference (σ := σ) p ofNum text? repr second unit? convert) [x, y]
      = .ok ([x, y], none, none) := by
    obtain ⟨v, hv⟩ := hx.scalar
    obtain ⟨w, hw⟩ := hy.scalar
    simp [prepare, opDateDifference, convertFrom, convertible, Operation.applies, numbersFrom,
      Operation.canBe, ObjType.main, hv, hw, normaliseArrays, castOf]
  unfold attempt
  rw [hval]
  dsimp only
  rw [hprep]
  dsimp only
  have href : (opDateDifference (σ := σ) p ofNum text? repr second unit? convert).ref [x, y] s
      = ((secondsBetween p repr t₁ t₂).map
        (fun n => { value := .sc (ofNum n), unit := some (some second) }), s) := by
    simp only [opDateDifference, hx.dateOf, hy.dateOf, bind, Except.bind]
    cases secondsBetween p repr t₁ t₂ <;> rfl
  rw [href]
  cases secondsBetween p repr t₁ t₂ <;> rfl

/-- The third argument of `datedifference`: the unit of the answer. -/
theorem call_difference_unit (hd : HasDates c text?) {repr : ℚ → ℚ} {second : U}
    {unit? : S → Option U} {convert : Number → U → Except Raise Number} {x y z : Opd S U R}
    {t₁ t₂ : DT} {v : S} {u : U} (hx : IsDate text? x t₁) (hy : IsDate text? y t₂)
    (hz : z.value = .sc v) (hu : unit? v = some u) (hvu : validateInput c (.ty "unit") z = .ok true)
    (s : σ) :
    call c (opDateDifference (σ := σ) p ofNum text? repr second unit? convert) [x, y, z] s
      = match (secondsBetween p repr t₁ t₂).bind (fun n => convert n u) with
        | .error e => (.error (wrap c (opDateDifference (σ := σ) p ofNum text? repr second unit?
            convert) [x, y, z] e), s)
        | .ok n => (.ok ⟨.sc (ofNum n), some u, none, none⟩, s) := by
  have hsc : ∀ a ∈ [x, y, z], IsScalar a := by
    intro a ha
    simp only [List.mem_cons, List.not_mem_nil, or_false] at ha
    rcases ha with rfl | rfl | rfl
    · exact hx.scalar
    · exact hy.scalar
    · exact ⟨v, hz⟩
  rw [call_direct (spreads_scalar hsc 0) (by simp [opDateDifference]) rfl
    (by intro a ha; obtain ⟨v, hv⟩ := hsc a ha; rw [hv]; rfl)]
  have hval : validate c (opDateDifference (σ := σ) p ofNum text? repr second unit? convert)
      [x, y, z] = .ok () := by
    simp [validate, opDateDifference, checkValues, checkFrom, Operation.applies, anyType,
      hx.valid hd, hy.valid hd, hvu, checkUnits]
  have hprep : prepare c (opDateDifference (σ := σ) p ofNum text? repr second unit? convert)
      [x, y, z] = .ok ([x, y, z], none, none) := by
    obtain ⟨v, hv⟩ := hx.scalar
    obtain ⟨w, hw⟩ := hy.scalar
    simp [prepare, opDateDifference, convertFrom, convertible, Operation.applies, numbersFrom,
      Operation.canBe, ObjType.main, hv, hw, hz, normaliseArrays, castOf]
  unfold attempt
  rw [hval]
  dsimp only
  rw [hprep]
  dsimp only
  have href : (opDateDifference (σ := σ) p ofNum text? repr second unit? convert).ref [x, y, z] s
      = (((secondsBetween p repr t₁ t₂).bind (fun n => convert n u)).map
        (fun n => { value := .sc (ofNum n), unit := some (some u) }), s) := by
    simp only [opDateDifference, hx.dateOf, hy.dateOf, bind, Except.bind, hz, hu]
    cases secondsBetween p repr t₁ t₂ with
    | error e => rfl
    | ok n => dsimp only; cases convert n u <;> rfl
  rw [href]
  cases secondsBetween p repr t₁ t₂ with
  | error e => rfl
  | ok n => dsimp only [Except.bind]; cases convert n u <;> rfl

end MC.Dates
