import Verif.Model.State
import Verif.Lemmas.RefBlind
import Verif.Lemmas.Binary

/-!
# Calls of the assignment operators
-/

namespace MC.State

variable {S U K τ : Type} {c : Calc S U Ref K}

/-- The calculator has the validator that `assignment.py:53` installs. -/
def HasVariables (c : Calc S U Ref K) : Prop := c.validator "variable" = some validateVariable

/-- The validator `number` (`numericalengine.py:20`, `51-56`). -/
def HasNumbers (c : Calc S U Ref K) : Prop :=
  c.validator "number" = some (fun x _ => .ok (asNumber c x.value).isSome)

section calls
variable {σ : Type} {op : Operation S U Ref σ} {x v : Opd S U Ref} {n : String}

theorem attempt_call (hspread : spreads op 0 [x, v] = []) (hmax : op.maxParams ≠ some 1)
    (hx : x.value.err? = none) (hv : v.value.err? = none) (s : σ) :
    call c op [x, v] s = match attempt c op [x, v] s with
      | (.ok r, s') => (.ok r, s')
      | (.error e, s') => (.error (wrap c op [x, v] e), s') := by
  rw [call_eq, hspread]
  simp only
  rw [if_neg (fun h => hmax h.1)]
  unfold callScalar
  have : [x, v].find? (fun x => x.value.err?.isSome) = none := by simp [hx, hv]
  simp only [this, ite_self]
  rcases attempt c op [x, v] s with ⟨_ | _, _⟩ <;> rfl

theorem set_spreads (ht : op.values = setTypes) (hx : x.ref.isSome) :
    spreads op 0 [x, v] = [] := by
  have h0 : op.canBe 0 "variable" = true := by
    simp [Operation.canBe, ht, setTypes, Operation.applies, ObjType.main]
  have h1 : op.canBe 1 "array" = true := by
    simp [Operation.canBe, ht, setTypes, Operation.applies, ObjType.main]
  have hs0 : spread op 0 x = none := by
    unfold spread
    cases x.value <;> simp [h0, hx]
  have hs1 : spread op 1 v = none := by
    unfold spread
    cases v.value <;> simp [h1]
  simp [spreads, hs0, hs1]

theorem set_prepare (ht : op.values = setTypes) : prepare c op [x, v] = .ok ([x, v], none, none) := by
  have hconvI : ∀ i, convertible op i = false := by
    intro i; simp [convertible, ht, setTypes]
  have hconv : convertFrom c op 0 [x, v] = [x, v] := by simp [convertFrom, hconvI]
  have hcast : castOf c op [x, v] = none := by simp [castOf, ht, setTypes]
  have hnum : numbersFrom c op 0 [x, v] = none := by
    have : op.canBe 0 "number" = false := by
      simp [Operation.canBe, ht, setTypes, Operation.applies, ObjType.main]
    unfold numbersFrom
    cases x.value <;> simp [this]
  have hm0 : op.mustBe 0 "array" (some "number") = false := by
    simp [Operation.mustBe, ht, setTypes, Operation.applies, Operation.onlyType, ObjType.main]
  have hm1 : op.mustBe 1 "array" (some "number") = false := by
    simp [Operation.mustBe, ht, setTypes, Operation.applies, Operation.onlyType, ObjType.main]
  have hna : normaliseArrays c op 0 none none [x, v] = .ok ([x, v], none, none) := by
    have h1 : normaliseArrays c op 1 none none [v] = .ok ([v], none, none) := by
      rw [normaliseArrays]
      cases v.value <;> simp [normaliseArrays, hm1]
    rw [normaliseArrays]
    cases x.value <;> simp [h1, hm0]
  unfold prepare
  rw [hcast, hconv]
  simp [hnum, hna]

theorem set_validate (hc : HasVariables c) (ht : op.values = setTypes) (h1 : op.minParams = some 2)
    (h2 : op.maxParams = some 2) (h3 : op.units = []) (hx : x.ref = some (.var n)) :
    validate c op [x, v] = .ok () := by
  unfold validate
  rw [h1, h2, h3, ht]
  simp [setTypes, checkValues, checkFrom, Operation.applies, anyType, validateInput, show c.validator "variable" = some validateVariable from hc,
    validateVariable, hx, checkUnits]

theorem set_invalid (hc : HasVariables c) (ht : op.values = setTypes) (h1 : op.minParams = some 2)
    (h2 : op.maxParams = some 2) (hx : ∀ n, x.ref ≠ some (.var n)) :
    ∃ m, validate c op [x, v] = .error (.calc m) := by
  have hv : validateVariable x none = .ok false := by
    unfold validateVariable
    split
    · rename_i n h; exact absurd h (hx n)
    · rfl
  unfold validate
  rw [h1, h2, ht]
  simp [setTypes, checkValues, checkFrom, Operation.applies, anyType, validateInput, show c.validator "variable" = some validateVariable from hc, hv]

/-- The call of `=` or `||=` with a variable on the left and a value that is not an error. -/
theorem set_call (hc : HasVariables c) (ht : op.values = setTypes) (h1 : op.minParams = some 2)
    (h2 : op.maxParams = some 2) (h3 : op.units = []) (h4 : op.after = fun _ _ s => s)
    (hr : x.ref = some (.var n)) (hx : x.value.err? = none) (hv : v.value.err? = none) (s : σ) :
    call c op [x, v] s = match op.ref [x, v] s with
      | (.ok r, s') => (.ok (finishResult c op none none r), s')
      | (.error e, s') => (.error (wrap c op [x, v] e), s') := by
  rw [attempt_call (set_spreads ht (by rw [hr]; rfl)) (by rw [h2]; simp) hx hv]
  unfold attempt
  rw [set_validate hc ht h1 h2 h3 hr, set_prepare ht]
  simp only [h4]
  cases op.ref [x, v] s with
  | mk r s' => cases r <;> rfl

/-- The restrictions of the compound assignments (`assignmentoperators.py:46-108`). -/
def compoundTypes : List Restriction :=
  [⟨0, some 0, [.ty "variable"]⟩, ⟨1, some 1, [.ty "number"]⟩]

theorem compound_prepare (ht : op.values = compoundTypes) (hi : op.convertIn = true) {w : S}
    (hv : v.value = .sc w) (hw : c.number w = some w) :
    prepare c op [x, v] = .ok ([x, v], none, c.cast w) := by
  have h0 : convertible op 0 = false := by
    simp [convertible, ht, compoundTypes, Operation.applies]
  have hconv : convertFrom c op 0 [x, v] = [x, v] := by
    have : (if convertible op 1 then asNumber c v.value else none) = some w ∨
        (if convertible op 1 then asNumber c v.value else none) = none := by
      rw [hv]; split <;> simp [asNumber, hw]
    rcases this with h | h
    · simp only [convertFrom, h0, h, Bool.false_eq_true, if_false]
      rw [← hv]
    · simp [convertFrom, h0, h]
  have hcast : castOf c op [x, v] = c.cast w := by
    simp [castOf, ht, compoundTypes, castFrom, Operation.applies, hv, asNumber, hw]
    cases c.cast w <;> rfl
  have hnum : numbersFrom c op 0 [x, v] = none := by
    have : op.canBe 0 "number" = false := by
      simp [Operation.canBe, ht, compoundTypes, Operation.applies, ObjType.main]
    unfold numbersFrom
    cases x.value <;> simp [this]
  have hm0 : op.mustBe 0 "array" (some "number") = false := by
    simp [Operation.mustBe, ht, compoundTypes, Operation.applies, Operation.onlyType, ObjType.main]
  have hna : ∀ k, normaliseArrays c op 0 none k [x, v] = .ok ([x, v], none, k) := by
    intro k
    have h1 : normaliseArrays c op 1 none k [v] = .ok ([v], none, k) := by
      rw [normaliseArrays, hv]
      simp [normaliseArrays]
    rw [normaliseArrays]
    cases x.value <;> simp [h1, hm0]
  unfold prepare
  rw [hi]
  simp only [if_true]
  rw [hcast, hconv]
  simp [hnum, hna]

theorem compound_validate (hc : HasVariables c) (hn : HasNumbers c) (ht : op.values = compoundTypes)
    (h1 : op.minParams = some 2) (h2 : op.maxParams = some 2) (h3 : op.units = [])
    (hx : x.ref = some (.var n)) {w : S} (hv : v.value = .sc w) (hw : (c.number w).isSome) :
    validate c op [x, v] = .ok () := by
  unfold validate
  rw [h1, h2, h3, ht]
  simp [compoundTypes, checkValues, checkFrom, Operation.applies, anyType, validateInput,
    show c.validator "variable" = some validateVariable from hc,
    show c.validator "number" = _ from hn,
    validateVariable, hx, checkUnits, hv, asNumber, hw]

theorem compound_spreads (ht : op.values = compoundTypes) (hx : x.ref.isSome) {w : S}
    (hv : v.value = .sc w) : spreads op 0 [x, v] = [] := by
  have h0 : op.canBe 0 "variable" = true := by
    simp [Operation.canBe, ht, compoundTypes, Operation.applies, ObjType.main]
  have hs0 : spread op 0 x = none := by
    unfold spread
    cases x.value <;> simp [h0, hx]
  have hs1 : spread op 1 v = none := by
    unfold spread
    rw [hv]
  simp [spreads, hs0, hs1]

theorem compound_call (hc : HasVariables c) (hn : HasNumbers c) (ht : op.values = compoundTypes)
    (h1 : op.minParams = some 2) (h2 : op.maxParams = some 2) (h3 : op.units = [])
    (hi : op.convertIn = true)
    (hr : x.ref = some (.var n)) (hx : x.value.err? = none) {w : S}
    (hv : v.value = .sc w) (hw : c.number w = some w) (s : σ) :
    call c op [x, v] s = match op.ref [x, v] s with
      | (.ok r, s') => (.ok (finishResult c op none (c.cast w) r),
          op.after [x, v] (finishResult c op none (c.cast w) r) s')
      | (.error e, s') => (.error (wrap c op [x, v] e), s') := by
  rw [attempt_call (compound_spreads ht (by rw [hr]; rfl) hv) (by rw [h2]; simp) hx
    (by rw [hv]; rfl)]
  unfold attempt
  rw [compound_validate hc hn ht h1 h2 h3 hr hv (by rw [hw]; rfl), compound_prepare ht hi hv hw]
  simp only
  cases op.ref [x, v] s with
  | mk r s' => cases r <;> rfl

/-- The call of a function without type restrictions on one value that is neither an array nor
an error. -/
theorem one_call (ht : op.values = []) (h1 : op.minParams = some 1) (h2 : op.maxParams = some 1)
    (h3 : op.units = []) (h4 : op.after = fun _ _ s => s) (ha : ∀ l, x.value ≠ .arr l)
    (he : ∀ e, x.value ≠ .exc e) (s : σ) :
    call c op [x] s = match op.ref [x] s with
      | (.ok r, s') => (.ok (finishResult c op none none r), s')
      | (.error e, s') => (.error (wrap c op [x] e), s') := by
  have hv : ∃ w, x.value = .sc w := by
    cases h : x.value with
    | sc w => exact ⟨w, rfl⟩
    | arr l => exact absurd h (ha l)
    | exc e => exact absurd h (he e)
  obtain ⟨w, hw⟩ := hv
  have hs : spreads op 0 [x] = [] := by simp [spreads, spread, hw]
  have hval : validate c op [x] = .ok () := by
    simp [validate, h1, h2, ht, h3, checkValues, checkUnits]
  have hprep : prepare c op [x] = .ok ([x], none, none) := by
    have hi : ∀ i, convertible op i = false := by intro i; simp [convertible, ht]
    have hcf : convertFrom c op 0 [x] = [x] := by simp [convertFrom, hi]
    have hco : castOf c op [x] = none := by simp [castOf, ht]
    have hnum : numbersFrom c op 0 [x] = none := by
      unfold numbersFrom
      simp [hw, Operation.canBe, ht]
    unfold prepare
    rw [hco, hcf]
    simp [hnum, normaliseArrays, hw]
  rw [call_eq, hs]
  simp only
  rw [if_neg (by simp)]
  unfold callScalar attempt
  have : [x].find? (fun x => x.value.err?.isSome) = none := by simp [hw, Val.err?]
  simp only [this, ite_self, hval, hprep, h4]
  cases op.ref [x] s with
  | mk r s' => cases r <;> rfl

/-- `normalise_inputs` on no inputs (`unitnormaliser.py:141-158`). -/
def EmptyNormal (c : Calc S U Ref K) : Prop :=
  ∀ f, c.normalise = some f → ∀ a b, f [] a b = .ok ([], none)

/-- The call of a function without parameters. -/
theorem none_call (hn : EmptyNormal c) (ht : op.values = []) (h1 : op.minParams = some 0)
    (h2 : op.maxParams = some 0)
    (h3 : op.units = []) (h4 : op.after = fun _ _ s => s) (s : σ) :
    call c op [] s = match op.ref [] s with
      | (.ok r, s') => (.ok (finishResult c op none none r), s')
      | (.error e, s') => (.error (wrap c op [] e), s') := by
  have hs : spreads op 0 [] = [] := by simp [spreads]
  have hval : validate c op [] = .ok () := by
    simp [validate, h1, h2, ht, h3, checkValues, checkUnits]
  have hprep : prepare c op [] = .ok ([], none, none) := by
    have hcf : convertFrom c op 0 [] = [] := by simp [convertFrom]
    have hco : castOf c op [] = none := by simp [castOf, ht]
    unfold prepare
    rw [hco, hcf]
    simp only [ite_self, numbersFrom]
    cases hnn : c.normalise with
    | none => rfl
    | some f =>
      simp only [hn f hnn, setNumbers]
      split <;> rfl
  rw [call_eq, hs]
  simp only
  rw [if_neg (by simp)]
  unfold callScalar attempt
  have : ([] : List (Opd S U Ref)).find? (fun x => x.value.err?.isSome) = none := rfl
  simp only [this, ite_self, hval, hprep, h4]
  cases op.ref [] s with
  | mk r s' => cases r <;> rfl

end calls

end MC.State
