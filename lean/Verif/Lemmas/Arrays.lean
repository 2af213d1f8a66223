import Verif.Model.Arrays
import Verif.Lemmas.Operation
import Verif.Lemmas.Grid

/-! Calling the functions of `Model/Arrays.lean`. -/

set_option linter.unusedSectionVars false

namespace MC.Arrays
open Boolean

variable {S U R K σ : Type} {c : Calc S U R K} {op : Operation S U R σ}

/-- The calculator has the validators of `arrays.py:47`, `numericalengine.py:17` and
`booleans.py:139`. -/
structure HasArrays (c : Calc S U R K) (asBool : S → Option Bool) : Prop where
  array : c.validator "array" = some (validateArray c)
  number : c.validator "number" = some (validateNumber c)
  boolean : c.validator "boolean" = some (validateBoolean asBool)

theorem spread_array {i : ℕ} {x : Opd S U R} (h : op.canBe i "array" = true) :
    spread op i x = none := by
  unfold spread
  cases x.value <;> simp [h]

theorem call_direct {xs : List (Opd S U R)} (hsp : spreads op 0 xs = [])
    (h2 : ¬ (op.maxParams = some 1 ∧ op.mustBe 0 "array" none = true ∧ 1 < xs.length))
    (hno : op.canBeExc = false) (herr : ∀ x ∈ xs, x.value.err? = none) (s : σ) :
    call c op xs s = match attempt c op xs s with
      | (.ok r, s') => (.ok r, s')
      | (.error e, s') => (.error (wrap c op xs e), s') := by
  rw [call_eq, hsp]
  dsimp only
  rw [if_neg h2]
  unfold callScalar
  have : xs.find? (fun x => x.value.err?.isSome) = none := by
    rw [List.find?_eq_none]
    intro x hx
    simp [herr x hx]
  rw [hno]
  simp only [Bool.false_eq_true, if_false, this]
  rcases attempt c op xs s with ⟨r | r, s'⟩ <;> rfl

theorem validateArray_sub {asBool : S → Option Bool} (hc : HasArrays c asBool) {x : Opd S U R}
    {els : List (Opd S U R)} (hx : x.value = .arr els)
    (hn : ∀ e ∈ els, (asNumber c e.value).isSome) :
    validateArray c x (some "number") = .ok true := by
  unfold validateArray
  rw [hx]
  dsimp only
  clear hx
  induction els with
  | nil => rfl
  | cons e es ih =>
    unfold validateArray.go
    rw [hc.number]
    simp only [validateNumber, hn e (by simp)]
    exact ih (fun e he => hn e (by simp [he]))

theorem validateArray_bool {asBool : S → Option Bool} (hc : HasArrays c asBool) {x : Opd S U R}
    {els : List (Opd S U R)} (hx : x.value = .arr els)
    (hn : ∀ e ∈ els, ∃ v b, e.value = .sc v ∧ asBool v = some b) :
    validateArray c x (some "boolean") = .ok true := by
  unfold validateArray
  rw [hx]
  dsimp only
  clear hx
  induction els with
  | nil => rfl
  | cons e es ih =>
    unfold validateArray.go
    rw [hc.boolean]
    obtain ⟨v, b, hv, hb⟩ := hn e (by simp)
    simp only [validateBoolean, boolean, hv, hb]
    exact ih (fun e he => hn e (by simp [he]))

theorem elementNumbers_ok {els : List (Opd S U R)} {nums : List (S × Option U)}
    (h : elementNumbers c els = .ok nums) : ∀ e ∈ els, (asNumber c e.value).isSome := by
  induction els generalizing nums with
  | nil => simp
  | cons e es ih =>
    unfold elementNumbers at h
    split at h
    · cases h
    · rename_i n hn
      split at h
      · cases h
      · rename_i l hl
        intro e' he'
        rcases List.mem_cons.mp he' with rfl | he'
        · simp [hn]
        · exact ih hl e' he'

/-- What the normaliser makes of the numbers of an array (`operators.py:196-198`). -/
def normed (c : Calc S U R K) (op : Operation S U R σ) (nums : List (S × Option U)) :
    Except Raise (List (S × Option U) × Option U) :=
  match c.normalise with
  | some f => if op.unitsNormalise then f nums op.unitsMulti op.unitsRelative else .ok (nums, none)
  | none => .ok (nums, none)

variable {asBool : S → Option Bool}

/-- A call of a function of one array of numbers. -/
theorem call_numbers (hc : HasArrays c asBool) (h1 : op.minParams = some 1) (h2 : op.maxParams = some 1)
    (h3 : op.values = [⟨0, none, [.sub "array" "number"]⟩]) (h4 : op.units = [])
    (h5 : op.canBeExc = false) {x : Opd S U R} {els : List (Opd S U R)} (hx : x.value = .arr els)
    {nums nums' : List (S × Option U)} {ru : Option U} (hn : elementNumbers c els = .ok nums)
    (hnorm : normed c op nums = .ok (nums', ru)) (s : σ) :
    call c op [x] s = match op.ref [{ x with value := .arr (setElements els nums') }] s with
      | (.error e, s') => (.error (wrap c op [x] e), s')
      | (.ok res, s') =>
        let r := finishResult c op ru (nums.findSome? (fun n => c.cast n.1)) res
        (.ok r, op.after [{ x with value := .arr (setElements els nums') }] r s') := by
  have hcan : op.canBe 0 "array" = true := by
    simp [Operation.canBe, h3, Operation.applies, ObjType.main]
  have hcn : op.canBe 0 "number" = false := by
    simp [Operation.canBe, h3, Operation.applies, ObjType.main]
  have hmust : op.mustBe 0 "array" (some "number") = true := by
    simp [Operation.mustBe, h3, Operation.applies, Operation.onlyType, ObjType.main, ObjType.subType]
  rw [call_direct (by simp [spreads, spread_array hcan]) (by simp) h5
    (by intro y hy; simp at hy; subst hy; rw [hx]; rfl)]
  have hval : validate c op [x] = .ok () := by
    unfold validate
    rw [h1, h2, h3, h4]
    simp [checkValues, checkFrom, Operation.applies, anyType, validateInput, hc.array,
      validateArray_sub hc hx (elementNumbers_ok hn), checkUnits]
  have hconv : convertFrom c op 0 [x] = [x] := by
    simp [convertFrom, convertible, h3]
  have hcast : castOf c op [x] = none := by
    simp [castOf, h3]
  have hnum : numbersFrom c op 0 [x] = none := by
    simp [numbersFrom, hx]
  have hprep : prepare c op [x] = .ok ([{ x with value := .arr (setElements els nums') }], ru,
      nums.findSome? (fun n => c.cast n.1)) := by
    unfold prepare
    simp only [hconv, hcast, ite_self, hnum]
    unfold normed at hnorm
    simp only [normaliseArrays, hx, hmust, if_true, hn]
    cases hno : c.normalise with
    | none => rw [hno] at hnorm; simp at hnorm; obtain ⟨rfl, rfl⟩ := hnorm; rfl
    | some f =>
      rw [hno] at hnorm
      dsimp only at hnorm ⊢
      rw [hnorm]
  simp only [attempt, hval, hprep]
  cases op.ref [{ x with value := .arr (setElements els nums') }] s with
  | mk r s' => cases r <;> rfl

/-- A call of a function of one array. -/
theorem call_array (hc : HasArrays c asBool) (h1 : op.minParams = some 1) (h2 : op.maxParams = some 1)
    (h3 : op.values = [⟨0, none, [.ty "array"]⟩]) (h4 : op.units = [])
    (h5 : op.canBeExc = false) {x : Opd S U R} {els : List (Opd S U R)} (hx : x.value = .arr els) (s : σ) :
    call c op [x] s = match op.ref [x] s with
      | (.error e, s') => (.error (wrap c op [x] e), s')
      | (.ok res, s') => let r := finishResult c op none none res; (.ok r, op.after [x] r s') := by
  have hcan : op.canBe 0 "array" = true := by
    simp [Operation.canBe, h3, Operation.applies, ObjType.main]
  have hmust : op.mustBe 0 "array" (some "number") = false := by
    simp [Operation.mustBe, h3, Operation.applies, Operation.onlyType, ObjType.main, ObjType.subType]
  rw [call_direct (by simp [spreads, spread_array hcan]) (by simp) h5
    (by intro y hy; simp at hy; subst hy; rw [hx]; rfl)]
  have hval : validate c op [x] = .ok () := by
    unfold validate
    rw [h1, h2, h3, h4]
    simp [checkValues, checkFrom, Operation.applies, anyType, validateInput, hc.array,
      validateArray, hx, checkUnits]
  have hconv : convertFrom c op 0 [x] = [x] := by
    simp [convertFrom, convertible, h3]
  have hcast : castOf c op [x] = none := by
    simp [castOf, h3]
  have hnum : numbersFrom c op 0 [x] = none := by
    simp [numbersFrom, hx]
  have hprep : prepare c op [x] = .ok ([x], none, none) := by
    unfold prepare
    simp only [hconv, hcast, ite_self, hnum]
    simp [normaliseArrays, hx, hmust]
  simp only [attempt, hval, hprep]
  cases op.ref [x] s with
  | mk r s' => cases r <;> rfl

/-- A call of `concat`. -/
theorem call_concat (hc : HasArrays c asBool) (h1 : op.minParams = some 2) (h2 : op.maxParams = some 2)
    (h3 : op.values = [⟨0, none, [.ty "array"]⟩]) (h4 : op.units = [])
    (h5 : op.canBeExc = false) {x y : Opd S U R} {a b : List (Opd S U R)} (hx : x.value = .arr a)
    (hy : y.value = .arr b) (s : σ) :
    call c op [x, y] s = match op.ref [x, y] s with
      | (.error e, s') => (.error (wrap c op [x, y] e), s')
      | (.ok res, s') => let r := finishResult c op none none res; (.ok r, op.after [x, y] r s') := by
  have hcan : ∀ i, op.canBe i "array" = true := by
    simp [Operation.canBe, h3, Operation.applies, ObjType.main]
  have hmust : ∀ i, op.mustBe i "array" (some "number") = false := by
    simp [Operation.mustBe, h3, Operation.applies, Operation.onlyType, ObjType.main, ObjType.subType]
  rw [call_direct (by simp [spreads, spread_array (hcan _)]) (by simp [h2]) h5
    (by intro z hz; simp at hz; rcases hz with rfl | rfl <;> simp [hx, hy, Val.err?])]
  have hval : validate c op [x, y] = .ok () := by
    unfold validate
    rw [h1, h2, h3, h4]
    simp [checkValues, checkFrom, Operation.applies, anyType, validateInput, hc.array,
      validateArray, hx, hy, checkUnits]
  have hconv : convertFrom c op 0 [x, y] = [x, y] := by
    simp [convertFrom, convertible, h3]
  have hcast : castOf c op [x, y] = none := by
    simp [castOf, h3]
  have hnum : numbersFrom c op 0 [x, y] = none := by
    simp [numbersFrom, hx]
  have hprep : prepare c op [x, y] = .ok ([x, y], none, none) := by
    unfold prepare
    simp only [hconv, hcast, ite_self, hnum]
    simp [normaliseArrays, hx, hy, hmust]
  simp only [attempt, hval, hprep]
  cases op.ref [x, y] s with
  | mk r s' => cases r <;> rfl

/-- A call of `filter`. -/
theorem call_filter (hc : HasArrays c asBool) (h1 : op.minParams = some 2) (h2 : op.maxParams = some 2)
    (h3 : op.values = [⟨0, some 0, [.ty "array"]⟩, ⟨1, some 1, [.sub "array" "boolean"]⟩])
    (h4 : op.units = []) (h5 : op.canBeExc = false) {x y : Opd S U R} {a b : List (Opd S U R)}
    (hx : x.value = .arr a) (hy : y.value = .arr b)
    (hb : ∀ e ∈ b, ∃ v t, e.value = .sc v ∧ asBool v = some t) (s : σ) :
    call c op [x, y] s = match op.ref [x, y] s with
      | (.error e, s') => (.error (wrap c op [x, y] e), s')
      | (.ok res, s') => let r := finishResult c op none none res; (.ok r, op.after [x, y] r s') := by
  have hcan : op.canBe 0 "array" = true ∧ op.canBe 1 "array" = true := by
    simp [Operation.canBe, h3, Operation.applies, ObjType.main]
  have hmust : op.mustBe 0 "array" (some "number") = false ∧
      op.mustBe 1 "array" (some "number") = false := by
    simp [Operation.mustBe, h3, Operation.applies, Operation.onlyType, ObjType.main, ObjType.subType]
  rw [call_direct (by simp [spreads, spread_array hcan.1, spread_array hcan.2]) (by simp [h2]) h5
    (by intro z hz; simp at hz; rcases hz with rfl | rfl <;> simp [hx, hy, Val.err?])]
  have hval : validate c op [x, y] = .ok () := by
    unfold validate
    rw [h1, h2, h3, h4]
    have h6 : validateArray c y (some "boolean") = .ok true := validateArray_bool hc hy hb
    have h7 : validateArray c x none = .ok true := by simp [validateArray, hx]
    simp [checkValues, checkFrom, Operation.applies, anyType, validateInput, hc.array,
      h6, h7, checkUnits]
  have hconv : convertFrom c op 0 [x, y] = [x, y] := by
    simp [convertFrom, convertible, h3]
  have hcast : castOf c op [x, y] = none := by
    simp [castOf, h3]
  have hnum : numbersFrom c op 0 [x, y] = none := by
    simp [numbersFrom, hx]
  have hprep : prepare c op [x, y] = .ok ([x, y], none, none) := by
    unfold prepare
    simp only [hconv, hcast, ite_self, hnum]
    simp [normaliseArrays, hx, hy, hmust]
  simp only [attempt, hval, hprep]
  cases op.ref [x, y] s with
  | mk r s' => cases r <;> rfl

/-- A call of `element`. -/
theorem call_element (hc : HasArrays c asBool) (h1 : op.minParams = some 2) (h2 : op.maxParams = some 2)
    (h3 : op.values = [⟨0, some 0, [.ty "array"]⟩, ⟨1, some 1, [.ty "number"]⟩])
    (h4 : op.units = []) (h5 : op.canBeExc = false) (h6 : op.convertIn = true) {x y : Opd S U R}
    {a : List (Opd S U R)} {v n : S} (hx : x.value = .arr a) (hy : y.value = .sc v)
    (hv : c.number v = some n) (s : σ) :
    call c op [x, y] s = match op.ref [x, { y with value := .sc n }] s with
      | (.error e, s') => (.error (wrap c op [x, y] e), s')
      | (.ok res, s') => let r := finishResult c op none (c.cast n) res
        (.ok r, op.after [x, { y with value := .sc n }] r s') := by
  have hcan : op.canBe 0 "array" = true := by
    simp [Operation.canBe, h3, Operation.applies, ObjType.main]
  have hsp1 : spread op 1 y = none := by simp [spread, hy]
  have hmust : op.mustBe 0 "array" (some "number") = false := by
    simp [Operation.mustBe, h3, Operation.applies, Operation.onlyType, ObjType.main, ObjType.subType]
  rw [call_direct (by simp [spreads, spread_array hcan, hsp1]) (by simp [h2]) h5
    (by intro z hz; simp at hz; rcases hz with rfl | rfl <;> simp [hx, hy, Val.err?])]
  have hval : validate c op [x, y] = .ok () := by
    unfold validate
    rw [h1, h2, h3, h4]
    simp [checkValues, checkFrom, Operation.applies, anyType, validateInput, hc.array,
      validateArray, hx, hc.number, validateNumber, asNumber, hy, hv, checkUnits]
  have hconv : convertFrom c op 0 [x, y] = [x, { y with value := .sc n }] := by
    simp [convertFrom, convertible, h3, Operation.applies, asNumber, hy, hv]
  have hcast : castOf c op [x, y] = c.cast n := by
    simp [castOf, h3, castFrom, Operation.applies, asNumber, hy, hv]
    cases c.cast n <;> rfl
  have hnum : numbersFrom c op 0 [x, { y with value := .sc n }] = none := by
    simp [numbersFrom, hx]
  have hprep : prepare c op [x, y] = .ok ([x, { y with value := .sc n }], none, c.cast n) := by
    unfold prepare
    simp only [h6, if_true, hconv, hcast, hnum]
    simp [normaliseArrays, hx, hmust]
  simp only [attempt, hval, hprep]
  cases op.ref [x, { y with value := .sc n }] s with
  | mk r s' => cases r <;> rfl

end MC.Arrays
