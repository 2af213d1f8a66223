import Verif.Lemmas.Strings

/-! # Calling an operation on numbers -/

namespace MC.Numeric
open MC.Strings MC.Arrays MC.Boolean
set_option linter.unusedSectionVars false

variable {S U R K σ : Type} {c : Calc S U R K} {op : Operation S U R σ}

/-- The operand `x` is, or can be converted to, the number `w` (which is then a number itself). -/
def IsNum (c : Calc S U R K) (x : Opd S U R) (w : S) : Prop :=
  ∃ v, x.value = .sc v ∧ c.number v = some w ∧ c.number w = some w

/-- The calculator accepts as numbers what can be converted to a number
(`numericalengine.py:51-56`). -/
def HasNumbers (c : Calc S U R K) : Prop := c.validator "number" = some (validateNumber c)

/-- All parameters are numbers, and nothing else is declared about them. -/
structure NumbersOnly (op : Operation S U R σ) : Prop where
  values : op.values = [⟨0, none, [.ty "number"]⟩]
  units : op.units = []
  canBeExc : op.canBeExc = false
  convertIn : op.convertIn = true

/-- The normalised numbers, and the unit of the result (`operators.py:172-178`). -/
def normalised (c : Calc S U R K) (op : Operation S U R σ) (nums : List (S × Option U)) :
    Except Raise (List (S × Option U) × Option U) :=
  match c.normalise with
  | some f => if op.unitsNormalise then f nums op.unitsMulti op.unitsRelative else .ok (nums, none)
  | none => .ok (nums, none)

theorem IsNum.scalar {x : Opd S U R} {w : S} (h : IsNum c x w) : IsScalar x :=
  h.imp fun _ h => h.1

theorem IsNum.asNumber {x : Opd S U R} {w : S} (h : IsNum c x w) : asNumber c x.value = some w := by
  obtain ⟨v, hv, hw, -⟩ := h
  rw [hv]
  exact hw

section
variable (hop : NumbersOnly op)
include hop

theorem NumbersOnly.convertible (i : ℕ) : convertible op i = true := by
  simp [MC.convertible, hop.values, Operation.applies]

theorem NumbersOnly.canBe (i : ℕ) : op.canBe i "number" = true := by
  simp [Operation.canBe, hop.values, Operation.applies, ObjType.main]

theorem NumbersOnly.convert {xs : List (Opd S U R)} {ws : List S} (h : List.Forall₂ (IsNum c) xs ws) (i : ℕ) :
    convertFrom c op i xs = List.zipWith (fun (x : Opd S U R) (w : S) => { x with value := .sc w }) xs ws := by
  induction h generalizing i with
  | nil => rfl
  | cons h _ ih =>
    unfold convertFrom
    rw [hop.convertible, ih]
    simp [h.asNumber]

theorem NumbersOnly.numbers {xs : List (Opd S U R)} {ws : List S} (h : List.Forall₂ (IsNum c) xs ws) (i : ℕ) :
    numbersFrom c op i (List.zipWith (fun (x : Opd S U R) (w : S) => { x with value := .sc w }) xs ws)
      = some (ws.zip (xs.map (·.unit))) := by
  induction h generalizing i with
  | nil => rfl
  | cons h _ ih =>
    obtain ⟨v, -, -, hw⟩ := h
    simp only [List.zipWith_cons_cons, numbersFrom, hop.canBe, hw, Option.isSome_some, Bool.and_self,
      if_true, ih]
    rfl

theorem NumbersOnly.cast {xs : List (Opd S U R)} {ws : List S} (h : List.Forall₂ (IsNum c) xs ws) :
    castOf c op xs = ws.findSome? c.cast := by
  have key : ∀ i, castFrom c ⟨0, none, [.ty "number"]⟩ i xs = ws.findSome? c.cast := by
    induction h with
    | nil => intro i; rfl
    | cons h _ ih =>
      intro i
      unfold castFrom
      simp only [Operation.applies, Nat.zero_le, decide_true, Bool.and_self, if_true, h.asNumber,
        Option.bind_some, List.findSome?_cons, ih]
      rfl
  simp only [castOf, hop.values, List.findSome?_cons, List.findSome?_nil]
  rw [key 0]
  cases ws.findSome? c.cast <;> rfl

theorem NumbersOnly.validate (hc : HasNumbers c) {xs : List (Opd S U R)} {ws : List S}
    (h : List.Forall₂ (IsNum c) xs ws) (hmin : ∀ m, op.minParams = some m → m ≤ xs.length)
    (hmax : ∀ m, op.maxParams = some m → xs.length ≤ m) : validate c op xs = .ok () := by
  have hv : c.validator "number" = some (validateNumber c) := hc
  have key : ∀ i, checkFrom c op ⟨0, none, [.ty "number"]⟩ i xs = .ok () := by
    clear hmin hmax
    induction h with
    | nil => intro i; rfl
    | cons h _ ih =>
      intro i
      unfold checkFrom
      simp only [Operation.applies, Nat.zero_le, decide_true, Bool.and_self, if_true, anyType,
        validateInput, hv, validateNumber, h.asNumber, Option.isSome_some]
      exact ih _
  unfold MC.validate
  rw [if_neg, if_neg]
  · simp [hop.values, hop.units, checkValues, key, checkUnits]
  · cases hm : op.maxParams with
    | none => simp
    | some m => simpa using hmax m hm
  · cases hm : op.minParams with
    | none => simp
    | some m => simpa using hmin m hm

/-- A call of an operation on numbers: the numbers are converted and brought to common units, and
the result gets the first number type among them. -/
theorem call_numbers (hc : HasNumbers c) {xs : List (Opd S U R)} {ws : List S}
    (h : List.Forall₂ (IsNum c) xs ws) (hmin : ∀ m, op.minParams = some m → m ≤ xs.length)
    (hmax : ∀ m, op.maxParams = some m → xs.length ≤ m) (s : σ) :
    call c op xs s = match normalised c op (ws.zip (xs.map (·.unit))) with
      | .error e => (.error (wrap c op xs e), s)
      | .ok (nums, ru) =>
        let ys := setNumbers (List.zipWith (fun (x : Opd S U R) (w : S) => { x with value := .sc w }) xs ws) nums
        match op.ref ys s with
        | (.error e, s') => (.error (wrap c op xs e), s')
        | (.ok res, s') => let r := finishResult c op ru (ws.findSome? c.cast) res
          (.ok r, op.after ys r s') := by
  have hsc : ∀ x ∈ xs, IsScalar x := by
    intro x hx
    obtain ⟨i, hi, rfl⟩ := List.mem_iff_getElem.mp hx
    exact (List.forall₂_iff_get.mp h |>.2 i hi (h.length_eq ▸ hi)).scalar
  have hmust : op.mustBe 0 "array" none = false := by
    simp [Operation.mustBe, Operation.onlyType, Operation.applies, ObjType.main, hop.values]
  rw [call_direct (spreads_scalar hsc 0) (by simp [hmust]) hop.canBeExc
    (by intro x hx; obtain ⟨v, hv⟩ := hsc x hx; rw [hv]; rfl)]
  unfold attempt
  rw [hop.validate hc h hmin hmax]
  dsimp only
  have hset : ∀ (xs : List (Opd S U R)) (ws : List S),
      setNumbers (List.zipWith (fun (x : Opd S U R) (w : S) => { x with value := .sc w }) xs ws)
        (ws.zip (xs.map (·.unit)))
      = List.zipWith (fun (x : Opd S U R) (w : S) => { x with value := .sc w }) xs ws := by
    intro xs
    induction xs with
    | nil => intro ws; cases ws <;> rfl
    | cons x xs ih =>
      intro ws
      cases ws with
      | nil => rfl
      | cons w ws =>
        simp only [List.zipWith_cons_cons, List.map_cons, List.zip_cons_cons, setNumbers, ih]
  have hprep : prepare c op xs = match normalised c op (ws.zip (xs.map (·.unit))) with
      | .error e => .error e
      | .ok (nums, ru) => .ok (setNumbers
          (List.zipWith (fun (x : Opd S U R) (w : S) => { x with value := .sc w }) xs ws) nums, ru,
          ws.findSome? c.cast) := by
    unfold prepare normalised
    simp only [hop.convertIn, if_true, hop.convert h, hop.numbers h, hop.cast h]
    cases c.normalise with
    | none => simp only [hset]
    | some f =>
      dsimp only
      split
      · rfl
      · simp only [hset]
  rw [hprep]
  cases normalised c op (ws.zip (xs.map (·.unit))) with
  | error e => rfl
  | ok q =>
    obtain ⟨nums, ru⟩ := q
    dsimp only
    rcases op.ref _ s with ⟨r | r, s'⟩ <;> rfl

end
end MC.Numeric
