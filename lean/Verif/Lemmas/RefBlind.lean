import Verif.Lemmas.Operation
import Verif.Lemmas.EngineRel
import Mathlib.Data.List.Forall2

/-!
# Operations that do not look at references
-/

namespace MC

variable {S U R K σ : Type} {c : Calc S U R K} {op : Operation S U R σ}

/-- The operation and what it asks the calculator depend on the values and units of the inputs
only, not on the items they came from. -/
structure RefBlind (c : Calc S U R K) (op : Operation S U R σ) : Prop where
  types : ∀ r ∈ op.values, ∀ t ∈ r.types, ∀ x y : Opd S U R, x.value = y.value →
    x.unit = y.unit → validateInput c t x = validateInput c t y
  run : ∀ ys zs : List (Opd S U R),
    ys.map (fun y => (y.value, y.unit)) = zs.map (fun y => (y.value, y.unit)) →
    op.ref ys = op.ref zs
  shows : ∀ x y : Opd S U R, x.value = y.value → x.unit = y.unit → c.toString x = c.toString y
  after : op.after = fun _ _ s => s
  noVariable : ∀ i, op.canBe i "variable" = false
  two : op.maxParams ≠ some 1

/-- The same input, except perhaps where it came from. -/
def Sim (x y : Opd S U R) : Prop :=
  x = y ∨ (x.value = y.value ∧ x.unit = y.unit ∧ x.value.err? = none)

theorem Sim.value {x y : Opd S U R} (h : Sim x y) : x.value = y.value := by
  rcases h with rfl | h
  · rfl
  · exact h.1

theorem Sim.unit {x y : Opd S U R} (h : Sim x y) : x.unit = y.unit := by
  rcases h with rfl | h
  · rfl
  · exact h.2.1

abbrev Sims : List (Opd S U R) → List (Opd S U R) → Prop := List.Forall₂ Sim

theorem Sims.pairs {xs ys : List (Opd S U R)} (h : Sims xs ys) :
    xs.map (fun y => (y.value, y.unit)) = ys.map (fun y => (y.value, y.unit)) := by
  induction h with
  | nil => rfl
  | cons h _ ih => simp [h.value, h.unit, ih]

theorem Sims.find {xs ys : List (Opd S U R)} (h : Sims xs ys) :
    xs.find? (fun x => x.value.err?.isSome) = ys.find? (fun x => x.value.err?.isSome) := by
  induction h with
  | nil => rfl
  | @cons x y xs ys h _ ih =>
    rcases h with rfl | h
    · simp [List.find?_cons, ih]
    · have h2 : y.value.err? = none := by rw [← h.1]; exact h.2.2
      simp [ih, h.2.2, h2]

section
variable (hb : RefBlind c op)
include hb

omit hb in
theorem anyType_blind {x y : Opd S U R} (h : Sim x y) : ∀ ts : List ObjType,
    (∀ t ∈ ts, validateInput c t x = validateInput c t y) → anyType c x ts = anyType c y ts
  | [], _ => rfl
  | t :: ts, ht => by
    rw [anyType, anyType, ht t (List.mem_cons_self ..),
      anyType_blind h ts (fun u hu => ht u (List.mem_cons_of_mem _ hu))]

theorem checkFrom_blind {r : Restriction} (hr : r ∈ op.values) : ∀ {xs ys : List (Opd S U R)}
    (_ : Sims xs ys) (i : ℕ), checkFrom c op r i xs = checkFrom c op r i ys
  | _, _, .nil, _ => rfl
  | _, _, .cons (a := x) (b := y) h hs, i => by
    rw [checkFrom, checkFrom, checkFrom_blind hr hs,
      anyType_blind h r.types (fun t ht => hb.types r hr t ht x y h.value h.unit)]

theorem checkValues_blind {xs ys : List (Opd S U R)} (h : Sims xs ys) : ∀ (rs : List Restriction),
    (∀ r ∈ rs, r ∈ op.values) → checkValues c op xs rs = checkValues c op ys rs
  | [], _ => rfl
  | r :: rs, hr => by
    rw [checkValues, checkValues, checkFrom_blind hb (hr r (List.mem_cons_self ..)) h,
      checkValues_blind h rs (fun q hq => hr q (List.mem_cons_of_mem _ hq))]

omit hb in
theorem checkUnitsFrom_blind {r : UnitRestriction U} : ∀ {xs ys : List (Opd S U R)}
    (_ : Sims xs ys) (i : ℕ), checkUnitsFrom op r i xs = checkUnitsFrom op r i ys
  | _, _, .nil, _ => rfl
  | _, _, .cons h hs, i => by
    rw [checkUnitsFrom, checkUnitsFrom, checkUnitsFrom_blind hs, h.unit]

omit hb in
theorem checkUnits_blind {xs ys : List (Opd S U R)} (h : Sims xs ys) :
    ∀ (rs : List (UnitRestriction U)), checkUnits op xs rs = checkUnits op ys rs
  | [] => rfl
  | r :: rs => by rw [checkUnits, checkUnits, checkUnitsFrom_blind h, checkUnits_blind h rs]

theorem validate_blind {xs ys : List (Opd S U R)} (h : Sims xs ys) :
    validate c op xs = validate c op ys := by
  unfold validate
  rw [h.length_eq, checkValues_blind hb h op.values (fun _ hr => hr), checkUnits_blind h]

omit hb in
theorem convertFrom_blind : ∀ {xs ys : List (Opd S U R)} (_ : Sims xs ys) (i : ℕ),
    Sims (convertFrom c op i xs) (convertFrom c op i ys)
  | _, _, .nil, _ => .nil
  | _, _, .cons (a := x) (b := y) h hs, i => by
    rw [convertFrom, convertFrom]
    refine .cons ?_ (convertFrom_blind hs (i + 1))
    rw [h.value]
    cases (if convertible op i then asNumber c y.value else none) with
    | none => exact h
    | some n => exact Or.inr ⟨rfl, h.unit, rfl⟩

omit hb in
theorem castFrom_blind {r : Restriction} : ∀ {xs ys : List (Opd S U R)} (_ : Sims xs ys) (i : ℕ),
    castFrom c r i xs = castFrom c r i ys
  | _, _, .nil, _ => rfl
  | _, _, .cons h hs, i => by rw [castFrom, castFrom, h.value, castFrom_blind hs]

omit hb in
theorem castOf_blind {xs ys : List (Opd S U R)} (h : Sims xs ys) :
    castOf c op xs = castOf c op ys := by
  unfold castOf
  simp only [castFrom_blind h]

omit hb in
theorem numbersFrom_blind : ∀ {xs ys : List (Opd S U R)} (_ : Sims xs ys) (i : ℕ),
    numbersFrom c op i xs = numbersFrom c op i ys
  | _, _, .nil, _ => rfl
  | _, _, .cons h hs, i => by
    rw [numbersFrom, numbersFrom, h.value, h.unit, numbersFrom_blind hs]

omit hb in
theorem setNumbers_blind : ∀ {xs ys : List (Opd S U R)} (_ : Sims xs ys) (vs : List (S × Option U)),
    Sims (setNumbers xs vs) (setNumbers ys vs)
  | _, _, .nil, vs => by cases vs <;> exact .nil
  | _, _, .cons h hs, [] => .cons h hs
  | _, _, .cons h hs, v :: vs => by
    rw [setNumbers, setNumbers]
    exact .cons (Or.inr ⟨rfl, rfl, rfl⟩) (setNumbers_blind hs vs)

/-- The same outcome, up to where inputs came from. -/
def SimOut (a b : Except Raise (List (Opd S U R) × Option U × Option K)) : Prop :=
  match a, b with
  | .error e, .error e' => e = e'
  | .ok (xs, q), .ok (ys, q') => Sims xs ys ∧ q = q'
  | _, _ => False

omit hb in
theorem normaliseArrays_blind : ∀ {xs ys : List (Opd S U R)} (_ : Sims xs ys) (i : ℕ)
    (ru : Option U) (k : Option K),
    SimOut (normaliseArrays c op i ru k xs) (normaliseArrays c op i ru k ys)
  | _, _, .nil, _, _, _ => ⟨.nil, rfl⟩
  | _, _, .cons (a := x) (b := y) (l₁ := xs) (l₂ := ys) h hs, i, ru, k => by
    have plain : SimOut
        (match normaliseArrays c op (i + 1) ru k xs with
          | .error e => (.error e : Except Raise (List (Opd S U R) × Option U × Option K))
          | .ok (ys, r) => .ok (x :: ys, r))
        (match normaliseArrays c op (i + 1) ru k ys with
          | .error e => .error e
          | .ok (ys, r) => .ok (y :: ys, r)) := by
      have ih := normaliseArrays_blind hs (i + 1) ru k
      cases h1 : normaliseArrays c op (i + 1) ru k xs with
      | error e =>
        rw [h1] at ih
        cases h2 : normaliseArrays c op (i + 1) ru k ys with
        | error e' => rw [h2] at ih; exact ih
        | ok q => rw [h2] at ih; exact ih.elim
      | ok p =>
        rw [h1] at ih
        cases h2 : normaliseArrays c op (i + 1) ru k ys with
        | error e' => rw [h2] at ih; exact ih.elim
        | ok q => rw [h2] at ih; exact ⟨.cons h ih.1, ih.2⟩
    rw [normaliseArrays, normaliseArrays, h.value]
    cases hv : y.value with
    | sc v => exact plain
    | exc e => exact plain
    | arr els =>
      simp only
      split
      · cases elementNumbers c els with
        | error e => exact rfl
        | ok nums =>
          simp only
          have fin : ∀ k' nums' ru', SimOut
              (match normaliseArrays c op (i + 1) ru' k' xs with
                | .error e => (.error e : Except Raise (List (Opd S U R) × Option U × Option K))
                | .ok (ys, r) => .ok ({ x with value := .arr (setElements els nums') } :: ys, r))
              (match normaliseArrays c op (i + 1) ru' k' ys with
                | .error e => .error e
                | .ok (ys, r) => .ok ({ y with value := .arr (setElements els nums') } :: ys, r)) := by
            intro k' nums' ru'
            have ih := normaliseArrays_blind hs (i + 1) ru' k'
            revert ih
            cases normaliseArrays c op (i + 1) ru' k' xs with
            | error e =>
              cases normaliseArrays c op (i + 1) ru' k' ys with
              | error e' => exact fun ih => ih
              | ok q => exact fun ih => ih.elim
            | ok p =>
              cases normaliseArrays c op (i + 1) ru' k' ys with
              | error e' => exact fun ih => ih.elim
              | ok q => exact fun ih => ⟨.cons (Or.inr ⟨rfl, h.unit, rfl⟩) ih.1, ih.2⟩
          cases c.normalise with
          | none => exact fin _ nums ru
          | some f =>
            simp only
            cases op.unitsNormalise with
            | false => exact fin _ nums ru
            | true =>
              simp only [if_true]
              cases f nums op.unitsMulti op.unitsRelative with
              | error e => exact rfl
              | ok q => exact fin _ q.1 q.2
      · exact plain

omit hb in
theorem prepare_blind {xs ys : List (Opd S U R)} (h : Sims xs ys) :
    SimOut (prepare c op xs) (prepare c op ys) := by
  have h1 : Sims (if op.convertIn then convertFrom c op 0 xs else xs)
      (if op.convertIn then convertFrom c op 0 ys else ys) := by
    split
    · exact convertFrom_blind h 0
    · exact h
  unfold prepare
  simp only [castOf_blind h]
  rw [numbersFrom_blind h1]
  cases numbersFrom c op 0 (if op.convertIn then convertFrom c op 0 ys else ys) with
  | none => exact normaliseArrays_blind h1 0 none _
  | some nums =>
    simp only
    cases c.normalise with
    | none => exact ⟨h1, rfl⟩
    | some f =>
      simp only
      split
      · cases f nums op.unitsMulti op.unitsRelative with
        | error e => exact rfl
        | ok q => exact ⟨setNumbers_blind h1 _, rfl⟩
      · exact ⟨h1, rfl⟩

theorem showAll_blind : ∀ {xs ys : List (Opd S U R)} (_ : Sims xs ys), showAll c xs = showAll c ys
  | _, _, .nil => rfl
  | _, _, .cons (a := x) (b := y) h hs => by
    rw [showAll, showAll, hb.shows x y h.value h.unit, showAll_blind hs]

theorem callScalar_blind {xs ys : List (Opd S U R)} (h : Sims xs ys) (s : σ) :
    callScalar c op xs s = callScalar c op ys s := by
  unfold callScalar
  rw [h.find]
  cases (if op.canBeExc then none else ys.find? (fun x => x.value.err?.isSome)) with
  | some x => rfl
  | none =>
    simp only
    have hw : ∀ e, wrap c op xs e = wrap c op ys e := by
      intro e
      unfold wrap wrap.named
      rw [showAll_blind hb h]
    have ha : attempt c op xs s = attempt c op ys s := by
      unfold attempt
      rw [validate_blind hb h]
      cases validate c op ys with
      | error e => rfl
      | ok u =>
        simp only
        have hp := prepare_blind (c := c) (op := op) h
        revert hp
        cases prepare c op xs with
        | error e =>
          cases prepare c op ys with
          | error e' => rintro rfl; rfl
          | ok q => exact fun hp => hp.elim
        | ok p =>
          cases prepare c op ys with
          | error e' => exact fun hp => hp.elim
          | ok q =>
            obtain ⟨xs', ru, k⟩ := p
            obtain ⟨ys', ru', k'⟩ := q
            rintro ⟨h1, h2⟩
            obtain ⟨rfl, rfl⟩ := Prod.mk.inj h2
            simp only [hb.run _ _ h1.pairs, hb.after]
    rw [ha]
    simp only [hw]

theorem spread_blind {x y : Opd S U R} (h : Sim x y) (i : ℕ) : spread op i x = spread op i y := by
  unfold spread
  rw [h.value, hb.noVariable]
  simp

theorem spreads_blind : ∀ {xs ys : List (Opd S U R)} (_ : Sims xs ys) (i : ℕ),
    spreads op i xs = spreads op i ys
  | _, _, .nil, _ => rfl
  | _, _, .cons h hs, i => by
    rw [spreads, spreads, spread_blind hb h, spreads_blind hs]

theorem row_blind (k : ℕ) : ∀ {xs ys : List (Opd S U R)} (_ : Sims xs ys) (i : ℕ),
    (∀ l ∈ spreads op i xs, k < l.length) → Sims (row op k i xs) (row op k i ys)
  | _, _, .nil, _, _ => .nil
  | _, _, .cons (a := x) (b := y) (l₁ := xs) h hs, i, hk => by
    rw [row, row, ← spread_blind hb h]
    rw [spreads] at hk
    cases hsp : spread op i x with
    | none => rw [hsp] at hk; exact .cons h (row_blind k hs (i + 1) hk)
    | some l =>
      rw [hsp] at hk
      refine .cons ?_ (row_blind k hs (i + 1) (fun m hm => hk m (List.mem_cons_of_mem _ hm)))
      have := hk l (List.mem_cons_self ..)
      simp only [List.getElem?_eq_getElem this, Option.getD_some]
      exact Or.inl rfl

omit hb in
theorem eachRow_blind {f : List (Opd S U R) → Act σ (Opd S U R)} {mk mk' : ℕ → List (Opd S U R)} :
    ∀ (ks : List ℕ), (∀ k ∈ ks, ∀ s, f (mk k) s = f (mk' k) s) → ∀ s,
    eachRow f mk ks s = eachRow f mk' ks s
  | [], _, _ => rfl
  | k :: ks, h, s => by
    rw [eachRow, eachRow, h k (List.mem_cons_self ..)]
    simp only [eachRow_blind ks (fun j hj => h j (List.mem_cons_of_mem _ hj))]

theorem callF_blind : ∀ (f : ℕ) {xs ys : List (Opd S U R)}, Sims xs ys → ∀ s,
    callF c op f xs s = callF c op f ys s := by
  have hone : ∀ xs : List (Opd S U R),
      ¬ (op.maxParams = some 1 ∧ op.mustBe 0 "array" none = true ∧ 1 < xs.length) :=
    fun xs h => hb.two h.1
  intro f
  induction f with
  | zero =>
    intro xs ys h s
    rw [callF, callF, spreads_blind hb h, if_neg (hone xs), if_neg (hone ys),
      callScalar_blind hb h]
  | succ f ih =>
    intro xs ys h s
    rw [callF, callF, ← spreads_blind hb h, if_neg (hone xs), if_neg (hone ys),
      callScalar_blind hb h]
    cases hs : spreads op 0 xs with
    | nil => rfl
    | cons l ls =>
      simp only
      by_cases hl : sameLength (l :: ls) = true
      · simp only [hl, if_true]
        rw [eachRow_blind (mk := fun k => row op k 0 xs) (mk' := fun k => row op k 0 ys)]
        intro k hk s
        refine ih (row_blind hb k h 0 ?_) s
        intro m hm
        rw [hs] at hm
        rw [(sameLength_iff l ls).mp hl m hm]
        exact List.mem_range.mp hk
      · simp [hl]

end

theorem depthList_blind : ∀ {xs ys : List (Opd S U R)} (_ : Sims xs ys),
    depthList xs = depthList ys
  | _, _, .nil => rfl
  | _, _, .cons (a := x) (b := y) h hs => by
    rw [depthList, depthList, depthList_blind hs, depthOpd_eq, depthOpd_eq, h.value]

/-- Where the inputs came from makes no difference. -/
theorem call_blind (hb : RefBlind c op) {xs ys : List (Opd S U R)} (h : Sims xs ys) (s : σ) :
    call c op xs s = call c op ys s := by
  unfold call
  rw [depthList_blind h, callF_blind hb _ h]

end MC
