import Verif.Lemmas.Operation
import Verif.Model.Boolean
import Verif.Props.Engine2

/-!
# C29, C30, C31: errors as values, arrays, validation
-/

namespace MC.Props

open MC.Spec

variable {S U R K σ : Type} (c : Calc S U R K) (op : Operation S U R σ)

/-! ## C30 -/

/-- **C30**: an operation applied to inputs of which some are arrays it does not take as
arrays, all of length `n`, gives an array of `n` elements.  The `k`-th is the outcome of the
operation on the `k`-th elements, the other inputs repeated.  (The applications happen in
order: `st k` is the state before the `k`-th.)  The only other possibility is an internal error
of Python in one of the applications. -/
theorem C30_elementwise {xs : List (Opd S U R)} {n : ℕ}
    (hsome : ∃ i x l, xs[i]? = some x ∧ Spreads op i x l)
    (hlen : ∀ i x l, xs[i]? = some x → Spreads op i x l → l.length = n) (s : σ) :
    (∃ (rs : List (Opd S U R)) (st : ℕ → σ),
      call c op xs s = (.ok ⟨.arr rs, none, none, none⟩, st n) ∧ rs.length = n ∧ st 0 = s ∧
      ∀ k < n, ∃ r ys, rs[k]? = some r ∧ IsRow op xs k ys ∧
        Element (call c op ys (st k)).1 r ∧ (call c op ys (st k)).2 = st (k + 1)) ∨
    (∃ k < n, ∃ ys s1 s' msg, IsRow op xs k ys ∧
      call c op ys s1 = (.error (.py msg), s') ∧ call c op xs s = (.error (.py msg), s')) := by
  have hmem : ∀ m ∈ spreads op 0 xs, m.length = n := by
    intro m hm
    obtain ⟨i, x, hx, hs⟩ := (mem_spreads op xs 0 m).mp hm
    exact hlen i x m hx ((spread_iff op i x m).mp (by simpa using hs))
  rw [call_eq]
  cases hs : spreads op 0 xs with
  | nil =>
    exfalso
    obtain ⟨i, x, l, hx, hl⟩ := hsome
    have : l ∈ spreads op 0 xs :=
      (mem_spreads op xs 0 l).mpr ⟨i, x, hx, by simpa using (spread_iff op i x l).mpr hl⟩
    rw [hs] at this
    simp at this
  | cons l ls =>
    have hl : l.length = n := hmem l (by rw [hs]; simp)
    have hsame : sameLength (l :: ls) = true :=
      (sameLength_iff l ls).mpr (fun m hm => by rw [hl]; exact hmem m (by rw [hs]; exact hm))
    simp only [hsame, if_true, hl]
    rw [List.range_eq_range']
    have hrow : ∀ k < n, IsRow op xs k (row op k 0 xs) :=
      fun k hk => isRow_row op (fun m hm => by rw [hmem m hm]; exact hk)
    rcases eachRow_spec (call c op) (fun k => row op k 0 xs) n 0 s with
      ⟨rs, st, he, hlen', h0, hall⟩ | ⟨j, hj, s1, s', msg, hm, he⟩
    · refine Or.inl ⟨rs, st, by rw [he]; rfl, hlen', h0, fun k hk => ?_⟩
      obtain ⟨r, h1, h2, h3⟩ := hall k hk
      rw [Nat.zero_add] at h2 h3
      exact ⟨r, row op k 0 xs, h1, hrow k hk, h2, h3⟩
    · rw [Nat.zero_add] at hm
      exact Or.inr ⟨j, hj, row op j 0 xs, s1, s', msg, hrow j hj, hm, by rw [he]⟩

/-- The row is unique, so `C30_elementwise` says what each element is. -/
theorem C30_row_unique {xs ys zs : List (Opd S U R)} {k : ℕ} (h1 : IsRow op xs k ys)
    (h2 : IsRow op xs k zs) : ys = zs := isRow_unique op h1 h2

/-- **C30**: arrays of different lengths raise, and nothing is run. -/
theorem C30_lengths {xs : List (Opd S U R)} {i j : ℕ} {x y : Opd S U R}
    {l m : List (Opd S U R)} (hx : xs[i]? = some x) (hl : Spreads op i x l)
    (hy : xs[j]? = some y) (hm : Spreads op j y m) (hne : l.length ≠ m.length) (s : σ) :
    call c op xs s = (.error (.calc "All array inputs must all be same length"), s) := by
  have hlm : l ∈ spreads op 0 xs :=
    (mem_spreads op xs 0 l).mpr ⟨i, x, hx, by simpa using (spread_iff op i x l).mpr hl⟩
  have hmm : m ∈ spreads op 0 xs :=
    (mem_spreads op xs 0 m).mpr ⟨j, y, hy, by simpa using (spread_iff op j y m).mpr hm⟩
  rw [call_eq]
  cases hs : spreads op 0 xs with
  | nil => rw [hs] at hlm; simp at hlm
  | cons a as =>
    rw [hs] at hlm hmm
    have : ¬ sameLength (a :: as) = true := by
      rw [sameLength_iff]
      intro h
      exact hne ((h l hlm).trans (h m hmm).symm)
    simp [this]

/-- **C30**: an operation that takes one array gives the same when the elements are passed as
separate inputs, e.g. `sum(1, 2, 3)` and `sum([1, 2, 3])`. -/
theorem C30_collect {xs : List (Opd S U R)} (hmax : op.maxParams = some 1)
    (htypes : ∃ r, op.values = [r] ∧ r.first = 0 ∧ r.last = none ∧
      ∃ t, r.types = [t] ∧ t.main = some "array")
    (hxs : 1 < xs.length) (hno : ∀ x ∈ xs, ∀ l, x.value ≠ .arr l) (s : σ) :
    call c op xs s = call c op [⟨.arr xs, none, none, none⟩] s := by
  obtain ⟨r, hr, h0, hlast, t, ht, htm⟩ := htypes
  have hspread : spreads op 0 xs = [] := by
    rw [List.eq_nil_iff_forall_not_mem]
    intro l hl
    obtain ⟨j, x, hx, hs⟩ := (mem_spreads op xs 0 l).mp hl
    exact hno x (List.mem_of_getElem? hx) l ((spread_iff op _ x l).mp hs).1
  have harr : xs.filterMap (fun x => x.value.arr?) = [] := by
    rw [List.filterMap_eq_nil_iff]
    intro x hx
    cases hv : x.value with
    | arr l => exact absurd hv (hno x hx l)
    | sc v => rfl
    | exc e => rfl
  have hcol : collect 0 xs = xs := by
    unfold collect
    conv_rhs => rw [← List.map_id xs]
    apply List.map_congr_left
    intro x hx
    cases hv : x.value with
    | arr l => exact absurd hv (hno x hx l)
    | sc v => rfl
    | exc e => rfl
  have hmust : op.mustBe 0 "array" none = true := by
    unfold Operation.mustBe Operation.onlyType Operation.applies
    simp [hr, h0, hlast, ht, htm]
  rw [call_eq, hspread]
  simp only [harr, hcol, sameLength]
  rw [if_pos ⟨hmax, hmust, hxs⟩]
  rfl

/-! ## C31 -/

/-- **C31**: inputs that are not allowed are rejected with an error, without running the
implementation: whatever it is, the state is unchanged. -/
theorem C31_rejects {xs : List (Opd S U R)} (hbad : ¬ Allowed c op xs)
    (hspread : ¬ ∃ i x l, xs[i]? = some x ∧ Spreads op i x l)
    (hcollect : op.maxParams = some 1 → xs.length ≤ 1)
    (hexc : op.canBeExc = true ∨ ∀ x ∈ xs, ∀ e, x.value ≠ .exc e) (s : σ) :
    ∃ e, call c op xs s = (.error e, s) := by
  have hs : spreads op 0 xs = [] := by
    rw [List.eq_nil_iff_forall_not_mem]
    intro l hl
    obtain ⟨j, x, hx, h⟩ := (mem_spreads op xs 0 l).mp hl
    exact hspread ⟨j, x, l, hx, (spread_iff op j x l).mp (by simpa using h)⟩
  rw [call_eq, hs]
  simp only
  rw [if_neg (by rintro ⟨h1, -, h3⟩; have := hcollect h1; omega)]
  have hf : (if op.canBeExc then none else xs.find? (fun x => x.value.err?.isSome)) = none := by
    cases hb : op.canBeExc with
    | true => rfl
    | false =>
      rw [if_neg (by simp), List.find?_eq_none]
      intro x hx
      rcases hexc with h | h
      · rw [hb] at h; simp at h
      · cases hv : x.value with
        | exc e => exact absurd hv (h x hx e)
        | sc v => simp [Val.err?]
        | arr l => simp [Val.err?]
  have hv : ∃ e, validate c op xs = .error e := by
    cases h : validate c op xs with
    | error e => exact ⟨e, rfl⟩
    | ok u => exact absurd (validate_ok c op h) hbad
  obtain ⟨e, he⟩ := hv
  unfold callScalar
  rw [hf]
  simp only [attempt, he]
  exact ⟨_, rfl⟩

theorem attempt_congr {r2 : List (Opd S U R) → Act σ (OpResult S U R)}
    (h : ∀ xs ys ru k, Allowed c op xs → prepare c op xs = .ok (ys, ru, k) →
      ∀ s, r2 ys s = op.ref ys s) (xs : List (Opd S U R)) (s : σ) :
    attempt c { op with ref := r2 } xs s = attempt c op xs s := by
  unfold attempt
  have hv : validate c { op with ref := r2 } xs = validate c op xs := by
    have h1 : ∀ (rs : List Restriction),
        checkValues c { op with ref := r2 } xs rs = checkValues c op xs rs := by
      have h0 : ∀ (r : Restriction) (i : ℕ) (ys : List (Opd S U R)),
          checkFrom c { op with ref := r2 } r i ys = checkFrom c op r i ys := by
        intro r i ys
        induction ys generalizing i with
        | nil => rfl
        | cons y ys ih => rw [checkFrom, checkFrom, ih]
      intro rs
      induction rs with
      | nil => rfl
      | cons r rs ih => rw [checkValues, checkValues, ih, h0]
    have h2 : ∀ (rs : List (UnitRestriction U)),
        checkUnits { op with ref := r2 } xs rs = checkUnits op xs rs := by
      have h0 : ∀ (r : UnitRestriction U) (i : ℕ) (ys : List (Opd S U R)),
          checkUnitsFrom { op with ref := r2 } r i ys = checkUnitsFrom op r i ys := by
        intro r i ys
        induction ys generalizing i with
        | nil => rfl
        | cons y ys ih => rw [checkUnitsFrom, checkUnitsFrom, ih]
      intro rs
      induction rs with
      | nil => rfl
      | cons r rs ih => rw [checkUnits, checkUnits, ih, h0]
    unfold validate
    simp only [h1, h2]
  have hp : prepare c { op with ref := r2 } xs = prepare c op xs := by
    have h1 : ∀ (i : ℕ) (ys : List (Opd S U R)),
        convertFrom c { op with ref := r2 } i ys = convertFrom c op i ys := by
      intro i ys
      induction ys generalizing i with
      | nil => rfl
      | cons y ys ih => rw [convertFrom, convertFrom, ih]; rfl
    have h2 : ∀ (i : ℕ) (ys : List (Opd S U R)),
        numbersFrom c { op with ref := r2 } i ys = numbersFrom c op i ys := by
      intro i ys
      induction ys generalizing i with
      | nil => rfl
      | cons y ys ih => rw [numbersFrom, numbersFrom, ih]; rfl
    have h3 : ∀ (i : ℕ) (ru : Option U) (k : Option K) (ys : List (Opd S U R)),
        normaliseArrays c { op with ref := r2 } i ru k ys = normaliseArrays c op i ru k ys := by
      intro i ru k ys
      induction ys generalizing i ru k with
      | nil => rfl
      | cons y ys ih => rw [normaliseArrays, normaliseArrays]; simp only [ih]; rfl
    unfold prepare
    simp only [h1, h2, h3]
    rfl
  rw [hv, hp]
  cases h1 : validate c op xs with
  | error e => rfl
  | ok u =>
    cases h2 : prepare c op xs with
    | error e => rfl
    | ok q =>
      obtain ⟨ys, ru, k⟩ := q
      simp only [h xs ys ru k (validate_ok c op h1) h2 s]
      rfl

/-- **C31**: the implementation runs only on (the converted form of) allowed inputs: two
operations with the same declaration whose implementations agree on these behave the same on
*all* inputs, arrays included. -/
theorem C31_only_allowed {r2 : List (Opd S U R) → Act σ (OpResult S U R)}
    (h : ∀ xs ys ru k, Allowed c op xs → prepare c op xs = .ok (ys, ru, k) →
      ∀ s, r2 ys s = op.ref ys s) :
    call c { op with ref := r2 } = call c op := by
  have hsc : callScalar c { op with ref := r2 } = callScalar c op := by
    funext xs s
    unfold callScalar
    rw [attempt_congr c op h]
    have hw : ∀ e, wrap c { op with ref := r2 } xs e = wrap c op xs e := fun e => rfl
    simp only [hw]
  have hsp : ∀ (i : ℕ) (xs : List (Opd S U R)),
      spreads { op with ref := r2 } i xs = spreads op i xs := by
    intro i xs
    induction xs generalizing i with
    | nil => rfl
    | cons x xs ih => rw [spreads, spreads, ih]; rfl
  have hrow : ∀ (k i : ℕ) (xs : List (Opd S U R)),
      row { op with ref := r2 } k i xs = row op k i xs := by
    intro k i xs
    induction xs generalizing i with
    | nil => rfl
    | cons x xs ih => rw [row, row, ih]; rfl
  have hF : ∀ (f : ℕ), callF c { op with ref := r2 } f = callF c op f := by
    intro f
    induction f with
    | zero =>
      funext xs s
      rw [callF, callF, hsp, hsc]
      rfl
    | succ f ih =>
      funext xs s
      rw [callF, callF, hsp, hsc]
      simp only [ih, hrow]
      rfl
  funext xs
  rw [call, call, hF]

/-- What the implementation sees has as many inputs as were given, and the same references. -/
theorem C31_prepared {xs ys : List (Opd S U R)} {ru : Option U} {k : Option K}
    (h : prepare c op xs = .ok (ys, ru, k)) : ys.map (·.ref) = xs.map (·.ref) := by
  have hconv : ∀ (i : ℕ) (zs : List (Opd S U R)),
      (convertFrom c op i zs).map (·.ref) = zs.map (·.ref) := by
    intro i zs
    induction zs generalizing i with
    | nil => rfl
    | cons z zs ih =>
      rw [convertFrom, List.map_cons, List.map_cons, ih]
      congr 1
      split <;> rfl
  have hset : ∀ (zs : List (Opd S U R)) (vs : List (S × Option U)),
      (setNumbers zs vs).map (·.ref) = zs.map (·.ref) := by
    intro zs
    induction zs with
    | nil => intro vs; cases vs <;> rfl
    | cons z zs ih =>
      intro vs
      cases vs with
      | nil => rfl
      | cons v vs => rw [setNumbers, List.map_cons, List.map_cons, ih]
  have harr : ∀ (zs : List (Opd S U R)) (i : ℕ) (ru : Option U) (k : Option K) (q),
      normaliseArrays c op i ru k zs = .ok q → q.1.map (·.ref) = zs.map (·.ref) := by
    intro zs
    induction zs with
    | nil =>
      intro i ru k q hq
      simp only [normaliseArrays, Except.ok.injEq] at hq
      subst hq; rfl
    | cons z zs ih =>
      intro i ru k q hq
      rw [normaliseArrays] at hq
      have plain : ∀ ru k, (match normaliseArrays c op (i + 1) ru k zs with
          | .error e => (.error e : Except Raise (List (Opd S U R) × Option U × Option K))
          | .ok (ys, r) => .ok (z :: ys, r)) = .ok q → q.1.map (·.ref) = (z :: zs).map (·.ref) := by
        intro ru k hq
        cases hn : normaliseArrays c op (i + 1) ru k zs with
        | error e => rw [hn] at hq; simp at hq
        | ok q' =>
          rw [hn] at hq
          simp only [Except.ok.injEq] at hq
          subst hq
          simp [ih _ _ _ _ hn]
      cases hv : z.value with
      | sc v => rw [hv] at hq; exact plain _ _ hq
      | exc e => rw [hv] at hq; exact plain _ _ hq
      | arr els =>
        rw [hv] at hq
        simp only at hq
        split at hq
        · split at hq
          · simp at hq
          · split at hq
            · simp at hq
            · split at hq
              · simp at hq
              · rename_i hn
                simp only [Except.ok.injEq] at hq
                subst hq
                simp [ih _ _ _ _ hn]
        · exact plain _ _ hq
  unfold prepare at h
  simp only at h
  have hys : (if op.convertIn then convertFrom c op 0 xs else xs).map (·.ref) = xs.map (·.ref) := by
    split
    · exact hconv 0 xs
    · rfl
  split at h
  · split at h
    · split at h
      · split at h
        · simp at h
        · simp only [Except.ok.injEq, Prod.mk.injEq] at h
          rw [← h.1, hset, hys]
      · simp only [Except.ok.injEq, Prod.mk.injEq] at h
        rw [← h.1, hys]
    · simp only [Except.ok.injEq, Prod.mk.injEq] at h
      rw [← h.1, hys]
  · rw [harr _ _ _ _ _ h, hys]

/-! ## C29 -/

/-- **C29**: an ordinary operation with a failed input gives exactly that failed input, with
its error, and runs nothing. -/
theorem C29_ordinary_partial {before after : List (Opd S U R)} {x : Opd S U R} {e : Raise}
    (hord : op.canBeExc = false) (hx : x.value = .exc e)
    (hfirst : ∀ y ∈ before, ∀ e, y.value ≠ .exc e)
    (hspread : ¬ ∃ i y l, (before ++ x :: after)[i]? = some y ∧ Spreads op i y l)
    (hcollect : op.maxParams = some 1 → before = [] ∧ after = []) (s : σ) :
    call c op (before ++ x :: after) s = (.ok x, s) := by
  have hs : spreads op 0 (before ++ x :: after) = [] := by
    rw [List.eq_nil_iff_forall_not_mem]
    intro l hl
    obtain ⟨j, y, hy, h⟩ := (mem_spreads op _ 0 l).mp hl
    exact hspread ⟨j, y, l, hy, (spread_iff op j y l).mp (by simpa using h)⟩
  rw [call_eq, hs]
  simp only
  rw [if_neg (by
    rintro ⟨h1, -, h3⟩
    obtain ⟨rfl, rfl⟩ := hcollect h1
    simp at h3)]
  have hf : (before ++ x :: after).find? (fun x => x.value.err?.isSome) = some x := by
    rw [List.find?_append]
    have : before.find? (fun x => x.value.err?.isSome) = none := by
      rw [List.find?_eq_none]
      intro y hy
      cases hv : y.value with
      | exc e => exact absurd hv (hfirst y hy e)
      | sc v => simp [Val.err?]
      | arr l => simp [Val.err?]
    rw [this]
    simp [hx, Val.err?]
  unfold callScalar
  rw [hord]
  simp only [Bool.false_eq_true, if_false, hf]

/-- **C29 fails for empty arrays**: an ordinary binary operation applied to an empty array and
a failed operand succeeds, with an empty array; the error is lost. -/
theorem C29_empty_array_violation (hno : op.values = [⟨0, none, [.ty "number"]⟩])
    (hord : op.canBeExc = false) (e : Raise) (s : σ) :
    op.canBeExc = false ∧
    call c op [⟨.arr [], none, none, none⟩, ⟨.exc e, none, none, none⟩] s
      = (.ok ⟨.arr [], none, none, none⟩, s) := by
  refine ⟨hord, ?_⟩
  have hc : op.canBe 0 "array" = false := by
    simp [Operation.canBe, hno, Operation.applies, ObjType.main]
  rw [call_eq]
  simp [spreads, spread, hc, sameLength, eachRow, Opd.pure]

open Boolean

section logic
variable {asBool : S → Option Bool} {ofBool : Bool → S}

/-- The calculator has the validators that `booleans.py:139` and `engine.py:18` install. -/
structure HasLogic (c : Calc S U R K) (asBool : S → Option Bool) : Prop where
  boolean : c.validator "boolean" = some (validateBoolean asBool)
  exception : c.validator "exception" = some validateException

/-- An operand holding a boolean. -/
def IsBool (asBool : S → Option Bool) (x : Opd S U R) (b : Bool) : Prop :=
  ∃ v, x.value = .sc v ∧ asBool v = some b

theorem boolean_of {x : Opd S U R} {b : Bool} (h : IsBool asBool x b) :
    Boolean.boolean asBool x = .ok b := by
  obtain ⟨v, h1, h2⟩ := h
  simp [Boolean.boolean, h1, h2]

theorem noSpread {x : Opd S U R} {i : ℕ} (h : ∀ l, x.value ≠ .arr l) : spread op i x = none := by
  unfold spread
  cases hv : x.value with
  | arr l => exact absurd hv (h l)
  | sc v => rfl
  | exc e => rfl

theorem isBool_noArr {x : Opd S U R} {b : Bool} (h : IsBool asBool x b) :
    ∀ l, x.value ≠ .arr l := by
  obtain ⟨v, h1, -⟩ := h
  intro l; rw [h1]; simp

/-- The second operand of `and`/`or`: a boolean or an error. -/
theorem logic_call (hc : HasLogic c asBool) {op : Operation S U R σ} {x y : Opd S U R} {b : Bool}
    (hx : IsBool asBool x b) (hy : (∃ d, IsBool asBool y d) ∨ ∃ e, y.value = .exc e)
    (h1 : op.minParams = some 2) (h2 : op.maxParams = some 2) (h3 : op.values = logicTypes)
    (h4 : op.units = []) (h5 : op.canBeExc = true) (h6 : op.after = fun _ _ s => s) (s : σ) :
    call c op [x, y] s = match op.ref [x, y] s with
      | (.ok r, s') => (.ok (finishResult c op none none r), s')
      | (.error e, s') => (.error (wrap c op [x, y] e), s') := by
  have hya : ∀ l, y.value ≠ .arr l := by
    rcases hy with ⟨d, hd⟩ | ⟨e, he⟩
    · exact isBool_noArr hd
    · intro l; rw [he]; simp
  have hvx : anyType c x [.ty "boolean"] = .ok true := by
    simp [anyType, validateInput, hc.boolean, validateBoolean, boolean_of hx]
  have hvy : anyType c y [.ty "boolean", .ty "exception"] = .ok true := by
    rcases hy with ⟨d, hd⟩ | ⟨e, he⟩
    · simp [anyType, validateInput, hc.boolean, validateBoolean, boolean_of hd]
    · have hb : validateBoolean asBool y none = .ok false := by
        simp [validateBoolean, Boolean.boolean, he]
      simp [anyType, validateInput, hc.boolean, hb, hc.exception, validateException, he, Val.err?]
  have hval : validate c op [x, y] = .ok () := by
    unfold validate
    rw [h1, h2, h3, h4]
    simp [logicTypes, checkValues, checkFrom, Operation.applies, hvx, hvy, checkUnits]
  have hconvI : ∀ i, convertible op i = false := by
    intro i
    simp [convertible, h3, logicTypes]
  have hconv : convertFrom c op 0 [x, y] = [x, y] := by
    simp [convertFrom, hconvI]
  have hcast : castOf c op [x, y] = none := by
    simp [castOf, h3, logicTypes]
  have hnum : numbersFrom c op 0 [x, y] = none := by
    obtain ⟨v, hv, -⟩ := hx
    have : op.canBe 0 "number" = false := by
      simp [Operation.canBe, h3, logicTypes, ObjType.main]
    simp [numbersFrom, hv, this]
  have hna : normaliseArrays c op 0 none none [x, y] = .ok ([x, y], none, none) := by
    obtain ⟨v, hv, -⟩ := hx
    cases hyv : y.value with
    | arr l => exact absurd hyv (hya l)
    | sc w => simp [normaliseArrays, hv, hyv]
    | exc e => simp [normaliseArrays, hv, hyv]
  have hprep : prepare c op [x, y] = .ok ([x, y], none, none) := by
    unfold prepare
    simp only [hconv, hcast, ite_self, hnum, hna]
  rw [call_eq]
  have hsp : spreads op 0 [x, y] = [] := by
    simp [spreads, noSpread op (isBool_noArr hx), noSpread op hya]
  rw [hsp, h2]
  simp only [Option.some.injEq, Nat.reduceEqDiff, false_and, if_false]
  unfold callScalar
  rw [h5]
  simp only [if_true, attempt, hval, hprep, h6]
  cases op.ref [x, y] s with
  | mk r s' => cases r <;> rfl

/-- **C29**: `false and y` is false for every `y`, a failed one included; `true or y` is true. -/
theorem C29_shortcut (hc : HasLogic c asBool) {x y : Opd S U R} {b : Bool}
    (hx : IsBool asBool x b) (hy : (∃ d, IsBool asBool y d) ∨ ∃ e, y.value = .exc e) (s : σ) :
    (b = false → call c (opAnd asBool ofBool) [x, y] s
      = (.ok ⟨.sc (ofBool false), none, none, none⟩, s)) ∧
    (b = true → call c (opOr asBool ofBool) [x, y] s
      = (.ok ⟨.sc (ofBool true), none, none, none⟩, s)) := by
  constructor
  · rintro rfl
    rw [logic_call c hc hx hy rfl rfl rfl rfl rfl rfl]
    simp [opAnd, two, boolean_of hx, finishResult]
  · rintro rfl
    rw [logic_call c hc hx hy rfl rfl rfl rfl rfl rfl]
    simp [opOr, two, boolean_of hx, finishResult]

/-- **C29**: when the second operand is needed its value is the result. -/
theorem C29_needed (hc : HasLogic c asBool) {x y : Opd S U R} {b d : Bool}
    (hx : IsBool asBool x b) (hy : IsBool asBool y d) (s : σ) :
    (call c (opAnd asBool ofBool) [x, y] s = (.ok ⟨.sc (ofBool (b && d)), none, none, none⟩, s)) ∧
    (call c (opOr asBool ofBool) [x, y] s = (.ok ⟨.sc (ofBool (b || d)), none, none, none⟩, s)) ∧
    (call c (opXor asBool ofBool) [x, y] s
      = (.ok ⟨.sc (ofBool (b ^^ d)), none, none, none⟩, s)) := by
  refine ⟨?_, ?_, ?_⟩
  · rw [logic_call c hc hx (.inl ⟨d, hy⟩) rfl rfl rfl rfl rfl rfl]
    cases b <;> simp [opAnd, two, boolean_of hx, boolean_of hy, finishResult]
  · rw [logic_call c hc hx (.inl ⟨d, hy⟩) rfl rfl rfl rfl rfl rfl]
    cases b <;> simp [opOr, two, boolean_of hx, boolean_of hy, finishResult]
  · rw [logic_call c hc hx (.inl ⟨d, hy⟩) rfl rfl rfl rfl rfl rfl]
    cases b <;> cases d <;> simp [opXor, two, boolean_of hx, boolean_of hy, finishResult]

/-- **C29**: when a failed second operand is needed, the operator fails. -/
theorem C29_needed_fails (hc : HasLogic c asBool) {x y : Opd S U R} {b : Bool} {e : Raise}
    (hx : IsBool asBool x b) (hy : y.value = .exc e) (s : σ) :
    (b = true → ∃ e', call c (opAnd asBool ofBool) [x, y] s = (.error e', s)) ∧
    (b = false → ∃ e', call c (opOr asBool ofBool) [x, y] s = (.error e', s)) ∧
    (∃ e', call c (opXor asBool ofBool) [x, y] s = (.error e', s)) := by
  have hb : Boolean.boolean asBool y = .error (.calc "Cannot cast to boolean") := by
    simp [Boolean.boolean, hy]
  refine ⟨?_, ?_, ?_⟩
  · rintro rfl
    rw [logic_call c hc hx (.inr ⟨e, hy⟩) rfl rfl rfl rfl rfl rfl]
    simp [opAnd, two, boolean_of hx, hb]
  · rintro rfl
    rw [logic_call c hc hx (.inr ⟨e, hy⟩) rfl rfl rfl rfl rfl rfl]
    simp [opOr, two, boolean_of hx, hb]
  · rw [logic_call c hc hx (.inr ⟨e, hy⟩) rfl rfl rfl rfl rfl rfl]
    simp [opXor, two, boolean_of hx, hb]

/-- **C29**: `x then y else z` is `y` if `x` is true, whatever `z` is, and `z` if `x` is false,
whatever `y` is: value, unit and reference.  A failed `y` or `z` that is chosen is the result,
with its own error. -/
theorem C29_then (hc : HasLogic c asBool) {x y z : Opd S U R} {b : Bool}
    (hx : IsBool asBool x b) (hy : ∀ l, y.value ≠ .arr l) (hz : ∀ l, z.value ≠ .arr l) (s : σ) :
    call c (opThen asBool) [x, y, z] s =
      (.ok (if b then ⟨y.value, y.unit, y.ref, none⟩ else ⟨z.value, z.unit, z.ref, none⟩), s) := by
  have hvx : anyType c x [.ty "boolean"] = .ok true := by
    simp [anyType, validateInput, hc.boolean, validateBoolean, boolean_of hx]
  have hval : validate c (opThen asBool : Operation S U R σ) [x, y, z] = .ok () := by
    simp [validate, opThen, checkValues, checkFrom, Operation.applies, hvx, checkUnits]
  have hconvI : ∀ i, convertible (opThen asBool : Operation S U R σ) i = false := by
    intro i
    simp [convertible, opThen]
  have hconv : convertFrom c (opThen asBool : Operation S U R σ) 0 [x, y, z] = [x, y, z] := by
    simp [convertFrom, hconvI]
  have hcast : castOf c (opThen asBool : Operation S U R σ) [x, y, z] = none := by
    simp [castOf, opThen]
  have hnum : numbersFrom c (opThen asBool : Operation S U R σ) 0 [x, y, z] = none := by
    obtain ⟨v, hv, -⟩ := hx
    have : (opThen asBool : Operation S U R σ).canBe 0 "number" = false := by
      simp [Operation.canBe, opThen, ObjType.main]
    simp [numbersFrom, hv, this]
  have hna : normaliseArrays c (opThen asBool : Operation S U R σ) 0 none none [x, y, z]
      = .ok ([x, y, z], none, none) := by
    obtain ⟨v, hv, -⟩ := hx
    cases hyv : y.value with
    | arr l => exact absurd hyv (hy l)
    | sc w =>
      cases hzv : z.value with
      | arr l => exact absurd hzv (hz l)
      | sc w => simp [normaliseArrays, hv, hyv, hzv]
      | exc e => simp [normaliseArrays, hv, hyv, hzv]
    | exc e =>
      cases hzv : z.value with
      | arr l => exact absurd hzv (hz l)
      | sc w => simp [normaliseArrays, hv, hyv, hzv]
      | exc e => simp [normaliseArrays, hv, hyv, hzv]
  have hprep : prepare c (opThen asBool : Operation S U R σ) [x, y, z]
      = .ok ([x, y, z], none, none) := by
    unfold prepare
    simp only [hconv, hcast, ite_self, hnum, hna]
  rw [call_eq]
  have hsp : spreads (opThen asBool : Operation S U R σ) 0 [x, y, z] = [] := by
    simp [spreads, noSpread _ (isBool_noArr hx), noSpread _ hy, noSpread _ hz]
  have hfin : ∀ w : Opd S U R, (∀ l, w.value ≠ .arr l) →
      finishResult c (opThen asBool : Operation S U R σ) none none
        ⟨w.value, some w.unit, some w.ref⟩ = ⟨w.value, w.unit, w.ref, none⟩ := by
    intro w hw
    cases hwv : w.value with
    | arr l => exact absurd hwv (hw l)
    | sc v => simp [finishResult]
    | exc e => simp [finishResult]
  rw [hsp]
  simp only [opThen, Option.some.injEq, Nat.reduceEqDiff, false_and, if_false]
  unfold callScalar
  simp only [if_true, attempt]
  simp only [opThen] at hval hprep hfin
  rw [hval]
  simp only [hprep, boolean_of hx]
  cases b with
  | true => simp [hfin y hy]
  | false => simp [hfin z hz]

end logic

/-! ### Whole expressions -/

section expression
variable {V : Type} (isErr : V → Prop) (f : String → List V → Except String V)
variable (mkErr : ExecErr → V)

/-- The operators in `ord` give back their first failed operand, as `C29_ordinary_partial`
says of ordinary operators. -/
def Strict (ord : String → Prop) : Prop := ∀ o, ord o → ∀ before x after, isErr x →
  (∀ y ∈ before, ¬ isErr y) → f o (before ++ x :: after) = .ok x

variable {ord : String → Prop}

theorem first_err {vs : List V} (h : ¬ ∀ v ∈ vs, ¬ isErr v) :
    ∃ before x after, vs = before ++ x :: after ∧ isErr x ∧ ∀ y ∈ before, ¬ isErr y := by
  induction vs with
  | nil => simp at h
  | cons v vs ih =>
    by_cases hv : isErr v
    · exact ⟨[], v, vs, rfl, hv, by simp⟩
    · have : ¬ ∀ w ∈ vs, ¬ isErr w := by
        intro h'
        apply h
        intro w hw
        rcases List.mem_cons.mp hw with rfl | hw
        · exact hv
        · exact h' w hw
      obtain ⟨before, x, after, h1, h2, h3⟩ := ih this
      refine ⟨v :: before, x, after, by simp [h1], h2, ?_⟩
      intro y hy
      rcases List.mem_cons.mp hy with rfl | hy
      · exact hv
      · exact h3 y hy

theorem settle_strict (hs : Strict isErr f ord) {o : String} {vs : List V} {pos : ℕ}
    (ho : ord o) (h : ¬ ∀ v ∈ vs, ¬ isErr v) : isErr (settle mkErr pos (f o vs)) := by
  obtain ⟨before, x, after, rfl, hx, hb⟩ := first_err isErr h
  rw [hs o ho before x after hx hb]
  exact hx

mutual
theorem tree_err (hs : Strict isErr f ord) : ∀ t : Tree V, t.OnlyOps ord → ¬ t.All (fun v => ¬ isErr v) →
    isErr (t.eval f mkErr)
  | .leaf i v, _, h => by
    simp only [Tree.All, not_not] at h
    simpa [Tree.eval] using h
  | .app i o l r, ho, h => by
    rw [Tree.OnlyOps] at ho
    rw [Tree.eval]
    apply settle_strict isErr f mkErr hs ho.1
    intro hall
    apply h
    rw [Tree.All]
    exact ⟨left_err hs l ho.2.1 (fun v hv => hall v (List.mem_append_left _ hv)),
      rights_err hs r ho.2.2 (fun v hv => hall v (List.mem_append_right _ hv))⟩
  | .juxt o l r, ho, h => by
    rw [Tree.OnlyOps] at ho
    rw [Tree.eval]
    apply settle_strict isErr f mkErr hs ho.1
    intro hall
    apply h
    rw [Tree.All]
    constructor
    · by_contra hl
      exact hall _ (by simp) (tree_err hs l ho.2.1 hl)
    · by_contra hr
      exact hall _ (by simp) (tree_err hs r ho.2.2 hr)
theorem left_err (hs : Strict isErr f ord) : ∀ l : Left V, l.OnlyOps ord → (∀ v ∈ l.evals f mkErr, ¬ isErr v) →
    l.All (fun v => ¬ isErr v)
  | .none, _, _ => by simp [Left.All]
  | .some t, ho, h => by
    rw [Left.OnlyOps] at ho
    rw [Left.All]
    by_contra hl
    exact h _ (by simp [Left.evals]) (tree_err hs t ho hl)
theorem rights_err (hs : Strict isErr f ord) : ∀ r : Rights V, r.OnlyOps ord → (∀ v ∈ r.evals f mkErr, ¬ isErr v) →
    r.All (fun v => ¬ isErr v)
  | .nil, _, _ => by simp [Rights.All]
  | .sym i s r, ho, h => by
    rw [Rights.OnlyOps] at ho
    rw [Rights.All]
    exact rights_err hs r ho (by simpa [Rights.evals] using h)
  | .arg t r, ho, h => by
    rw [Rights.OnlyOps] at ho
    rw [Rights.All]
    rw [Rights.evals] at h
    constructor
    · by_contra hl
      exact h _ (by simp) (tree_err hs t ho.1 hl)
    · exact rights_err hs r ho.2 (fun v hv => h v (List.mem_cons_of_mem _ hv))
end

/-- **C29** for whole expressions: if any operand of an expression made of ordinary operators
failed, the whole expression fails. -/
theorem C29_expression {cfg : Config V σ} {P : V → Prop} (hp : PlainTable cfg f P)
    (hc : Consumes cfg) (hs : Strict (fun v => (cfg.getErr v).isSome) f ord) (t : Tree V)
    (ho : t.OnlyOps ord)
    (hd : t.Dictated (rowOf cfg) (rtlOf cfg)) (hsh : t.Shaped (inputsOf cfg) cfg.implicitMul)
    (ha : t.All P) (hpos : t.flat.map Item.index = List.range t.flat.length)
    (herr : ¬ t.All (fun v => cfg.getErr v = none)) (s : σ) :
    ∃ v e, execute cfg (src t) s = (.ok v, s) ∧ cfg.getErr v = some e := by
  have h1 := tree_err (fun v => (cfg.getErr v).isSome) f cfg.mkErr hs t ho (by
    simpa using herr)
  obtain ⟨e, he⟩ := Option.isSome_iff_exists.mp h1
  exact ⟨_, e, C26_precedence hp hc t hd hsh ha hpos s, he⟩

end expression

/-! ## Non-vacuity -/

/-- Scalars for the examples. -/
inductive DS where
  | i (n : ℤ)
  | b (v : Bool)
  deriving DecidableEq

def DS.asBool : DS → Option Bool
  | .b v => some v
  | .i _ => none

/-- A calculator with numbers and booleans. -/
def demoCalc : Calc DS Unit Unit Unit where
  validator := fun n =>
    if n = "boolean" then some (validateBoolean DS.asBool)
    else if n = "exception" then some validateException
    else if n = "number" then some (fun x _ => match x.value with
      | .sc (.i _) => .ok true
      | _ => .ok false)
    else none
  number := fun x => match x with | .i n => some (.i n) | .b _ => none
  isNumber := fun x => match x with | .i _ => true | .b _ => false
  cast := fun _ => none
  setCast := fun _ x => x
  normalise := none
  toString := fun _ => .ok "x"

/-- Addition, as `arithmetic.py` declares it; counts its calls. -/
def demoAdd : Operation DS Unit Unit ℕ where
  name := "operator +"
  minParams := some 2
  maxParams := some 2
  values := [⟨0, none, [.ty "number"]⟩]
  units := []
  ref := fun xs s => match xs with
    | [⟨.sc (.i a), _, _, _⟩, ⟨.sc (.i b), _, _, _⟩] => (.ok { value := .sc (.i (a + b)) }, s + 1)
    | _ => (.error (.py "TypeError"), s)

def lit (n : ℤ) : Opd DS Unit Unit := ⟨.sc (.i n), none, none, none⟩
def list (xs : List (Opd DS Unit Unit)) : Opd DS Unit Unit := ⟨.arr xs, none, none, none⟩

example : HasLogic demoCalc DS.asBool := ⟨rfl, rfl⟩

/-- `[1, 2] + [10, [20, 30]]` is `[11, [22, 32]]`, with three additions. -/
example : call demoCalc demoAdd [list [lit 1, lit 2], list [lit 10, list [lit 20, lit 30]]] 0
    = (.ok (list [lit 11, list [lit 22, lit 32]]), 3) := by rfl

/-- `[1, 2] + [1, 2, 3]` raises. -/
example : call demoCalc demoAdd [list [lit 1, lit 2], list [lit 1, lit 2, lit 3]] 0
    = (.error (.calc "All array inputs must all be same length"), 0) :=
  C30_lengths demoCalc demoAdd (i := 0) (j := 1) rfl
    ⟨rfl, by simp [Declares, demoAdd, ObjType.main], by simp [list]⟩ rfl
    ⟨rfl, by simp [Declares, demoAdd, ObjType.main], by simp [list]⟩ (by simp) 0

/-- The hypotheses of `C30_elementwise` hold for `[1, 2] + 3`. -/
example : (∃ i x l, [list [lit 1, lit 2], lit 3][i]? = some x ∧ Spreads demoAdd i x l) :=
  ⟨0, _, _, rfl, rfl, by simp [Declares, demoAdd, ObjType.main], by simp [list]⟩

/-- A boolean is not allowed in an addition. -/
example : ¬ Allowed demoCalc demoAdd [lit 1, ⟨.sc (.b true), none, none, none⟩] := by
  intro h
  obtain ⟨t, ht, ha⟩ := h.types _ (List.mem_singleton.mpr rfl) 1 _ rfl ⟨by simp, by simp⟩
  simp only [List.mem_singleton] at ht
  subst ht
  obtain ⟨v, hv, h2⟩ := ha
  simp only [demoCalc, String.reduceEq, if_false, if_true, Option.some.injEq] at hv
  subst hv
  simp at h2

example : Allowed demoCalc demoAdd [lit 1, lit 2] := by
  apply validate_ok
  rfl

/-- `1 + (failed)` is that failure. -/
example : call demoCalc demoAdd [lit 1, ⟨.exc (.calc "bad"), none, none, none⟩] 0
    = (.ok ⟨.exc (.calc "bad"), none, none, none⟩, 0) :=
  C29_ordinary_partial demoCalc demoAdd (before := [lit 1]) (after := []) rfl rfl
    (by simp [lit])
    (by
      rintro ⟨i, y, l, h, hs⟩
      rcases i with _ | _ | i
      · simp only [List.cons_append, List.getElem?_cons_zero, Option.some.injEq] at h
        subst h
        exact absurd hs.1 (by simp [lit])
      · simp only [List.cons_append, List.getElem?_cons_succ, List.nil_append,
          List.getElem?_cons_zero, Option.some.injEq] at h
        subst h
        exact absurd hs.1 (by simp)
      · simp at h)
    (by simp [demoAdd]) 0

/-- `false and (failed)` is false. -/
example : call demoCalc (opAnd DS.asBool DS.b : Operation DS Unit Unit ℕ)
    [⟨.sc (.b false), none, none, none⟩, ⟨.exc (.calc "bad"), none, none, none⟩] 7
    = (.ok ⟨.sc (.b false), none, none, none⟩, 7) :=
  (C29_shortcut demoCalc ⟨rfl, rfl⟩ ⟨_, rfl, rfl⟩ (.inr ⟨_, rfl⟩) 7).1 rfl

end MC.Props
