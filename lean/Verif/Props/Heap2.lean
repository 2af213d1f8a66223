import Verif.Props.Heap

/-! # C57: which operations keep the display of variables, and which do not -/

namespace MC.Props
open MC.Heap MC.Spec MC.Arrays MC.Numerical
set_option linter.unusedSectionVars false

variable {K U R : Type} {c : HSt K U R → Calc (HS K) U R K}
  {op : Operation (HS K) U R (HSt K U R)}

/-- A number that an implementation makes. -/
def fresh (n : Number) : HS K := .new n none

/-- Operations whose implementation has no effects and returns new numbers, or something else. -/
structure Harmless (op : Operation (HS K) U R (HSt K U R)) : Prop where
  leaves : Leaves op
  returnsNew : ReturnsNew op

section keep
variable (p : ℕ) (name : String)

theorem harmless_pure {mk : (HS K → Option Number) → Operation (HS K) U R (HSt K U R)}
    {f : (HS K → Option Number) → List (Opd (HS K) U R) → Except Raise (OpResult (HS K) U R)}
    (h : ∀ num? ys s, (mk num?).ref ys s = (f num? ys, s))
    (hn : ∀ num? ys res, f num? ys = .ok res → ∀ a, res.value ≠ .sc (.obj a)) :
    Harmless (onHeap mk) where
  leaves := fun ys s => by simp only [onHeap, h]
  returnsNew := fun ys s res s' ho a => by
    simp only [onHeap, h] at ho
    exact hn _ ys res (congrArg Prod.fst ho) a

/-- `+`, `-`, `*`, `/`, `%`, ... -/
theorem arith_harmless (f : Number → Number → Except Err Number) :
    Harmless (onHeap (fun num? =>
      opArith (S := HS K) (U := U) (R := R) num? fresh name f)) := by
  refine harmless_pure (f := fun num? ys => ((opArith (S := HS K) (U := U) (R := R) num? fresh name
    f).ref ys ()).1) ?_ ?_
  · intro num? ys s
    rcases ys with _ | ⟨a, _ | ⟨b, ys⟩⟩ <;> rfl
  · intro num? ys res h a
    rcases ys with _ | ⟨x, _ | ⟨y, ys⟩⟩
    · cases h
    · cases h
    · simp only [opArith, numOp, Boolean.two, bind, Except.bind] at h
      repeat' split at h
      all_goals cases h
      all_goals intro hc; cases hc

/-- `abs`, `round`, ... -/
theorem unary_harmless (f : Number → Except Raise Number) :
    Harmless (onHeap (fun num? =>
      opUnary (S := HS K) (U := U) (R := R) num? fresh name f)) := by
  refine harmless_pure (f := fun num? ys => ((opUnary (S := HS K) (U := U) (R := R) num? fresh name
    f).ref ys ()).1) ?_ ?_
  · intro num? ys s
    rcases ys with _ | ⟨a, ys⟩ <;> rfl
  · intro num? ys res h a
    rcases ys with _ | ⟨x, ys⟩
    · cases h
    · simp only [opUnary, numOp, bind, Except.bind] at h
      repeat' split at h
      all_goals cases h
      all_goals intro hc; cases hc

/-- `<`, `==`, ... -/
theorem compare_harmless (test : Number → Number → Bool) :
    Harmless (onHeap (fun num? =>
      opCompare (S := HS K) (U := U) (R := R) num? HS.flag name test)) := by
  refine harmless_pure (f := fun num? ys => ((opCompare (S := HS K) (U := U) (R := R) num? HS.flag
    name test).ref ys ()).1) ?_ ?_
  · intro num? ys s
    rcases ys with _ | ⟨a, _ | ⟨b, ys⟩⟩ <;> rfl
  · intro num? ys res h a
    rcases ys with _ | ⟨x, _ | ⟨y, ys⟩⟩
    · cases h
    · cases h
    · simp only [opCompare, numOp, Boolean.two, bind, Except.bind] at h
      repeat' split at h
      all_goals cases h
      all_goals intro hc; cases hc

/-- `sum`. -/
theorem sum_harmless : Harmless (onHeap (fun num? =>
    opSum (S := HS K) (U := U) (R := R) p num? fresh)) := by
  refine harmless_pure (f := fun num? ys => ((opSum (S := HS K) (U := U) (R := R) p num? fresh).ref
    ys ()).1) (fun _ _ _ => rfl) ?_
  intro num? ys res h a
  simp only [opSum, numbersOp, pureRef, bind, Except.bind] at h
  repeat' split at h
  all_goals cases h
  all_goals intro hc; cases hc

/-- `mean`, `median`, `mode`. -/
theorem stat_harmless (f : List ℚ → Option ℚ) : Harmless (onHeap (fun num? =>
    statOp (S := HS K) (U := U) (R := R) p num? fresh name f)) := by
  refine harmless_pure (f := fun num? ys => ((statOp (S := HS K) (U := U) (R := R) p num? fresh name
    f).ref ys ()).1) (fun _ _ _ => rfl) ?_
  intro num? ys res h a
  simp only [statOp, numbersOp, pureRef, bind, Except.bind] at h
  repeat' split at h
  all_goals cases h
  all_goals intro hc; cases hc

/-- `sort`: its result is an array. -/
theorem sort_harmless : Harmless (onHeap (fun num? =>
    opSort (S := HS K) (U := U) (R := R) p num?)) := by
  refine harmless_pure (f := fun num? ys => ((opSort (S := HS K) (U := U) (R := R) p num?).ref
    ys ()).1) (fun _ _ _ => rfl) ?_
  intro num? ys res h a
  simp only [opSort, numbersOp, pureRef, bind, Except.bind] at h
  repeat' split at h
  all_goals cases h
  all_goals intro hc; cases hc

/-- `count`, `reverse`, `concat`. -/
theorem count_harmless : Harmless (onHeap (fun _ =>
    opCount (S := HS K) (U := U) (R := R) p fresh)) := by
  refine harmless_pure (f := fun _ ys => ((opCount (S := HS K) (U := U) (R := R) p fresh).ref
    ys ()).1) (fun _ _ _ => rfl) ?_
  intro num? ys res h a
  simp only [opCount, pureRef, bind, Except.bind] at h
  repeat' split at h
  all_goals cases h
  all_goals intro hc; cases hc

theorem reverse_harmless : Harmless (onHeap (fun _ =>
    opReverse (S := HS K) (U := U) (R := R))) := by
  refine harmless_pure (f := fun _ ys => ((opReverse (S := HS K) (U := U) (R := R)).ref
    ys ()).1) (fun _ _ _ => rfl) ?_
  intro num? ys res h a
  simp only [opReverse, pureRef, bind, Except.bind] at h
  repeat' split at h
  all_goals cases h
  all_goals intro hc; cases hc

theorem concat_harmless : Harmless (onHeap (fun _ =>
    opConcat (S := HS K) (U := U) (R := R))) := by
  refine harmless_pure (f := fun _ ys => ((opConcat (S := HS K) (U := U) (R := R)).ref
    ys ()).1) (fun _ _ _ => rfl) ?_
  intro num? ys res h a
  simp only [opConcat, pureRef, bind, Except.bind] at h
  repeat' split at h
  all_goals cases h
  all_goals intro hc; cases hc

end keep

/-- **C57** for the arithmetic operators, comparisons, functions of one number, statistics other
than `min` and `max`, `sort`, `count`, `reverse` and `concat`: the display of every variable stays,
whatever the inputs and their types. -/
theorem C57_harmless (h : Harmless op) (xs : List (Opd (HS K) U R)) (s : HSt K U R)
    (name : String) : displayOf (callH c op xs s).2 name = displayOf s name := by
  rw [callH_same h.leaves (Or.inl h.returnsNew)]

theorem callScalarH_value (h : Harmless op) (ha : op.after = fun _ _ s => s)
    (xs : List (Opd (HS K) U R)) (s : HSt K U R) :
    callScalarH c op xs s = callScalar (c s) op xs s := by
  have h1 : attemptH c op xs s = attempt (c s) op xs s := by
    unfold attemptH attempt
    cases hv : validate (c s) op xs with
    | error e => rfl
    | ok u =>
      simp only
      cases hp : prepare (c s) op xs with
      | error e => rfl
      | ok q =>
        obtain ⟨ys, ru, k⟩ := q
        simp only
        have h2 := h.leaves ys s
        cases ho : op.ref ys s with
        | mk res s' =>
          rw [ho] at h2
          simp only at h2
          subst h2
          cases res with
          | error e => rfl
          | ok res =>
            simp only [ha, Prod.mk.injEq, true_and]
            split
            · rename_i x k hx
              split
              · cases x with
                | obj a => exact (h.returnsNew _ _ _ _ ho a hx).elim
                | new n k' => rfl
                | flag b => rfl
              · rfl
            · rfl
  have h2 : (attemptH c op xs s).2 = s := by
    have h3 := callScalarH_keeps (c := c) (rel := fun a b => b = a) (op := op) (fun _ => rfl) h.leaves
      (fun s xs ys ru k res x _ ho hx _ => by
        cases x with
        | obj a => exact (h.returnsNew _ _ _ _ ho a hx).elim
        | new n k' => rfl
        | flag b => rfl) xs s
    unfold attemptH
    cases hv : validate (c s) op xs with
    | error e => rfl
    | ok u =>
      simp only
      cases hp : prepare (c s) op xs with
      | error e => rfl
      | ok q =>
        obtain ⟨ys, ru, k⟩ := q
        simp only
        have h2 := h.leaves ys s
        cases ho : op.ref ys s with
        | mk res s' =>
          rw [ho] at h2
          simp only at h2
          subst h2
          cases res with
          | error e => rfl
          | ok res =>
            simp only
            split
            · rename_i x k hx
              split
              · cases x with
                | obj a => exact (h.returnsNew _ _ _ _ ho a hx).elim
                | new n k' => rfl
                | flag b => rfl
              · rfl
            · rfl
  unfold callScalarH callScalar
  rw [← h1]
  cases (if op.canBeExc then none else xs.find? (fun x => x.value.err?.isSome)) with
  | some x => rfl
  | none =>
    cases hb : attemptH c op xs s with
    | mk res s' =>
      rw [hb] at h2
      simp only at h2
      subst h2
      cases res <;> rfl

theorem eachRow_value {f g : List (Opd (HS K) U R) → Act (HSt K U R) (Opd (HS K) U R)}
    {s : HSt K U R} (hs : ∀ xs, (f xs s).2 = s) (h : ∀ xs, f xs s = g xs s)
    (mk : ℕ → List (Opd (HS K) U R)) : ∀ ks, eachRow f mk ks s = eachRow g mk ks s
  | [] => rfl
  | k :: ks => by
    have ih := eachRow_value hs h mk ks
    have h2 := hs (mk k)
    rw [eachRow, eachRow, ← h (mk k)]
    cases ha : f (mk k) s with
    | mk res s' =>
      rw [ha] at h2
      simp only at h2
      subst h2
      cases res with
      | ok r => simp only [ih]
      | error e => cases e <;> simp only [ih]

theorem eachCollected_value {f g : List (Opd (HS K) U R) → Act (HSt K U R) (Opd (HS K) U R)}
    {s : HSt K U R} (hs : ∀ xs, (f xs s).2 = s) (h : ∀ xs, f xs s = g xs s)
    (mk : ℕ → List (Opd (HS K) U R)) : ∀ ks, eachCollected f mk ks s = eachCollected g mk ks s
  | [] => rfl
  | k :: ks => by
    have ih := eachCollected_value hs h mk ks
    have h2 := hs [Opd.pure (.arr (mk k))]
    rw [eachCollected, eachCollected, ← h]
    cases ha : f [Opd.pure (.arr (mk k))] s with
    | mk res s' =>
      rw [ha] at h2
      simp only at h2
      subst h2
      cases res with
      | ok r => simp only [ih]
      | error e => rfl

/-- For these operations numbers may be thought of as values: calling with objects gives what
`MC.call`, the model used for the other properties, gives. -/
theorem callH_value (h : Harmless op) (ha : op.after = fun _ _ s => s)
    (xs : List (Opd (HS K) U R)) (s : HSt K U R) : callH c op xs s = call (c s) op xs s := by
  have hscal : ∀ xs, callScalarH c op xs s = callScalar (c s) op xs s :=
    fun xs => callScalarH_value h ha xs s
  have hkeep : ∀ xs s, (callScalarH c op xs s).2 = s := fun xs s =>
    callScalarH_keeps (c := c) (rel := fun a b => b = a) (op := op) (fun _ => rfl) h.leaves
      (fun s xs ys ru k res x _ ho hx _ => by
        cases x with
        | obj a => exact (h.returnsNew _ _ _ _ ho a hx).elim
        | new n k' => rfl
        | flag b => rfl) xs s
  have last : ∀ (f : ℕ) (xs : List (Opd (HS K) U R)), spreads op 0 xs = [] →
      callFH c op f xs s = callF (c s) op f xs s ∧ (callFH c op f xs s).2 = s := by
    intro f xs hs
    rw [callFH, callF, hs]
    simp only
    split
    · split
      · cases hf : List.filterMap (fun x => x.value.arr?) xs with
        | nil => exact ⟨hscal _, hkeep _ _⟩
        | cons l ls =>
          simp only
          have h1 := eachCollected_value (fun xs => hkeep xs s) hscal (fun k => collect k xs)
            (List.range l.length)
          have h2 := eachCollected_keeps (rel := fun a b => b = a) (fun _ => rfl)
            (fun h1 h2 => h2.trans h1) hkeep (fun k => collect k xs) (List.range l.length) s
          rw [← h1]
          cases hb : eachCollected (callScalarH c op) (fun k => collect k xs)
              (List.range l.length) s with
          | mk res s' => rw [hb] at h2; cases res <;> exact ⟨rfl, h2⟩
      · exact ⟨rfl, rfl⟩
    · exact ⟨hscal _, hkeep _ _⟩
  have all : ∀ (f : ℕ) (xs : List (Opd (HS K) U R)),
      callFH c op f xs s = callF (c s) op f xs s ∧ (callFH c op f xs s).2 = s := by
    intro f
    induction f with
    | zero =>
      intro xs
      rw [callFH, callF]
      cases hs : spreads op 0 xs with
      | nil => have := last 0 xs hs; rw [callFH, callF, hs] at this; exact this
      | cons l ls => dsimp only; split <;> exact ⟨rfl, rfl⟩
    | succ f ih =>
      intro xs
      rw [callFH, callF]
      cases hs : spreads op 0 xs with
      | nil => have := last (f + 1) xs hs; rw [callFH, callF, hs] at this; exact this
      | cons l ls =>
        simp only
        split
        · have h1 := eachRow_value (fun xs => (ih xs).2) (fun xs => (ih xs).1)
            (fun k => row op k 0 xs) (List.range l.length)
          have hk : ∀ ks, (eachRow (callFH c op f) (fun k => row op k 0 xs) ks s).2 = s := by
            intro ks
            induction ks with
            | nil => rfl
            | cons k ks ihk =>
              rw [eachRow]
              have h3 := (ih (row op k 0 xs)).2
              cases hb : callFH c op f (row op k 0 xs) s with
              | mk res s' =>
                rw [hb] at h3
                simp only at h3
                subst h3
                cases hd : eachRow (callFH c op f) (fun k => row op k 0 xs) ks s' with
                | mk r2 s2 =>
                  rw [hd] at ihk
                  cases res with
                  | ok r => simp only [hd]; cases r2 <;> exact ihk
                  | error e =>
                    cases e with
                    | py m => rfl
                    | exec x => simp only [hd]; cases r2 <;> exact ihk
                    | «calc» a b => simp only [hd]; cases r2 <;> exact ihk
          have h2 := hk (List.range l.length)
          rw [← h1]
          cases hb : eachRow (callFH c op f) (fun k => row op k 0 xs) (List.range l.length) s with
          | mk res s' => rw [hb] at h2; cases res <;> exact ⟨rfl, h2⟩
        · exact ⟨rfl, rfl⟩
  exact (all _ xs).1

/-! ## `element`, `min`, `max` -/

theorem normaliseArrays_type (hsub : ∀ i, op.mustBe i "array" (some "number") = false)
    (cc : Calc (HS K) U R K) :
    ∀ (xs : List (Opd (HS K) U R)) (i : ℕ) (ru : Option U) (k : Option K) {ys ru' k'},
    normaliseArrays cc op i ru k xs = .ok (ys, ru', k') → k' = k
  | [], i, ru, k, ys, ru', k', h => by
    rw [normaliseArrays] at h
    cases h; rfl
  | x :: xs, i, ru, k, ys, ru', k', h => by
    have ih := @normaliseArrays_type hsub cc xs (i + 1) ru k
    rw [normaliseArrays] at h
    split at h
    · rw [hsub i] at h
      simp only [Bool.false_eq_true, if_false] at h
      split at h
      · cases h
      · rename_i h'
        cases h
        exact ih h'
    · split at h
      · cases h
      · rename_i h'
        cases h
        exact ih h'

theorem element_must (p : ℕ) (i : ℕ) : (onHeap (fun num? => opElement (S := HS K) (U := U) (R := R)
    p num?)).mustBe i "array" (some "number") = false := by
  simp only [onHeap, opElement, Operation.mustBe, Operation.applies, Operation.onlyType]
  rcases i with _ | _ | i <;> simp [ObjType.main, ObjType.subType]

theorem element_leaves (p : ℕ) :
    Leaves (onHeap (fun num? => opElement (S := HS K) (U := U) (R := R) p num?)) :=
  fun _ _ => rfl

theorem callH_scalar {xs : List (Opd (HS K) U R)} (hs : spreads op 0 xs = [])
    (h : ¬ (op.maxParams = some 1 ∧ op.mustBe 0 "array" none = true ∧ 1 < xs.length))
    (s : HSt K U R) : callH c op xs s = callScalarH c op xs s := by
  rw [callH, callFH, hs]
  exact if_neg h

/-- What one call on scalars does to the state. -/
theorem callScalarH_state (hl : Leaves op) (xs : List (Opd (HS K) U R)) (s : HSt K U R) :
    (callScalarH c op xs s).2 = s ∨ ∃ ys ru k res x, prepare (c s) op xs = .ok (ys, ru, some k) ∧
      op.ref ys s = (.ok res, s) ∧ res.value = .sc x ∧
      (callScalarH c op xs s).2 = assignCast x k s := by
  have h1 : (attemptH c op xs s).2 = s ∨ ∃ ys ru k res x,
      prepare (c s) op xs = .ok (ys, ru, some k) ∧ op.ref ys s = (.ok res, s) ∧
      res.value = .sc x ∧ (attemptH c op xs s).2 = assignCast x k s := by
    unfold attemptH
    cases hv : validate (c s) op xs with
    | error e => exact Or.inl rfl
    | ok u =>
      simp only
      cases hp : prepare (c s) op xs with
      | error e => exact Or.inl rfl
      | ok q =>
        obtain ⟨ys, ru, k⟩ := q
        simp only
        have h2 := hl ys s
        cases ho : op.ref ys s with
        | mk res s' =>
          rw [ho] at h2
          simp only at h2
          subst h2
          cases res with
          | error e => exact Or.inl rfl
          | ok res =>
            simp only
            split
            · rename_i x k hx
              split
              · exact Or.inr ⟨ys, ru, k, res, x, rfl, ho, hx, rfl⟩
              · exact Or.inl rfl
            · exact Or.inl rfl
  unfold callScalarH
  split
  · exact Or.inl rfl
  · cases ha : attemptH c op xs s with
    | mk res s' => rw [ha] at h1; cases res <;> exact h1

/-- **C57** for `element(x, i)` (part): if the index has no display type (as a plain number such as
`2` has none), nothing changes. -/
theorem C57_element_partial (p : ℕ) {x y : Opd (HS K) U R} {l : List (Opd (HS K) U R)} {v : HS K}
    (hx : x.value = .arr l) (hy : y.value = .sc v) (s : HSt K U R)
    (hv : ∀ n, (c s).number v = some n → (c s).cast n = none) (name : String) :
    displayOf (callH c (onHeap (fun num? => opElement p num?)) [x, y] s).2 name
      = displayOf s name := by
  have hcall : callH c (onHeap (fun num? => opElement p num?)) [x, y] s
      = callScalarH c (onHeap (fun num? => opElement p num?)) [x, y] s := by
    have hs : spreads (onHeap (fun num? => opElement (S := HS K) (U := U) (R := R) p num?)) 0 [x, y]
        = [] := by
      simp [spreads, spread, hx, hy, onHeap, opElement, Operation.canBe, Operation.applies,
        ObjType.main]
    exact callH_scalar hs (fun h => by cases h.1) s
  rw [hcall]
  rcases callScalarH_state (c := c) (element_leaves p) [x, y] s with h | ⟨ys, ru, k, _, _, h, _⟩
  · rw [h]
  · exfalso
    have hcast : castOf (c s) (onHeap (fun num? => opElement (S := HS K) (U := U) (R := R) p num?))
        [x, y] = none := by
      have : (asNumber (c s) y.value).bind (c s).cast = none := by
        rw [hy]
        simp only [asNumber]
        cases hn : (c s).number v with
        | none => rfl
        | some n => exact hv n hn
      simp [castOf, castFrom, onHeap, opElement, Operation.applies, this]
    have hnum : numbersFrom (c s) (onHeap (fun num? => opElement (S := HS K) (U := U) (R := R) p num?))
        0 (convertFrom (c s) (onHeap (fun num? => opElement p num?)) 0 [x, y]) = none := by
      have : (if convertible (onHeap (fun num? => opElement (S := HS K) (U := U) (R := R) p num?)) 0
          then asNumber (c s) x.value else none) = none := by
        rw [hx]; split <;> rfl
      rw [convertFrom, this]
      simp only [numbersFrom, hx]
    unfold prepare at h
    rw [hcast] at h
    have hci : (onHeap (fun num? => opElement (S := HS K) (U := U) (R := R) p num?)).convertIn
      = true := rfl
    rw [hci] at h
    simp only [if_true, hnum] at h
    have := normaliseArrays_type (element_must p) (c s) _ _ _ _ h
    cases this

/-- The calculator reads the type of a number from its object, and taking an operand as a number
keeps its type. -/
structure ReadsTypes (c : HSt K U R → Calc (HS K) U R K) : Prop where
  cast : ∀ s x, (c s).cast x = castIn s.heap x
  number : ∀ s x n, (c s).number x = some n → castIn s.heap n = castIn s.heap x

theorem elementNumbers_type (cc : Calc (HS K) U R K) (heap : List (Cell K))
    (hn : ∀ x n, cc.number x = some n → castIn heap n = castIn heap x) {k0 : Option K} :
    ∀ (l : List (Opd (HS K) U R)) {nums}, elementNumbers cc l = .ok nums →
      (∀ e ∈ l, ∀ v, e.value = .sc v → castIn heap v = k0) → ∀ m ∈ nums, castIn heap m.1 = k0
  | [], nums, h, _ => by
    rw [elementNumbers] at h
    cases h
    intro m hm; cases hm
  | x :: xs, nums, h, hl => by
    rw [elementNumbers] at h
    cases ha : asNumber cc x.value with
    | none => rw [ha] at h; cases h
    | some n =>
      rw [ha] at h
      simp only at h
      cases hr : elementNumbers cc xs with
      | error e => rw [hr] at h; cases h
      | ok rest =>
        rw [hr] at h
        cases h
        intro m hm
        rcases List.mem_cons.mp hm with rfl | hm
        · cases hv : x.value with
          | sc v =>
            rw [hv] at ha
            rw [hn v n ha]
            exact hl x (by simp) v hv
          | arr _ => rw [hv] at ha; cases ha
          | exc _ => rw [hv] at ha; cases ha
        · exact elementNumbers_type cc heap hn xs hr (fun e he => hl e (by simp [he])) m hm

theorem setElements_orig : ∀ (els : List (Opd (HS K) U R)) (nums : List (HS K × Option U))
    (e : Opd (HS K) U R), e ∈ setElements els nums → ∀ v u, e.orig = some (v, u) →
    (∃ e' ∈ els, e'.value = v) ∨ ∃ e' ∈ els, e' = e
  | [], nums, e, h, v, u, _ => by simp [setElements] at h
  | x :: xs, [], e, h, v, u, _ => Or.inr ⟨e, by simpa [setElements] using h, rfl⟩
  | x :: xs, n :: ns, e, h, v, u, ho => by
    rw [setElements] at h
    rcases List.mem_cons.mp h with rfl | h
    · simp only [Option.some.injEq, Prod.mk.injEq] at ho
      exact Or.inl ⟨x, by simp, ho.1⟩
    · rcases setElements_orig xs ns e h v u ho with ⟨e', h1, h2⟩ | ⟨e', h1, h2⟩
      · exact Or.inl ⟨e', by simp [h1], h2⟩
      · exact Or.inr ⟨e', by simp [h1], h2⟩

theorem extreme_mem {α : Type} (b : α → α → Bool) : ∀ (l : List α) {x : α},
    extreme b l = some x → x ∈ l := by
  have key : ∀ (l : List α) (y : α),
      l.foldl (fun best z => if b z best then z else best) y ∈ y :: l := by
    intro l
    induction l with
    | nil => intro y; simp
    | cons z l ih =>
      intro y
      rw [List.foldl_cons]
      have := ih (if b z y then z else y)
      rcases List.mem_cons.mp this with h | h
      · rw [h]
        split <;> simp
      · simp [h]
  intro l x h
  cases l with
  | nil => cases h
  | cons y l =>
    simp only [extreme, Option.some.injEq] at h
    rw [← h]; exact key l y

theorem keyed_mem (num? : HS K → Option Number) : ∀ (l : List (Opd (HS K) U R)) {ks},
    keyed num? l = .ok ks → ∀ q ∈ ks, q.1 ∈ l
  | [], ks, h => by
    rw [keyed] at h; cases h
    intro q hq; cases hq
  | x :: xs, ks, h => by
    rw [keyed] at h
    simp only [bind, Except.bind] at h
    split at h
    · cases h
    · split at h
      · cases h
      · rename_i ks' h'
        cases h
        intro q hq
        rcases List.mem_cons.mp hq with rfl | hq
        · simp
        · simp [keyed_mem num? xs h' q hq]

theorem assignCast_same {x : HS K} {k : K} {s : HSt K U R} (h : castIn s.heap x = some k) :
    assignCast x k s = s := by
  cases x with
  | new n k' => rfl
  | flag b => rfl
  | obj a =>
    simp only [assignCast]
    have : s.heap.modify a (fun c => { c with cast := some k }) = s.heap := by
      apply List.ext_getElem?
      intro i
      rw [List.getElem?_modify]
      by_cases hi : a = i
      · subst hi
        simp only [castIn] at h
        cases hc : s.heap[a]? with
        | none => simp
        | some cell =>
          rw [hc] at h
          simp only [Option.bind_some] at h
          simp [← h]
      · simp [hi]
    rw [this]

/-- `min` or `max`. -/
theorem extreme_partial (hc : ReadsTypes c) (name : String)
    (beats : Opd (HS K) U R × Number → Opd (HS K) U R × Number → Bool)
    {x : Opd (HS K) U R} {l : List (Opd (HS K) U R)} (hx : x.value = .arr l)
    (hfirst : ∀ e ∈ l, e.orig = none) (s : HSt K U R) {k0 : Option K}
    (hk : ∀ e ∈ l, ∀ v, e.value = .sc v → castIn s.heap v = k0) :
    (callH c (onHeap (fun num? => numbersOp num? name
      (fun ks => elementResult (extreme beats ks)))) [x] s).2 = s := by
  have hcall : ∀ op' : Operation (HS K) U R (HSt K U R),
      op' = onHeap (fun num? => numbersOp num? name (fun ks => elementResult (extreme beats ks))) →
      callH c op' [x] s = callScalarH c op' [x] s := by
    intro op' he
    have hs : spreads op' 0 [x] = [] := by
      subst he
      simp [spreads, spread, hx, onHeap, numbersOp, Operation.canBe, Operation.applies,
        ObjType.main]
    exact callH_scalar hs (fun h => by simp at h) s
  rw [hcall _ rfl]
  rcases callScalarH_state (c := c) (op := onHeap (fun num? => numbersOp num? name
    (fun ks => elementResult (extreme beats ks)))) (fun _ _ => rfl) [x] s
    with h | ⟨ys, ru, k, res, v, hp, ho, hv, h⟩
  · exact h
  · rw [h]
    apply assignCast_same
    -- the type
    have hcast : castOf (c s) (onHeap (fun num? => numbersOp num? name
        (fun ks => elementResult (extreme beats ks)))) [x] = none := by
      simp [castOf, onHeap, numbersOp]
    have hconv : convertFrom (c s) (onHeap (fun num? => numbersOp num? name
        (fun ks => elementResult (extreme beats ks)))) 0 [x] = [x] := by
      simp [convertFrom, convertible, onHeap, numbersOp]
    have hmust : (onHeap (fun num? => numbersOp (S := HS K) (U := U) (R := R) num? name
        (fun ks => elementResult (extreme beats ks)))).mustBe 0 "array" (some "number") = true := by
      rfl
    have hci : (onHeap (fun num? => numbersOp (S := HS K) (U := U) (R := R) num? name
        (fun ks => elementResult (extreme beats ks)))).convertIn = true := rfl
    unfold prepare at hp
    rw [hci, hcast] at hp
    simp only [if_true, hconv, numbersFrom, hx] at hp
    rw [normaliseArrays] at hp
    simp only [hx, hmust, if_true] at hp
    cases hn : elementNumbers (c s) l with
    | error e => rw [hn] at hp; cases hp
    | ok nums =>
      rw [hn] at hp
      simp only [normaliseArrays] at hp
      have htypes := elementNumbers_type (c s) s.heap (hc.number s) l hn hk
      split at hp
      · cases hp
      · rename_i nums' ru' _
        simp only [Except.ok.injEq, Prod.mk.injEq] at hp
        obtain ⟨rfl, _, hfind⟩ := hp
        obtain ⟨m, hm1, hm2⟩ := List.exists_of_findSome?_eq_some hfind
        rw [hc.cast, htypes m hm1] at hm2
        rw [← hm2]
        -- the object
        have ho := congrArg Prod.fst ho
        simp only [onHeap, numbersOp, pureRef, arrayAt, List.getElem?_cons_zero, bind,
          Except.bind] at ho
        split at ho
        · cases ho
        · rename_i ks hks
          cases he : extreme beats ks with
          | none => rw [he] at ho; cases ho
          | some q =>
            rw [he] at ho
            obtain ⟨e, n⟩ := q
            have hmem := keyed_mem _ _ hks _ (extreme_mem _ _ he)
            simp only [elementResult] at ho
            cases hor : e.orig with
            | none => rw [hor] at ho; cases ho
            | some w =>
              rw [hor] at ho
              obtain ⟨w, u⟩ := w
              simp only [Except.ok.injEq] at ho
              subst ho
              simp only at hv
              subst hv
              rcases setElements_orig _ _ _ hmem _ _ hor with ⟨e', h1, h2⟩ | ⟨e', h1, h2⟩
              · exact hk e' h1 _ h2
              · subst h2
                rw [hfirst _ h1] at hor
                cases hor

/-- **C57** for `min(x)` (part): if all the numbers of the array have the same display type (or
none), nothing changes. -/
theorem C57_min_partial (hc : ReadsTypes c) (p : ℕ) {x : Opd (HS K) U R}
    {l : List (Opd (HS K) U R)} (hx : x.value = .arr l) (hfirst : ∀ e ∈ l, e.orig = none)
    (s : HSt K U R) {k0 : Option K} (hk : ∀ e ∈ l, ∀ v, e.value = .sc v → castIn s.heap v = k0)
    (name : String) :
    displayOf (callH c (onHeap (fun num? => opMin p num?)) [x] s).2 name = displayOf s name := by
  have h := extreme_partial hc "min" (fun a b => a.2.lt p b.2) hx hfirst s hk
  rw [show (callH c (onHeap (fun num? => opMin p num?)) [x] s).2 = s from h]

/-- **C57** for `max(x)` (part). -/
theorem C57_max_partial (hc : ReadsTypes c) (p : ℕ) {x : Opd (HS K) U R}
    {l : List (Opd (HS K) U R)} (hx : x.value = .arr l) (hfirst : ∀ e ∈ l, e.orig = none)
    (s : HSt K U R) {k0 : Option K} (hk : ∀ e ∈ l, ∀ v, e.value = .sc v → castIn s.heap v = k0)
    (name : String) :
    displayOf (callH c (onHeap (fun num? => opMax p num?)) [x] s).2 name = displayOf s name := by
  have h := extreme_partial hc "max" (fun a b => a.2.gt p b.2) hx hfirst s hk
  rw [show (callH c (onHeap (fun num? => opMax p num?)) [x] s).2 = s from h]

/-! ## A calculator -/

/-- The numbers with their objects; `true` and `false` count as `1` and `0`
(`booleans.py:213-219`). -/
def heapNumber : HS ℕ → Option (HS ℕ)
  | .flag b => some (.new ⟨if b then 1 else 0, 1⟩ none)
  | x => some x

/-- A calculator without units; the types of numbers are their bases. -/
def heapCalc (s : HSt ℕ Unit Unit) : Calc (HS ℕ) Unit Unit ℕ where
  validator := fun t =>
    if t = "number" then some (fun x _ => .ok (match x.value with | .sc _ => true | _ => false))
    else if t = "array" then some (fun x _ => .ok (match x.value with | .arr _ => true | _ => false))
    else none
  number := heapNumber
  isNumber := fun x => match x with | .flag _ => false | _ => true
  cast := castIn s.heap
  setCast := fun k x => match x with | .new n _ => .new n (some k) | y => y
  normalise := none
  toString := fun _ => .ok "x"

theorem heapCalc_reads : ReadsTypes heapCalc where
  cast := fun _ _ => rfl
  number := by
    intro s x n h
    cases x with
    | flag b => cases h; rfl
    | obj a => cases h; rfl
    | new m k => cases h; rfl

/-- The array `[5, 0xA]`, as a variable holds it. -/
def fiveTen : Val (HS ℕ) Unit Unit :=
  .arr [⟨.sc (.obj 0), none, none, none⟩, ⟨.sc (.obj 1), none, none, none⟩]

/-- After `x = [5, 0xA]`. -/
def stFive : HSt ℕ Unit Unit where
  heap := [⟨⟨5, 1⟩, none⟩, ⟨⟨10, 1⟩, some 16⟩]
  vars := fun n => if n = "x" then some (fiveTen, none) else none

/-- What is displayed for `x`: `5`, then `10` in base 16. -/
example : displayOf stFive "x" = some (.node [(.leaf ((some ⟨5, 1⟩, none), none), none),
    (.leaf ((some ⟨10, 1⟩, none), some 16), none)], none) := rfl

theorem min_heap : (callH heapCalc (onHeap (fun num? => opMin 30 num?))
    [⟨fiveTen, none, none, none⟩] stFive).2.heap = [⟨⟨5, 1⟩, some 16⟩, ⟨⟨10, 1⟩, some 16⟩] := by
  decide +kernel

/-- **C57 is violated by `min`**: after `x = [5, 0xA]`, evaluating `min(x)` makes the first number of
`x` display as `0x5`. -/
theorem C57_min_violation : displayOf (callH heapCalc (onHeap (fun num? => opMin 30 num?))
    [⟨fiveTen, none, none, none⟩] stFive).2 "x" ≠ displayOf stFive "x" := by
  have hvars : (callH heapCalc (onHeap (fun num? => opMin 30 num?))
      [⟨fiveTen, none, none, none⟩] stFive).2.vars = stFive.vars :=
    (callH_keeps sameValues_refl sameValues_trans (callScalarH_keeps sameValues_refl
      (op := onHeap (fun num? => opMin 30 num?)) (fun _ _ => rfl)
      (fun s _ _ _ k _ x _ _ _ _ => assignCast_values x k s)) _ _).1
  intro h
  simp only [displayOf, hvars, min_heap] at h
  simp [stFive, fiveTen, tree, trees, treeOf, castIn] at h

theorem element_heap : (callH heapCalc (onHeap (fun num? => opElement 30 num?))
    [⟨fiveTen, none, none, none⟩, ⟨.sc (.new ⟨2, 1⟩ (some 2)), none, none, none⟩] stFive).2.heap
      = [⟨⟨5, 1⟩, none⟩, ⟨⟨10, 1⟩, some 2⟩] := by
  decide +kernel

/-- **C57 is violated by `element`**: after `x = [5, 0xA]`, evaluating `element(x, 0b10)` makes the
second number of `x` display in base 2. -/
theorem C57_element_violation : displayOf (callH heapCalc (onHeap (fun num? => opElement 30 num?))
    [⟨fiveTen, none, none, none⟩, ⟨.sc (.new ⟨2, 1⟩ (some 2)), none, none, none⟩] stFive).2 "x"
      ≠ displayOf stFive "x" := by
  have hvars : (callH heapCalc (onHeap (fun num? => opElement 30 num?))
      [⟨fiveTen, none, none, none⟩, ⟨.sc (.new ⟨2, 1⟩ (some 2)), none, none, none⟩] stFive).2.vars
      = stFive.vars :=
    (callH_keeps sameValues_refl sameValues_trans (callScalarH_keeps sameValues_refl
      (op := onHeap (fun num? => opElement 30 num?)) (fun _ _ => rfl)
      (fun s _ _ _ k _ x _ _ _ _ => assignCast_values x k s)) _ _).1
  intro h
  simp only [displayOf, hvars, element_heap] at h
  simp [stFive, fiveTen, tree, trees, treeOf, castIn] at h

/-- `element(x, 2)` and `min([0xA])` change nothing. -/
example : displayOf (callH heapCalc (onHeap (fun num? => opElement 30 num?))
    [⟨fiveTen, none, none, none⟩, ⟨.sc (.new ⟨2, 1⟩ none), none, none, none⟩] stFive).2 "x"
      = displayOf stFive "x" :=
  C57_element_partial 30 rfl rfl stFive (fun n h => by cases h; rfl) "x"

example : displayOf (callH heapCalc (onHeap (fun num? => opMin 30 num?))
    [⟨.arr [⟨.sc (.obj 1), none, none, none⟩], none, none, none⟩] stFive).2 "x"
      = displayOf stFive "x" :=
  C57_min_partial heapCalc_reads 30 rfl (by simp) stFive (k0 := some 16)
    (by intro e he v hv; simp at he; subst he; cases hv; rfl) "x"

/-- Operators for `C57_values` and `C57_display_partial`: the shipped table with an addition. -/
example (xs : List (Opd (HS ℕ) Unit Unit)) :
    displayOf (callH heapCalc (onHeap (fun num? => opArith num? fresh "operator +" (Number.add 30)))
      xs stFive).2 "x" = displayOf stFive "x" :=
  C57_harmless (arith_harmless _ _) xs stFive "x"

end MC.Props
