import Verif.Spec.Operation
import Mathlib.Tactic.Common

/-! # Lemmas about calling an operation -/

namespace MC

open Spec

variable {S U R K σ : Type} (c : Calc S U R K) (op : Operation S U R σ)

/-! ## Types -/

theorem applies_iff (r : Restriction) (i : ℕ) :
    Operation.applies r i = true ↔ Covers r i := by
  unfold Operation.applies Covers
  cases h : r.last <;> simp

theorem canBe_iff (i : ℕ) (t : String) : op.canBe i t = true ↔ Declares op i t := by
  unfold Operation.canBe Declares
  simp only [List.any_eq_true, Bool.and_eq_true, applies_iff, List.contains_iff_mem, List.mem_map]

theorem spread_iff (i : ℕ) (x : Opd S U R) (l : List (Opd S U R)) :
    spread op i x = some l ↔ Spreads op i x l := by
  unfold spread Spreads
  cases hv : x.value with
  | sc v => simp
  | exc e => simp
  | arr xs =>
    simp only [Val.arr.injEq]
    rw [← canBe_iff, ← canBe_iff]
    cases op.canBe i "array" <;> cases hr : x.ref <;> cases op.canBe i "variable" <;> simp

theorem spread_none_iff (i : ℕ) (x : Opd S U R) :
    spread op i x = none ↔ ¬ ∃ l, Spreads op i x l := by
  cases h : spread op i x with
  | none =>
    simp only [true_iff]
    rintro ⟨l, hl⟩
    rw [← spread_iff, h] at hl
    exact absurd hl (by simp)
  | some l => simpa using ⟨l, (spread_iff op i x l).mp h⟩

/-! ## Arrays -/

theorem mem_spreads (xs : List (Opd S U R)) : ∀ (i : ℕ) (l : List (Opd S U R)),
    l ∈ spreads op i xs ↔ ∃ j x, xs[j]? = some x ∧ spread op (i + j) x = some l := by
  induction xs with
  | nil => intro i l; simp [spreads]
  | cons x xs ih =>
    intro i l
    have key : (∃ j y, (x :: xs)[j]? = some y ∧ spread op (i + j) y = some l) ↔
        spread op i x = some l ∨
          ∃ j y, xs[j]? = some y ∧ spread op (i + 1 + j) y = some l := by
      constructor
      · rintro ⟨j, y, hj, hs⟩
        cases j with
        | zero =>
          simp only [List.getElem?_cons_zero, Option.some.injEq] at hj
          subst hj
          exact Or.inl hs
        | succ j =>
          simp only [List.getElem?_cons_succ] at hj
          exact Or.inr ⟨j, y, hj, by rw [← hs]; congr 1; omega⟩
      · rintro (h | ⟨j, y, hj, hs⟩)
        · exact ⟨0, x, rfl, h⟩
        · exact ⟨j + 1, y, by simpa using hj, by rw [← hs]; congr 1; omega⟩
    rw [key, ← ih (i + 1) l, spreads]
    cases h : spread op i x with
    | none => simp
    | some l' => simp [eq_comm]

theorem row_length (k : ℕ) (xs : List (Opd S U R)) : ∀ i, (row op k i xs).length = xs.length := by
  induction xs with
  | nil => intro i; rfl
  | cons x xs ih => intro i; simp [row, ih]

theorem row_get (k : ℕ) (xs : List (Opd S U R)) : ∀ i j x, xs[j]? = some x →
    (row op k i xs)[j]? = some (match spread op (i + j) x with
      | some l => (l[k]?).getD x
      | none => x) := by
  induction xs with
  | nil => intro i j x h; simp at h
  | cons y ys ih =>
    intro i j x h
    cases j with
    | zero =>
      simp only [List.getElem?_cons_zero, Option.some.injEq] at h
      subst h
      simp only [row, List.getElem?_cons_zero, Nat.add_zero]
      rfl
    | succ j =>
      simp only [List.getElem?_cons_succ] at h
      rw [row, List.getElem?_cons_succ, ih (i + 1) j x h]
      rw [show i + 1 + j = i + (j + 1) by omega]

/-- The model's row is the specification's row. -/
theorem isRow_row {xs : List (Opd S U R)} {k : ℕ} (h : ∀ l ∈ spreads op 0 xs, k < l.length) :
    IsRow op xs k (row op k 0 xs) := by
  refine ⟨row_length op k xs 0, fun i x hx => ⟨fun l hl => ?_, fun hn => ?_⟩⟩
  · have hs := (spread_iff op i x l).mpr hl
    rw [row_get op k xs 0 i x hx, Nat.zero_add, hs]
    have hk : k < l.length := h l ((mem_spreads op xs 0 l).mpr ⟨i, x, hx, by simpa using hs⟩)
    simp [List.getElem?_eq_getElem hk]
  · rw [row_get op k xs 0 i x hx, Nat.zero_add, (spread_none_iff op i x).mpr hn]

/-- There is only one row. -/
theorem isRow_unique {xs ys zs : List (Opd S U R)} {k : ℕ} (h1 : IsRow op xs k ys)
    (h2 : IsRow op xs k zs) : ys = zs := by
  apply List.ext_getElem?
  intro i
  cases hx : xs[i]? with
  | none =>
    rw [List.getElem?_eq_none_iff] at hx
    rw [List.getElem?_eq_none (by rw [h1.1]; exact hx), List.getElem?_eq_none (by rw [h2.1]; exact hx)]
  | some x =>
    by_cases hs : ∃ l, Spreads op i x l
    · obtain ⟨l, hl⟩ := hs
      rw [(h1.2 i x hx).1 l hl, (h2.2 i x hx).1 l hl]
    · rw [(h1.2 i x hx).2 hs, (h2.2 i x hx).2 hs]

theorem sameLength_iff (l : List (Opd S U R)) (ls : List (List (Opd S U R))) :
    sameLength (l :: ls) = true ↔ ∀ m ∈ l :: ls, m.length = l.length := by
  simp [sameLength]

/-! ## The nesting bounds the iterations -/

theorem depthList_mem {xs : List (Opd S U R)} {x : Opd S U R} (h : x ∈ xs) :
    depthOpd x ≤ depthList xs := by
  induction xs with
  | nil => simp at h
  | cons y ys ih =>
    rw [depthList]
    rcases List.mem_cons.mp h with rfl | h
    · omega
    · have := ih h; omega

theorem depthOpd_eq (x : Opd S U R) : depthOpd x = x.value.depth := by
  cases x; rw [depthOpd]

/-- The nesting of the arrays iterated over. -/
def spreadDepth : ℕ → List (Opd S U R) → ℕ
  | _, [] => 0
  | i, x :: xs => max (if (spread op i x).isSome then depthOpd x else 0) (spreadDepth (i + 1) xs)

theorem spreadDepth_le (xs : List (Opd S U R)) : ∀ i, spreadDepth op i xs ≤ depthList xs := by
  induction xs with
  | nil => intro i; simp [spreadDepth]
  | cons x xs ih =>
    intro i
    rw [spreadDepth, depthList]
    have := ih (i + 1)
    split <;> omega

theorem spreadDepth_row (k : ℕ) (xs : List (Opd S U R)) : ∀ i,
    (∀ l ∈ spreads op i xs, k < l.length) →
    spreadDepth op i (row op k i xs) ≤ spreadDepth op i xs - 1 := by
  induction xs with
  | nil => intro i h; simp [row, spreadDepth]
  | cons x xs ih =>
    intro i h
    rw [row, spreadDepth, spreadDepth]
    cases hs : spread op i x with
    | none =>
      have := ih (i + 1) (by simpa [spreads, hs] using h)
      simp only [hs]
      simp
      omega
    | some l =>
      have hh : k < l.length ∧ ∀ m ∈ spreads op (i + 1) xs, k < m.length := by
        simpa [spreads, hs] using h
      have := ih (i + 1) hh.2
      simp only [List.getElem?_eq_getElem hh.1, Option.getD_some, Option.isSome_some, if_true]
      have hl : x.value = .arr l := ((spread_iff op i x l).mp hs).1
      have hd : depthOpd x = depthList l + 1 := by rw [depthOpd_eq, hl, Val.depth]
      have he : depthOpd l[k] ≤ depthList l := depthList_mem (List.getElem_mem hh.1)
      split <;> omega

theorem spreadDepth_pos (xs : List (Opd S U R)) : ∀ i, spreads op i xs ≠ [] →
    0 < spreadDepth op i xs := by
  induction xs with
  | nil => intro i h; simp [spreads] at h
  | cons x xs ih =>
    intro i h
    rw [spreadDepth]
    cases hs : spread op i x with
    | none =>
      have := ih (i + 1) (by simpa [spreads, hs] using h)
      omega
    | some l =>
      have hl : x.value = .arr l := ((spread_iff op i x l).mp hs).1
      have hd : depthOpd x = depthList l + 1 := by rw [depthOpd_eq, hl, Val.depth]
      simp only [Option.isSome_some, if_true]
      omega

theorem eachRow_congr {f g : List (Opd S U R) → Act σ (Opd S U R)} {mk : ℕ → List (Opd S U R)} :
    ∀ (ks : List ℕ), (∀ k ∈ ks, f (mk k) = g (mk k)) → eachRow f mk ks = eachRow g mk ks
  | [], _ => rfl
  | k :: ks, h => by
    funext s
    rw [eachRow, eachRow, h k (by simp), eachRow_congr ks (fun j hj => h j (by simp [hj]))]

theorem callF_congr : ∀ (f g : ℕ) (xs : List (Opd S U R)), spreadDepth op 0 xs ≤ f →
    spreadDepth op 0 xs ≤ g → callF c op f xs = callF c op g xs
  | f, g, xs, hf, hg => by
    funext s
    rw [callF, callF]
    cases hs : spreads op 0 xs with
    | nil => rfl
    | cons l ls =>
      have hpos := spreadDepth_pos op xs 0 (by simp [hs])
      cases hl : sameLength (l :: ls) with
      | false => simp only [hl, Bool.false_eq_true, if_false]
      | true =>
        obtain ⟨f, rfl⟩ : ∃ f', f = f' + 1 := ⟨f - 1, by omega⟩
        obtain ⟨g, rfl⟩ : ∃ g', g = g' + 1 := ⟨g - 1, by omega⟩
        simp only [hl, if_true]
        have hrow : ∀ k ∈ List.range l.length,
            callF c op f (row op k 0 xs) = callF c op g (row op k 0 xs) := by
          intro k hk
          have hk' : ∀ m ∈ spreads op 0 xs, k < m.length := by
            intro m hm
            rw [hs] at hm
            rw [(sameLength_iff l ls).mp hl m hm]
            exact List.mem_range.mp hk
          have := spreadDepth_row op k xs 0 hk'
          exact callF_congr f g _ (by omega) (by omega)
        rw [eachRow_congr _ hrow]

/-- `call` without the bound: the code's own recursion (`operators.py:67-147`). -/
theorem call_eq (xs : List (Opd S U R)) (s : σ) : call c op xs s =
    match spreads op 0 xs with
    | l :: ls =>
      if sameLength (l :: ls) then
        match eachRow (call c op) (fun k => row op k 0 xs) (List.range l.length) s with
        | (.ok rs, s') => (.ok (Opd.pure (.arr rs)), s')
        | (.error e, s') => (.error e, s')
      else (.error (.calc "All array inputs must all be same length"), s)
    | [] =>
      if op.maxParams = some 1 ∧ op.mustBe 0 "array" none = true ∧ 1 < xs.length then
        let arrays := xs.filterMap (fun x => x.value.arr?)
        if sameLength arrays then
          match arrays with
          | [] => call c op [Opd.pure (.arr (collect 0 xs))] s
          | l :: _ =>
            match eachCollected (call c op) (fun k => collect k xs)
                (List.range l.length) s with
            | (.ok rs, s') => (.ok (Opd.pure (.arr rs)), s')
            | (.error e, s') => (.error e, s')
        else (.error (.calc "All array inputs must all be same length"), s)
      else callScalar c op xs s := by
  rw [call, callF]
  cases hs : spreads op 0 xs with
  | cons l ls =>
    have hpos := spreadDepth_pos op xs 0 (by simp [hs])
    have hle := spreadDepth_le op xs 0
    cases hl : sameLength (l :: ls) with
    | false => simp only [hl, Bool.false_eq_true, if_false]
    | true =>
      obtain ⟨f, hf⟩ : ∃ f', depthList xs = f' + 1 := ⟨depthList xs - 1, by omega⟩
      rw [hf]
      simp only [hl, if_true]
      have hrow : ∀ k ∈ List.range l.length,
          callF c op f (row op k 0 xs) = call c op (row op k 0 xs) := by
        intro k hk
        have hk' : ∀ m ∈ spreads op 0 xs, k < m.length := by
          intro m hm
          rw [hs] at hm
          rw [(sameLength_iff l ls).mp hl m hm]
          exact List.mem_range.mp hk
        have := spreadDepth_row op k xs 0 hk'
        exact callF_congr c op f _ _ (by omega) (spreadDepth_le op _ 0)
      rw [eachRow_congr _ hrow]
      rfl
  | nil =>
    by_cases hc : op.maxParams = some 1 ∧ op.mustBe 0 "array" none = true ∧ 1 < xs.length
    · rw [if_pos hc, if_pos hc]
      have hone : ∀ ys, call c op [Opd.pure (.arr ys)] = callScalar c op [Opd.pure (.arr ys)] := by
        intro ys
        funext s
        have hcan : op.canBe 0 "array" = true := by
          have := hc.2.1
          unfold Operation.mustBe at this
          unfold Operation.canBe
          simp only [Bool.and_eq_true, List.any_eq_true, List.all_eq_true] at this ⊢
          obtain ⟨⟨r, hr, ha⟩, hall⟩ := this
          refine ⟨r, hr, ha, ?_⟩
          have h2 := hall r hr
          rw [ha] at h2
          simp only [Operation.onlyType, Bool.not_true, Bool.false_or, Bool.and_eq_true] at h2
          exact h2.1.1
        have hsp : spreads op 0 [(Opd.pure (.arr ys) : Opd S U R)] = [] := by
          simp [spreads, spread, Opd.pure, hcan]
        rw [call, callF, hsp]
        simp
      have heach : ∀ ks, eachCollected (call c op) (fun k => collect k xs) ks =
          eachCollected (callScalar c op) (fun k => collect k xs) ks := by
        intro ks
        induction ks with
        | nil => rfl
        | cons k ks ih => funext s; rw [eachCollected, eachCollected, hone, ih]
      simp only [hone, heach]
      rfl
    · rw [if_neg hc, if_neg hc]

/-! ## The rows -/

/-- What the loop over the rows does: one after the other, from state to state. -/
theorem eachRow_spec (f : List (Opd S U R) → Act σ (Opd S U R)) (mk : ℕ → List (Opd S U R)) :
    ∀ (n m : ℕ) (s : σ),
    (∃ (rs : List (Opd S U R)) (st : ℕ → σ),
      eachRow f mk (List.range' m n) s = (.ok rs, st n) ∧ rs.length = n ∧ st 0 = s ∧
      ∀ j < n, ∃ r, rs[j]? = some r ∧ Element (f (mk (m + j)) (st j)).1 r ∧
        (f (mk (m + j)) (st j)).2 = st (j + 1)) ∨
    (∃ j < n, ∃ s1 s' msg, f (mk (m + j)) s1 = (.error (.py msg), s') ∧
      eachRow f mk (List.range' m n) s = (.error (.py msg), s'))
  | 0, m, s => Or.inl ⟨[], fun _ => s, rfl, rfl, rfl, fun j hj => absurd hj (by omega)⟩
  | n + 1, m, s => by
    rw [List.range'_succ, eachRow]
    cases hf : f (mk m) s with
    | mk res s1 =>
      have ih := eachRow_spec f mk n (m + 1) s1
      have step : ∀ r, Element res r →
          (∀ q : Except Raise (List (Opd S U R)) × σ,
            q = eachRow f mk (List.range' (m + 1) n) s1 →
            ((∃ (rs : List (Opd S U R)) (st : ℕ → σ),
              (match q with
                | (.ok rs, s'') => ((.ok (r :: rs), s'') : Except Raise _ × σ)
                | (.error e', s'') => (.error e', s'')) = (.ok rs, st (n + 1)) ∧
              rs.length = n + 1 ∧ st 0 = s ∧
              ∀ j < n + 1, ∃ r, rs[j]? = some r ∧ Element (f (mk (m + j)) (st j)).1 r ∧
                (f (mk (m + j)) (st j)).2 = st (j + 1)) ∨
            (∃ j < n + 1, ∃ s1 s' msg, f (mk (m + j)) s1 = (.error (.py msg), s') ∧
              (match q with
                | (.ok rs, s'') => ((.ok (r :: rs), s'') : Except Raise _ × σ)
                | (.error e', s'') => (.error e', s'')) = (.error (.py msg), s')))) := by
        rintro r hr q rfl
        rcases ih with ⟨rs, st, he, hlen, h0, hall⟩ | ⟨j, hj, s2, s', msg, hm, he⟩
        · refine Or.inl ⟨r :: rs, fun i => match i with | 0 => s | i + 1 => st i, ?_, ?_, rfl, ?_⟩
          · rw [he]
          · simp [hlen]
          · intro j hj
            cases j with
            | zero => exact ⟨r, rfl, by simpa [hf] using hr, by simp [hf, h0]⟩
            | succ j =>
              obtain ⟨r', h1, h2, h3⟩ := hall j (by omega)
              refine ⟨r', by simpa using h1, ?_, ?_⟩
              · simp only
                rw [show m + (j + 1) = m + 1 + j by omega]
                exact h2
              · simp only
                rw [show m + (j + 1) = m + 1 + j by omega]
                exact h3
        · refine Or.inr ⟨j + 1, by omega, s2, s', msg, ?_, ?_⟩
          · rw [show m + (j + 1) = m + 1 + j by omega]; exact hm
          · rw [he]
      cases res with
      | ok r => exact step r (.result r) _ rfl
      | error e =>
        cases e with
        | py msg => exact Or.inr ⟨0, by omega, s, s1, msg, by simpa using hf, rfl⟩
        | «calc» msg w => exact step _ (.calcError msg w) _ rfl
        | exec e => exact step _ (.execError e) _ rfl

/-! ## Validation -/

theorem anyType_ok {x : Opd S U R} : ∀ {ts : List ObjType}, anyType c x ts = .ok true →
    ∃ t ∈ ts, Accepts c t x
  | [], h => by simp [anyType] at h
  | t :: ts, h => by
    rw [anyType] at h
    cases hv : validateInput c t x with
    | error e => rw [hv] at h; simp at h
    | ok b =>
      rw [hv] at h
      cases b with
      | false =>
        obtain ⟨t', ht, ha⟩ := anyType_ok (ts := ts) h
        exact ⟨t', List.mem_cons_of_mem _ ht, ha⟩
      | true =>
        refine ⟨t, List.mem_cons_self .., ?_⟩
        cases t with
        | any => trivial
        | ty n =>
          simp only [validateInput] at hv
          cases hn : c.validator n with
          | none => rw [hn] at hv; simp at hv
          | some v => rw [hn] at hv; exact ⟨v, hn, hv⟩
        | sub n u =>
          simp only [validateInput] at hv
          cases hn : c.validator n with
          | none => rw [hn] at hv; simp at hv
          | some v => rw [hn] at hv; exact ⟨v, hn, hv⟩

theorem checkFrom_ok {r : Restriction} : ∀ {xs : List (Opd S U R)} {i : ℕ},
    checkFrom c op r i xs = .ok () → ∀ j x, xs[j]? = some x → Covers r (i + j) →
    ∃ t ∈ r.types, Accepts c t x
  | [], i, _, j, x, hx, _ => by simp at hx
  | y :: ys, i, h, j, x, hx, hc => by
    rw [checkFrom] at h
    have htail : checkFrom c op r (i + 1) ys = .ok () ∧
        (Covers r i → anyType c y r.types = .ok true) := by
      by_cases ha : Operation.applies r i = true
      · rw [if_pos ha] at h
        cases ht : anyType c y r.types with
        | error e => rw [ht] at h; simp at h
        | ok b =>
          rw [ht] at h
          cases b with
          | true => exact ⟨h, fun _ => rfl⟩
          | false => simp at h
      · rw [if_neg ha] at h
        exact ⟨h, fun hcov => absurd ((applies_iff r i).mpr hcov) ha⟩
    cases j with
    | zero =>
      simp only [List.getElem?_cons_zero, Option.some.injEq] at hx
      subst hx
      exact anyType_ok c (htail.2 hc)
    | succ j =>
      exact checkFrom_ok htail.1 j x (by simpa using hx)
        (by rw [show i + 1 + j = i + (j + 1) by omega]; exact hc)

theorem checkValues_ok {xs : List (Opd S U R)} : ∀ {rs : List Restriction},
    checkValues c op xs rs = .ok () → ∀ r ∈ rs, checkFrom c op r 0 xs = .ok ()
  | [], _, r, hr => by simp at hr
  | q :: rs, h, r, hr => by
    rw [checkValues] at h
    cases hq : checkFrom c op q 0 xs with
    | error e => rw [hq] at h; simp at h
    | ok u =>
      rw [hq] at h
      rcases List.mem_cons.mp hr with rfl | hr
      · exact hq
      · exact checkValues_ok h r hr

theorem checkUnitsFrom_ok {r : UnitRestriction U} : ∀ {xs : List (Opd S U R)} {i : ℕ},
    checkUnitsFrom op r i xs = .ok () → ∀ j x, xs[j]? = some x → r.first ≤ i + j →
    (∀ t, r.last = some t → i + j ≤ t) → r.check x.unit = .ok true
  | [], i, _, j, x, hx, _, _ => by simp at hx
  | y :: ys, i, h, j, x, hx, h1, h2 => by
    rw [checkUnitsFrom] at h
    have htail : checkUnitsFrom op r (i + 1) ys = .ok () ∧
        (Covers ⟨r.first, r.last, []⟩ i → r.check y.unit = .ok true) := by
      by_cases ha : Operation.applies ⟨r.first, r.last, []⟩ i = true
      · rw [if_pos ha] at h
        cases ht : r.check y.unit with
        | error e => rw [ht] at h; simp at h
        | ok b =>
          rw [ht] at h
          cases b with
          | true => exact ⟨h, fun _ => rfl⟩
          | false => simp at h
      · rw [if_neg ha] at h
        exact ⟨h, fun hcov => absurd ((applies_iff _ i).mpr hcov) ha⟩
    cases j with
    | zero =>
      simp only [List.getElem?_cons_zero, Option.some.injEq] at hx
      subst hx
      exact htail.2 ⟨h1, h2⟩
    | succ j =>
      exact checkUnitsFrom_ok htail.1 j x (by simpa using hx) (by omega)
        (fun t ht => by have := h2 t ht; omega)

theorem checkUnits_ok {xs : List (Opd S U R)} : ∀ {rs : List (UnitRestriction U)},
    checkUnits op xs rs = .ok () → ∀ r ∈ rs, checkUnitsFrom op r 0 xs = .ok ()
  | [], _, r, hr => by simp at hr
  | q :: rs, h, r, hr => by
    rw [checkUnits] at h
    cases hq : checkUnitsFrom op q 0 xs with
    | error e => rw [hq] at h; simp at h
    | ok u =>
      rw [hq] at h
      rcases List.mem_cons.mp hr with rfl | hr
      · exact hq
      · exact checkUnits_ok h r hr

/-- Validation accepts only allowed inputs. -/
theorem validate_ok {xs : List (Opd S U R)} (h : validate c op xs = .ok ()) :
    Allowed c op xs := by
  unfold validate at h
  split at h
  · simp at h
  · rename_i hmin
    split at h
    · simp at h
    · rename_i hmax
      cases hv : checkValues c op xs op.values with
      | error e => rw [hv] at h; simp at h
      | ok u =>
        rw [hv] at h
        refine ⟨?_, ?_, ?_, ?_⟩
        · intro m hm; rw [hm] at hmin; simpa using hmin
        · intro m hm; rw [hm] at hmax; simpa using hmax
        · intro r hr i x hx hc
          exact checkFrom_ok c op (checkValues_ok c op hv r hr) i x hx (by simpa using hc)
        · intro r hr i x hx h1 h2
          exact checkUnitsFrom_ok op (checkUnits_ok op h r hr) i x hx (by simpa using h1)
            (by simpa using h2)

end MC
