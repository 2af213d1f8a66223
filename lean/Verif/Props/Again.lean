import Verif.Props.OneUnit

/-! # C76: simplifying the unit of an answer twice -/

namespace MC.Props
open MC.Unit MC.Unit.To MC.Unit.Spec MC.Arrays

section
variable {U D K R C σ : Type} [DecidableEq U] [DecidableEq D] [Field K] [DecidableEq K] {pw : K → ℚ → K} {N : Norm U D K}
  {c : Calc K (UnitObj U) R C}

/-- The groups of units are replaced until there is none left to replace; then no two of the units are of the same dimension. -/
def NothingToMerge (pw : K → ℚ → K) (N : Norm U D K) (fuel : ℕ) (v : K) (l : PL U) : Prop :=
  ∀ w l', simplifyLoop pw N fuel v l = some (.ok (w, l')) → (l'.map (fun o => (N.info o.1).dim)).Nodup

theorem simplifyLoop_again {w : K} {l' : PL U} : ∀ {n : ℕ} {v : K} {l : PL U},
    simplifyLoop pw N n v l = some (.ok (w, l')) → ∀ m, simplifyLoop pw N (m + 1) w l' = some (.ok (w, l'))
  | 0, v, l, h, m => by simp [simplifyLoop] at h
  | n + 1, v, l, h, m => by
    rw [simplifyLoop] at h
    cases ht : tryDims pw N (l.flatMap (fun u => (N.info u.1).systems)) v l ((simplifyJobs N).zip
        (findUnits ((simplifyJobs N).map (fun j => multiply j.2 (normDim N j.1))) (subunits N l))) with
    | error e => rw [ht] at h; simp at h
    | ok o =>
      rw [ht] at h
      cases o with
      | none =>
        simp only [Option.some.injEq, Except.ok.injEq, Prod.mk.injEq] at h
        obtain ⟨rfl, rfl⟩ := h
        rw [simplifyLoop]
        rw [ht]
      | some s => exact simplifyLoop_again (n := n) (v := s.1) (l := s.2) h m

theorem dedupe_nodup {v : K} {l : PL U} (h : (l.map (fun o => (N.info o.1).dim)).Nodup) :
    dedupe pw N v l = .ok (v, l) := by
  unfold dedupe
  split
  · have key : ∀ es : List (D × List ℕ), (∀ e ∈ es, e.2.length ≤ 1) →
        es.foldlM (fun s e => dedupeDim pw N e.2 s) (v, l) = (.ok (v, l) : Except Raise (K × PL U)) := by
      intro es
      induction es with
      | nil => intro _; rfl
      | cons e es ih =>
        intro he
        have h1 : dedupeDim pw N e.2 (v, l) = .ok (v, l) := by
          unfold dedupeDim
          rw [if_neg (by have := he e (by simp); omega)]
        rw [List.foldlM_cons, h1]
        exact ih (fun e' he' => he e' (by simp [he']))
    apply key
    intro e he
    unfold dimIndices at he
    simp only [List.mem_map] at he
    obtain ⟨d, _, rfl⟩ := he
    have hn : ((List.range l.length).filter
        (fun i => (l.map (fun u => (N.info u.1).dim))[i]? = some d)).Nodup := List.nodup_range.filter _
    have hall : ∀ i ∈ ((List.range l.length).filter (fun i => (l.map (fun u => (N.info u.1).dim))[i]? = some d)),
        ∀ j ∈ ((List.range l.length).filter (fun i => (l.map (fun u => (N.info u.1).dim))[i]? = some d)), i = j := by
      intro i hi j hj
      simp only [List.mem_filter, List.mem_range, decide_eq_true_eq] at hi hj
      have e := hi.2.trans hj.2.symm
      exact (List.getElem?_inj (by simpa using hi.1) h).1 e
    match hm : ((List.range l.length).filter (fun i => (l.map (fun u => (N.info u.1).dim))[i]? = some d)) with
    | [] => simp
    | [_] => simp
    | a :: b :: t =>
      rw [hm] at hn hall
      have := hall a (by simp) b (by simp)
      simp [this] at hn
  · rfl

theorem simplifyUnits_again {n m : ℕ} {v w : K} {l l' : PL U} (hm : NothingToMerge pw N n v l)
    (h : simplifyUnits pw N n v l = some (.ok (w, some l'))) :
    simplifyUnits pw N (m + 1) w l' = some (.ok (w, some l')) := by
  unfold simplifyUnits at h
  by_cases hs : needsSimplify l = true
  · rw [if_pos hs] at h
    cases hl : simplifyLoop pw N n v l with
    | none => rw [hl] at h; simp at h
    | some res =>
      rw [hl] at h
      cases res with
      | error e => simp at h
      | ok p =>
        obtain ⟨a, b⟩ := p
        have hd : dedupe pw N a b = .ok (a, b) := dedupe_nodup (hm a b hl)
        simp only [hd, bind, Except.bind, pure, Except.pure, Option.some.injEq, Except.ok.injEq, Prod.mk.injEq] at h
        obtain ⟨rfl, hb⟩ := h
        unfold checkEmpty at hb
        split at hb
        · simp at hb
        · rename_i hne
          cases hb
          unfold simplifyUnits
          have h2 := simplifyLoop_again hl m
          have h3 : (if needsSimplify l' = true then simplifyLoop pw N (m + 1) a l' else some (.ok (a, l'))) = some (.ok (a, l')) := by
            split
            · exact h2
            · rfl
          rw [h3]
          simp [hd, bind, Except.bind, pure, Except.pure, checkEmpty, hne]
  · match l, hs with
    | [], _ => simp [needsSimplify, dedupe, checkEmpty, bind, Except.bind, pure, Except.pure] at h
    | [o], hs =>
      rw [if_neg hs] at h
      simp only [dedupe, checkEmpty, bind, Except.bind, pure, Except.pure, List.length_cons, List.length_nil, lt_irrefl,
        if_false, Option.some.injEq, Except.ok.injEq, Prod.mk.injEq] at h
      obtain ⟨rfl, h2⟩ := h
      cases h2
      unfold simplifyUnits
      rw [if_neg hs]
      rfl
    | _ :: _ :: _, hs => exact absurd rfl hs

/-- **C76**: `compact` of what `compact` gave is the same number with the same unit, and an answer that is shown again, as the elements of
an array in a variable are, is shown the same.  Missing: units of which two of the same dimension are left to be merged in the end;
for them it is false (`C76_again_violation`). -/
theorem C76_again_partial (hc : KnowsUnits c) {n m : ℕ} {v : K} {o o' : UnitObj U} {r : Option R} {y : Opd K (UnitObj U) R}
    {s s' : σ} (hm : NothingToMerge pw N n v o.list)
    (h : call c (opCompact pw N n) [⟨.sc v, some o, r, none⟩] s = (.ok y, s')) (hy : y.unit = some o') :
    call c (opCompact pw N (m + 1)) [y] s = (.ok y, s) ∧ finalizeOpd (unitFinish pw N R (m + 1)) y = .ok y := by
  rw [compact_call hc] at h
  cases hq : simplifyUnits pw N n v o.list with
  | none => rw [hq] at h; exact absurd (congrArg Prod.fst h) (by simp)
  | some res =>
    rw [hq] at h
    cases res with
    | error e => exact absurd (congrArg Prod.fst h) (by simp)
    | ok p =>
      obtain ⟨w, u⟩ := p
      cases h
      cases u with
      | none => simp at hy
      | some l' =>
        have h2 := simplifyUnits_again (m := m) hm hq
        refine ⟨?_, ?_⟩
        · simp only [Option.map_some]
          rw [compact_call hc, h2]
          rfl
        · simp [finalizeOpd, unitFinish, h2]

/-- In no number of the answer that may be simplified are two units of the same dimension left to be merged in the end. -/
inductive Unmerged (pw : K → ℚ → K) (N : Norm U D K) (n : ℕ) : Opd K (UnitObj U) R → Prop
  | arr {xs : List (Opd K (UnitObj U) R)} {u r o} : (∀ x ∈ xs, Unmerged pw N n x) → Unmerged pw N n ⟨.arr xs, u, r, o⟩
  | num {v : K} {w : UnitObj U} {r o} : (w.keep = false → NothingToMerge pw N n v w.list) → Unmerged pw N n ⟨.sc v, some w, r, o⟩
  | bare {v : Val K (UnitObj U) R} {r o} : v.arr? = none → Unmerged pw N n ⟨v, none, r, o⟩

mutual
theorem finalize_again {n m : ℕ} : ∀ (x y : OpdF (Val K (UnitObj U) R) (UnitObj U) R), Unmerged pw N n x →
    finalizeOpd (unitFinish pw N R n) x = .ok y → finalizeOpd (unitFinish pw N R (m + 1)) y = .ok y
  | ⟨.arr xs, u, r, o⟩, y, hu, h => by
    have hu' : ∀ x ∈ xs, Unmerged pw N n x := by
      cases hu with
      | arr ha => exact ha
      | bare hb => exact absurd hb (by simp [Val.arr?])
    simp only [finalizeOpd] at h
    cases hx : finalizeList (unitFinish pw N R n) xs with
    | error e => rw [hx] at h; simp at h
    | ok ys =>
      rw [hx] at h
      cases h
      simp only [finalizeOpd]
      rw [finalizeList_again xs ys hu' hx]
  | ⟨.sc v, u, r, o⟩, y, hu, h => by
    cases hu with
    | bare _ =>
      simp only [finalizeOpd] at h
      cases h
      simp [finalizeOpd]
    | num hw =>
      rename_i w
      obtain ⟨l, k⟩ := w
      cases k with
      | true =>
        simp [finalizeOpd, unitFinish] at h
        subst h
        simp [finalizeOpd, unitFinish]
      | false =>
        have hw := hw rfl
        simp only [finalizeOpd, unitFinish, Bool.not_false, Bool.and_true, if_true] at h
        cases hq : simplifyUnits pw N n v l with
        | none => rw [hq] at h; simp at h
        | some res =>
          rw [hq] at h
          cases res with
          | error e => simp at h
          | ok p =>
            obtain ⟨w, u⟩ := p
            cases h
            cases u with
            | none => simp [finalizeOpd]
            | some l' =>
              have h2 := simplifyUnits_again (m := m) hw hq
              simp [finalizeOpd, unitFinish, h2]
  | ⟨.exc e, u, r, o⟩, y, hu, h => by
    cases hu with
    | bare _ =>
      simp only [finalizeOpd] at h
      cases h
      simp [finalizeOpd]
theorem finalizeList_again {n m : ℕ} : ∀ (xs ys : List (OpdF (Val K (UnitObj U) R) (UnitObj U) R)), (∀ x ∈ xs, Unmerged pw N n x) →
    finalizeList (unitFinish pw N R n) xs = .ok ys → finalizeList (unitFinish pw N R (m + 1)) ys = .ok ys
  | [], ys, _, h => by
    simp only [finalizeList] at h
    cases h
    simp [finalizeList]
  | x :: xs, ys, hu, h => by
    simp only [finalizeList] at h
    cases hx : finalizeOpd (unitFinish pw N R n) x with
    | error e => rw [hx] at h; simp at h
    | ok y =>
      rw [hx] at h
      cases hxs : finalizeList (unitFinish pw N R n) xs with
      | error e => rw [hxs] at h; simp at h
      | ok zs =>
        rw [hxs] at h
        cases h
        simp only [finalizeList]
        rw [finalize_again x y (hu x (by simp)) hx, finalizeList_again xs zs (fun z hz => hu z (by simp [hz])) hxs]
end

/-- **C76**: an answer that is shown again is shown the same, arrays in arrays included.  Missing as in `C76_again_partial`. -/
theorem C76_again_answer_partial {n m : ℕ} {x y : Opd K (UnitObj U) R} (hu : Unmerged pw N n x)
    (h : finalizeOpd (unitFinish pw N R n) x = .ok y) : finalizeOpd (unitFinish pw N R (m + 1)) y = .ok y :=
  finalize_again x y hu h

end

/-! ### Examples -/

open MC.Unit.Table MC.Unit.Format

/-- A unit made of shipped units. -/
def unitsOf (l : List (String × ℚ)) : UnitObj Shipped :=
  ⟨l.filterMap (fun e => (byName e.1).map (fun u => (u, e.2))), false⟩

/-- The number with its unit, as it is shown. -/
def partsOf (x : Except Raise (Opd ℚ (UnitObj Shipped) ℕ)) : List (ℚ × List (String × ℚ)) :=
  match x with
  | .ok y => shownParts ⟨.arr [y], none, none, none⟩
  | .error _ => []

/-- `5 newtons metres`, which is shown in joules: nothing is left to merge. -/
theorem torque_mergeless : NothingToMerge intPow plainNorm 9 5 (unitsOf [("newtons", 1), ("metres", 1)]).list := by
  have h : (match simplifyLoop intPow plainNorm 9 5 (unitsOf [("newtons", 1), ("metres", 1)]).list with
    | some (.ok p) => decide (p.2.map (fun o => (plainNorm.info o.1).dim)).Nodup
    | _ => true) = true := by decide +kernel
  intro w l' hl
  rw [hl] at h
  simpa using h

/-- The array of it and a number. -/
example : Unmerged intPow plainNorm 9 (⟨.arr [⟨.sc 5, some (unitsOf [("newtons", 1), ("metres", 1)]), none, none⟩,
    ⟨.sc 3, none, none, none⟩], none, none, none⟩ : Opd ℚ (UnitObj Shipped) ℕ) := by
  refine .arr ?_
  intro x hx
  simp only [List.mem_cons, List.not_mem_nil, or_false] at hx
  rcases hx with rfl | rfl
  · exact .num (fun _ => torque_mergeless)
  · exact .bare rfl

/-- C76: showing an answer again can change it: `5 seconds^-1 hours^-1` is shown as 1/720 `seconds^-2`, and that as 1/720 `hertz^2`.
The first step compares no sizes; in the second the hertz comes first of the units it may be (`closer` of `plainNorm` keeps the first). -/
theorem C76_again_violation :
    let once := finalizeOpd (unitFinish intPow plainNorm ℕ 9)
      ⟨.sc 5, some (unitsOf [("seconds", -1), ("hours", -1)]), none, none⟩
    partsOf once = [(1 / 720, [("seconds", -2)])] ∧
    partsOf (once >>= finalizeOpd (unitFinish intPow plainNorm ℕ 9)) = [(1 / 720, [("hertz", 2)])] := by
  decide +kernel

end MC.Props
