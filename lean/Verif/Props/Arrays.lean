import Verif.Lemmas.Arrays
import Verif.Lemmas.Range
import Mathlib.Data.List.Sort

/-! # C52: array functions -/

set_option linter.unusedSectionVars false

namespace MC.Props
open MC Arrays

variable {S U R K σ : Type} {c : Calc S U R K} {asBool : S → Option Bool}
  {p : ℕ} {num? : S → Option Number} {ofNum : Number → S}

/-- Elements as they are in a stored array: without the attributes that `call` adds for the
duration of a call. -/
def Plain (els : List (Opd S U R)) : Prop := ∀ e ∈ els, e.orig = none

theorem plain_restore {els : List (Opd S U R)} (h : Plain els) : els.map restore = els := by
  rw [List.map_congr_left (g := id)]
  · simp
  · intro e he; simp [restore, h e he]

/-- The result: an array without unit. -/
def arrayOf (els : List (Opd S U R)) : Opd S U R := ⟨.arr els, none, none, none⟩

/-- **C52**: `concat` appends. -/
theorem C52_concat (hc : HasArrays c asBool) {x y : Opd S U R} {a b : List (Opd S U R)}
    (hx : x.value = .arr a) (hy : y.value = .arr b) (ha : Plain a) (hb : Plain b) (s : σ) :
    call c opConcat [x, y] s = (.ok (arrayOf (a ++ b)), s) := by
  rw [call_concat hc rfl rfl rfl rfl rfl hx hy]
  simp [opConcat, pureRef, arrayAt, hx, hy, bind, Except.bind, pure, Except.pure, finishResult,
    plain_restore ha, plain_restore hb, arrayOf]

/-- **C52**: `reverse` reverses. -/
theorem C52_reverse (hc : HasArrays c asBool) {x : Opd S U R} {a : List (Opd S U R)}
    (hx : x.value = .arr a) (ha : Plain a) (s : σ) :
    call c opReverse [x] s = (.ok (arrayOf a.reverse), s) := by
  rw [call_array hc rfl rfl rfl rfl rfl hx]
  simp [opReverse, pureRef, arrayAt, hx, bind, Except.bind, pure, Except.pure, finishResult, arrayOf,
    plain_restore ha]

/-- **C52**: reversing twice gives the array back. -/
theorem C52_reverse_involution (hc : HasArrays c asBool) {x : Opd S U R} {a : List (Opd S U R)}
    (hx : x.value = .arr a) (ha : Plain a) (s : σ) :
    ∃ r, call c opReverse [x] s = (.ok r, s) ∧ call c opReverse [r] s = (.ok (arrayOf a), s) := by
  refine ⟨_, C52_reverse hc hx ha s, ?_⟩
  rw [C52_reverse (a := a.reverse) hc rfl (by intro e he; exact ha e (by simpa using he)), List.reverse_reverse]

/-- **C52**: `count` is the number of elements. -/
theorem C52_count (hc : HasArrays c asBool) (hp : 1 ≤ p) {x : Opd S U R} {a : List (Opd S U R)}
    (hx : x.value = .arr a) (s : σ) :
    call c (opCount p ofNum) [x] s = (.ok ⟨.sc (ofNum ⟨a.length, 1⟩), none, none, none⟩, s) := by
  rw [call_array hc rfl rfl rfl rfl rfl hx]
  have := Number.ofInt_eq hp (a.length : ℤ)
  simp [opCount, pureRef, arrayAt, hx, bind, Except.bind, pure, Except.pure, finishResult,
    this, liftErr]

/-- The flags of a filter. -/
def Flags (asBool : S → Option Bool) (fs : List (Opd S U R)) (bs : List Bool) : Prop :=
  List.Forall₂ (fun f b => ∃ v, f.value = .sc v ∧ asBool v = some b) fs bs

theorem filterLoop_eq {els : List (Opd S U R)} {fs : List (Opd S U R)} {bs : List Bool}
    (h : Flags asBool fs bs) : ∀ i, i + fs.length ≤ els.length →
    filterLoop asBool els i fs = .ok ((((els.drop i).zip bs).filter (·.2)).map (·.1)) := by
  induction h with
  | nil => intro i _; simp [filterLoop]
  | @cons f b fs bs hf hr ih =>
    intro i hi
    obtain ⟨v, hv, hb⟩ := hf
    simp only [List.length_cons] at hi
    have hlt : i < els.length := by omega
    have hdrop : els.drop i = els[i] :: els.drop (i + 1) := List.drop_eq_getElem_cons hlt
    have hidx : pyIndex els (i : ℤ) = .ok els[i] := by
      unfold pyIndex
      rw [if_pos (by positivity), Int.toNat_natCast, List.getElem?_eq_getElem hlt]
    unfold filterLoop
    simp only [hv, hb, bind, Except.bind, ih (i + 1) (by omega)]
    cases b
    · simp only [Bool.false_eq_true, if_false]
      rw [hdrop, List.zip_cons_cons, List.filter_cons_of_neg (by simp)]
    · simp only [if_true, hidx, pure, Except.pure]
      rw [hdrop, List.zip_cons_cons, List.filter_cons_of_pos (by simp), List.map_cons]

theorem filterLoop_short {els : List (Opd S U R)} {fs : List (Opd S U R)} {bs : List Bool}
    (h : Flags asBool fs bs) : ∀ i, (∃ k, bs[k]? = some true ∧ els.length ≤ i + k) →
    ∃ e, filterLoop asBool els i fs = .error e := by
  induction h with
  | nil => rintro i ⟨k, hk, -⟩; simp at hk
  | @cons f b fs bs hf hr ih =>
    rintro i ⟨k, hk, hle⟩
    obtain ⟨v, hv, hb⟩ := hf
    unfold filterLoop
    simp only [hv, hb, bind, Except.bind]
    cases k with
    | zero =>
      simp only [List.getElem?_cons_zero, Option.some.injEq] at hk
      subst hk
      have : pyIndex els (i : ℤ) = .error (.py "IndexError") := by
        unfold pyIndex
        rw [if_pos (by positivity), Int.toNat_natCast, List.getElem?_eq_none (by omega)]
      simp [this]
    | succ k =>
      obtain ⟨e, he⟩ := ih (i + 1) ⟨k, by simpa using hk, by omega⟩
      cases b
      · exact ⟨e, by simpa using he⟩
      · simp only [he, if_true]
        cases pyIndex els (i : ℤ) <;> simp

/-- **C52**: `filter` keeps exactly the elements whose flag is true, in order (elements without
a flag are dropped). -/
theorem C52_filter (hc : HasArrays c asBool) {x y : Opd S U R} {a fs : List (Opd S U R)} {bs : List Bool}
    (hx : x.value = .arr a) (hy : y.value = .arr fs) (ha : Plain a) (hf : Flags asBool fs bs)
    (hlen : fs.length ≤ a.length) (s : σ) :
    call c (opFilter asBool) [x, y] s =
      (.ok (arrayOf (((a.zip bs).filter (·.2)).map (·.1))), s) := by
  have hfl : ∀ e ∈ fs, ∃ v t, e.value = .sc v ∧ asBool v = some t := by
    clear hlen hy
    induction hf with
    | nil => simp
    | cons h _ ih =>
      simp only [List.mem_cons, forall_eq_or_imp]
      exact ⟨⟨_, _, h.choose_spec⟩, ih⟩
  rw [call_filter hc rfl rfl rfl rfl rfl hx hy hfl]
  have hl := filterLoop_eq (els := a) hf 0 (by omega)
  rw [List.drop_zero] at hl
  have hres : ((((a.zip bs).filter (·.2)).map (·.1)).map restore) =
      (((a.zip bs).filter (·.2)).map (·.1)) := by
    apply plain_restore
    intro e he
    simp only [List.mem_map, List.mem_filter] at he
    obtain ⟨⟨e', b⟩, ⟨hm, -⟩, rfl⟩ := he
    exact ha e' (List.of_mem_zip hm).1
  simp only [opFilter, pureRef, arrayAt, hx, hy, bind, Except.bind, pure, Except.pure, hl,
    List.getElem?_cons_zero, List.getElem?_cons_succ]
  simp only [finishResult, hres, arrayOf, Option.getD_none]

/-- **C52**: a true flag without an element raises. -/
theorem C52_filter_too_many (hc : HasArrays c asBool) {x y : Opd S U R} {a fs : List (Opd S U R)} {bs : List Bool}
    (hx : x.value = .arr a) (hy : y.value = .arr fs) (hf : Flags asBool fs bs) {k : ℕ}
    (hk : bs[k]? = some true) (hle : a.length ≤ k) (s : σ) :
    ∃ e, call c (opFilter asBool) [x, y] s = (.error e, s) := by
  have hfl : ∀ e ∈ fs, ∃ v t, e.value = .sc v ∧ asBool v = some t := by
    clear hk hle hy
    induction hf with
    | nil => simp
    | cons h _ ih =>
      simp only [List.mem_cons, forall_eq_or_imp]
      exact ⟨⟨_, _, h.choose_spec⟩, ih⟩
  rw [call_filter hc rfl rfl rfl rfl rfl hx hy hfl]
  obtain ⟨e, he⟩ := filterLoop_short (els := a) hf 0 ⟨k, hk, by omega⟩
  simp [opFilter, pureRef, arrayAt, hx, hy, bind, Except.bind, he]

/-- `r` holds the value, unit and reference of the element `e`; if the value is a number it may
have been given another number type. -/
def IsElement (c : Calc S U R K) (r e : Opd S U R) : Prop :=
  r.unit = e.unit ∧ r.ref = e.ref ∧
    (r.value = e.value ∨ ∃ v k, e.value = .sc v ∧ r.value = .sc (c.setCast k v))

theorem finish_element {op : Operation S U R σ} {k : Option K} {ru : Option U} {v : Val S U R}
    {u : Option U} {ref : Option R} (hv : ∀ l, v = .arr l → Plain l) :
    IsElement c (finishResult c op ru k { value := v, unit := some u, ref := some ref }) ⟨v, u, ref, none⟩ := by
  refine ⟨rfl, rfl, ?_⟩
  unfold finishResult
  dsimp only
  cases v with
  | exc e => exact .inl rfl
  | arr l => left; dsimp only; rw [plain_restore (hv l rfl)]
  | sc w =>
    cases k with
    | none => exact .inl rfl
    | some k =>
      dsimp only
      split
      · exact .inr ⟨w, k, rfl, rfl⟩
      · exact .inl rfl

/-- **C52**: `element(a, i)` is the `i`-th element, counted from 1. -/
theorem C52_element (hc : HasArrays c asBool) {x y : Opd S U R} {a : List (Opd S U R)} {v n : S} {m : Number}
    (hx : x.value = .arr a) (hy : y.value = .sc v) (hv : c.number v = some n) (hm : num? n = some m)
    {i : ℕ} (hi : m.toInt p = (i : ℤ) + 1) {e : Opd S U R} (he : a[i]? = some e)
    (hin : ∀ l, e.value = .arr l → Plain l) (s : σ) :
    ∃ r, call c (opElement p num?) [x, y] s = (.ok r, s) ∧ IsElement c r e := by
  rw [call_element hc rfl rfl rfl rfl rfl rfl hx hy hv]
  have hidx : pyIndex a (m.toInt p - 1) = .ok e := by
    have h1 : m.toInt p - 1 = (i : ℤ) := by omega
    unfold pyIndex
    rw [h1, if_pos (by positivity), Int.toNat_natCast, he]
  simp only [opElement, pureRef, arrayAt, hx, bind, Except.bind, pure, Except.pure, numberOf, hm, hidx,
    List.getElem?_cons_zero, List.getElem?_cons_succ]
  exact ⟨_, rfl, finish_element hin⟩

/-- **C52, exception**: index 0 is not an error but the last element, and negative indices count
from the end too. -/
theorem C52_element_violation (hc : HasArrays c asBool) {x y : Opd S U R} {a : List (Opd S U R)} {v n : S}
    {m : Number} (hx : x.value = .arr a) (hy : y.value = .sc v) (hv : c.number v = some n)
    (hm : num? n = some m) {i : ℕ} (hi : m.toInt p = -(i : ℤ)) {e : Opd S U R} (hlt : i < a.length)
    (he : a[a.length - 1 - i]? = some e) (hin : ∀ l, e.value = .arr l → Plain l) (s : σ) :
    ∃ r, call c (opElement p num?) [x, y] s = (.ok r, s) ∧ IsElement c r e := by
  rw [call_element hc rfl rfl rfl rfl rfl rfl hx hy hv]
  have hidx : pyIndex a (m.toInt p - 1) = .ok e := by
    have h1 : m.toInt p - 1 + a.length = ((a.length - 1 - i : ℕ) : ℤ) := by omega
    unfold pyIndex
    rw [if_neg (by omega), if_pos (by omega), h1, Int.toNat_natCast, he]
  simp only [opElement, pureRef, arrayAt, hx, bind, Except.bind, pure, Except.pure, numberOf, hm, hidx,
    List.getElem?_cons_zero, List.getElem?_cons_succ]
  exact ⟨_, rfl, finish_element hin⟩

/-- **C52**: an index beyond the array raises, in both directions. -/
theorem C52_element_outside (hc : HasArrays c asBool) {x y : Opd S U R} {a : List (Opd S U R)} {v n : S}
    {m : Number} (hx : x.value = .arr a) (hy : y.value = .sc v) (hv : c.number v = some n)
    (hm : num? n = some m) (hi : (a.length : ℤ) < m.toInt p ∨ m.toInt p ≤ -(a.length : ℤ)) (s : σ) :
    ∃ e, call c (opElement p num?) [x, y] s = (.error e, s) := by
  rw [call_element hc rfl rfl rfl rfl rfl rfl hx hy hv]
  have hidx : pyIndex a (m.toInt p - 1) = .error (.py "IndexError") := by
    unfold pyIndex
    rcases hi with hi | hi
    · rw [if_pos (by omega), List.getElem?_eq_none (by omega)]
    · rw [if_neg (by omega), if_neg (by omega)]
  simp [opElement, pureRef, arrayAt, hx, bind, Except.bind, numberOf, hm, hidx]

/-- The array `els` consists of numbers, which are `ns` once brought to a common unit; `ru` is
that unit. -/
def NumbersOf (c : Calc S U R K) (num? : S → Option Number) (op : Operation S U R σ)
    (els : List (Opd S U R)) (ns : List Number) (ru : Option U) : Prop :=
  ∃ nums nums', elementNumbers c els = .ok nums ∧ normed c op nums = .ok (nums', ru) ∧
    nums'.length = els.length ∧ nums'.map (fun v => num? v.1) = ns.map some

theorem keyed_set {els : List (Opd S U R)} {nums' : List (S × Option U)} {ns : List Number}
    (hlen : nums'.length = els.length) (h : nums'.map (fun v => num? v.1) = ns.map some) :
    keyed num? (setElements els nums') = .ok ((setElements els nums').zip ns) := by
  induction els generalizing nums' ns with
  | nil =>
    obtain rfl : nums' = [] := by cases nums' with | nil => rfl | cons => simp at hlen
    simp [setElements, keyed]
  | cons e es ih =>
    cases nums' with
    | nil => simp at hlen
    | cons v vs =>
      cases ns with
      | nil => simp at h
      | cons n ns =>
        simp only [List.map_cons, List.cons.injEq] at h
        simp only [setElements, keyed, numberOf, h.1, bind, Except.bind,
          ih (by simpa using hlen) h.2, pure, Except.pure, List.zip_cons_cons]

theorem setElements_length {els : List (Opd S U R)} {nums' : List (S × Option U)}
    (hlen : nums'.length = els.length) : (setElements els nums').length = els.length := by
  induction els generalizing nums' with
  | nil => cases nums' <;> simp [setElements]
  | cons e es ih =>
    cases nums' with
    | nil => simp at hlen
    | cons v vs => simp [setElements, ih (by simpa using hlen)]

theorem setElements_get {els : List (Opd S U R)} {nums' : List (S × Option U)}
    (hlen : nums'.length = els.length) (i : ℕ) {x : Opd S U R} (h : (setElements els nums')[i]? = some x) :
    ∃ e, els[i]? = some e ∧ x.orig = some (e.value, e.unit) ∧ x.ref = e.ref := by
  induction els generalizing nums' i with
  | nil =>
    have := List.getElem?_eq_some_iff.mp h
    obtain ⟨hi, -⟩ := this
    rw [setElements_length hlen] at hi; simp at hi
  | cons e es ih =>
    cases nums' with
    | nil => simp at hlen
    | cons v vs =>
      cases i with
      | zero =>
        simp only [setElements, List.getElem?_cons_zero, Option.some.injEq] at h
        subst h
        exact ⟨e, rfl, rfl, rfl⟩
      | succ i =>
        simp only [setElements, List.getElem?_cons_succ] at h
        exact ih (by simpa using hlen) i h

theorem restore_set {els : List (Opd S U R)} {nums' : List (S × Option U)} (hp : Plain els)
    (hlen : nums'.length = els.length) : (setElements els nums').map restore = els := by
  induction els generalizing nums' with
  | nil => cases nums' <;> simp [setElements]
  | cons e es ih =>
    cases nums' with
    | nil => simp at hlen
    | cons v vs =>
      have he := hp e (by simp)
      simp only [setElements, List.map_cons, restore, List.cons.injEq]
      refine ⟨?_, ih (fun e' he' => hp e' (by simp [he'])) (by simpa using hlen)⟩
      cases e; simp_all

theorem call_numbersOp (hc : HasArrays c asBool) {name : String}
    {f : List (Opd S U R × Number) → Except Raise (OpResult S U R)} {x : Opd S U R}
    {els : List (Opd S U R)} (hx : x.value = .arr els) {ns : List Number} {ru : Option U}
    (hn : NumbersOf c num? (numbersOp (σ := σ) num? name f) els ns ru) (s : σ) :
    ∃ nums' k, nums'.length = els.length ∧ ns.length = els.length ∧
      call c (numbersOp num? name f) [x] s =
      match f ((setElements els nums').zip ns) with
      | .error e => (.error (wrap c (numbersOp (σ := σ) num? name f) [x] e), s)
      | .ok res => (.ok (finishResult c (numbersOp (σ := σ) num? name f) ru k res), s) := by
  obtain ⟨nums, nums', h1, h2, h3, h4⟩ := hn
  refine ⟨nums', nums.findSome? (fun n => c.cast n.1), h3, ?_, ?_⟩
  · have := congrArg List.length h4; simpa [h3] using this.symm
  · rw [call_numbers hc rfl rfl rfl rfl rfl hx h1 h2]
    simp only [numbersOp, pureRef, arrayAt, List.getElem?_cons_zero, bind, Except.bind,
      keyed_set h3 h4]
    cases f ((setElements els nums').zip ns) <;> rfl

/-- **C52**: `sort` returns a permutation of the elements, each with its own value and unit,
ordered by the numbers brought to a common unit, elements that compare equal staying in order. -/
theorem C52_sort (hc : HasArrays c asBool) {x : Opd S U R} {els : List (Opd S U R)}
    (hx : x.value = .arr els) (hpl : Plain els) {ns : List Number} {ru : Option U}
    (hn : NumbersOf c num? (opSort (σ := σ) p num?) els ns ru) (s : σ) :
    ∃ rs : List (Opd S U R × Number),
      call c (opSort p num?) [x] s = (.ok (arrayOf (rs.map (·.1))), s) ∧
      (rs.map (·.1)).Perm els ∧ rs.Perm (els.zip ns) ∧
      rs.Pairwise (fun a b => b.2.lt p a.2 = false) ∧
      ∀ a b, [a, b].Sublist (els.zip ns) → b.2.lt p a.2 = false → [a, b].Sublist rs := by
  obtain ⟨nums', k, hlen, hnl, hcall⟩ := call_numbersOp hc hx hn s
  have hle : ∀ a b : Opd S U R × Number, (!b.2.lt p a.2) = true ↔ b.2.lt p a.2 = false := by simp
  have htrans : ∀ a b c' : Opd S U R × Number, (!b.2.lt p a.2) = true → (!c'.2.lt p b.2) = true →
      (!c'.2.lt p a.2) = true := by
    intro a b c'
    simp only [Number.lt, Bool.not_eq_true', decide_eq_false_iff_not, not_lt]
    exact fun h1 h2 => h1.trans h2
  have htot : ∀ a b : Opd S U R × Number, ((!b.2.lt p a.2) || (!a.2.lt p b.2)) = true := by
    intro a b
    simp only [Number.lt, Bool.or_eq_true, Bool.not_eq_true', decide_eq_false_iff_not, not_lt]
    exact le_total _ _
  refine ⟨(els.zip ns).mergeSort (fun a b => !b.2.lt p a.2), ?_, ?_, List.mergeSort_perm _ _, ?_, ?_⟩
  · rw [opSort, hcall]
    simp only [finishResult, Option.getD_some, Option.getD_none, arrayOf]
    have e1 : ((setElements els nums').zip ns).map (fun q => (restore q.1, q.2)) = els.zip ns := by
      conv_rhs => rw [← restore_set hpl hlen]
      rw [List.zip_map_left]
      rfl
    have e2 := List.map_mergeSort (f := fun q : Opd S U R × Number => (restore q.1, q.2))
      (r := fun a b => !b.2.lt p a.2) (s := fun a b => !b.2.lt p a.2)
      (l := (setElements els nums').zip ns) (fun a _ b _ => rfl)
    rw [e1] at e2
    rw [← e2]
    simp only [List.map_map, Function.comp_def]
  · have h1 := (List.mergeSort_perm (els.zip ns) (fun a b => !b.2.lt p a.2)).map (·.1)
    have h2 : (els.zip ns).map (·.1) = els := List.map_fst_zip (by omega)
    have h3 : (els.zip ns).map (fun x : Opd S U R × Number => x.1) = els := h2
    rw [h3] at h1
    exact h1
  · exact (List.pairwise_mergeSort htrans htot (els.zip ns)).imp (fun h => (hle _ _).mp h)
  · intro a b hsub hab
    exact List.pair_sublist_mergeSort htrans htot ((hle a b).mpr hab) hsub

end MC.Props
