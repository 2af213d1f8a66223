import Mathlib.Tactic.Ring
import Mathlib.Tactic.FieldSimp
import Mathlib.Tactic.Linarith
import Mathlib.Data.List.Perm.Basic
import Mathlib.Data.List.Nodup
import Verif.Spec.Units

/-! # Power lists: exponents, sizes and dimensions under the operations -/

set_option linter.unusedSectionVars false
set_option linter.unnecessarySeqFocus false

namespace MC.Unit
open Spec

section
variable {A : Type} [DecidableEq A]

@[simp] theorem total_nil (k : A) : total [] k = 0 := rfl

theorem total_cons (o : A × ℚ) (l : PL A) (k : A) :
    total (o :: l) k = (if o.1 = k then o.2 else 0) + total l k := by
  unfold total
  by_cases h : o.1 = k <;> simp [h]

theorem total_append (l m : PL A) (k : A) : total (l ++ m) k = total l k + total m k := by
  simp [total]

theorem find_none {k : A} {l : PL A} : find k l = none ↔ k ∉ l.map (·.1) := by
  simp only [find, Option.map_eq_none_iff, List.find?_eq_none, decide_eq_true_eq, List.mem_map,
    not_exists, not_and]

theorem find_some {k : A} {l : PL A} {p : ℚ} (h : find k l = some p) : (k, p) ∈ l := by
  unfold find at h
  rw [Option.map_eq_some_iff] at h
  obtain ⟨o, ho, rfl⟩ := h
  have h1 := List.find?_some ho
  have h2 := List.mem_of_find?_eq_some ho
  simp only [decide_eq_true_eq] at h1
  subst h1
  exact h2

theorem total_bump (k : A) (p : ℚ) (l : PL A) (h : k ∈ l.map (·.1)) (x : A) :
    total (bump k p l) x = total l x + if k = x then p else 0 := by
  induction l with
  | nil => simp at h
  | cons o l ih =>
    unfold bump
    by_cases hk : o.1 = k
    · rw [if_pos hk]
      by_cases hz : o.2 + p = 0
      · rw [if_pos hz, total_cons]
        subst hk
        split <;> linarith
      · rw [if_neg hz, total_cons, total_cons]
        subst hk
        split <;> simp <;> ring
    · rw [if_neg hk, total_cons, total_cons, ih]
      · ring
      · simp only [List.map_cons, List.mem_cons] at h
        rcases h with h | h
        · exact absurd h.symm hk
        · exact h

theorem total_add (k : A) (p : ℚ) (l : PL A) (x : A) :
    total (add k p l) x = total l x + if k = x then p else 0 := by
  unfold add
  cases h : find k l with
  | none => simp only [total_append, total_cons, total_nil, add_zero]
  | some q =>
    simp only
    exact total_bump k p l (List.mem_map.2 ⟨_, find_some h, rfl⟩) x

theorem keys_bump (k : A) (p : ℚ) (l : PL A) :
    ((bump k p l).map (·.1)).Sublist (l.map (·.1)) := by
  induction l with
  | nil => exact List.Sublist.refl _
  | cons o l ih =>
    unfold bump
    split
    · split
      · exact List.sublist_cons_self _ _
      · exact List.Sublist.refl _
    · exact ih.cons_cons _

theorem nonzero_bump (k : A) (p : ℚ) (l : PL A) (h : ∀ o ∈ l, o.2 ≠ 0) :
    ∀ o ∈ bump k p l, o.2 ≠ 0 := by
  induction l with
  | nil => simp [bump]
  | cons o l ih =>
    have h' : ∀ o ∈ l, o.2 ≠ 0 := fun o ho => h o (List.mem_cons_of_mem _ ho)
    unfold bump
    split
    · split
      · exact h'
      · rename_i hz
        intro o' ho'
        rcases List.mem_cons.1 ho' with rfl | ho'
        · exact hz
        · exact h' o' ho'
    · intro o' ho'
      rcases List.mem_cons.1 ho' with rfl | ho'
      · exact h _ List.mem_cons_self
      · exact ih h' o' ho'

theorem proper_nil : Proper ([] : PL A) := ⟨List.nodup_nil, by simp⟩

theorem proper_add {k : A} {p : ℚ} {l : PL A} (h : Proper l) (hp : p ≠ 0) : Proper (add k p l) := by
  unfold add
  cases hf : find k l with
  | none =>
    simp only
    have hk := find_none.1 hf
    refine ⟨?_, ?_⟩
    · rw [List.map_append, List.nodup_append]
      refine ⟨h.1, by simp, ?_⟩
      intro a ha b hb
      simp only [List.map_cons, List.map_nil, List.mem_singleton] at hb
      subst hb
      exact fun e => hk (e ▸ ha)
    · intro o ho
      rcases List.mem_append.1 ho with ho | ho
      · exact h.2 o ho
      · rw [List.mem_singleton] at ho; subst ho; exact hp
  | some q =>
    simp only
    exact ⟨(keys_bump k p l).nodup h.1, nonzero_bump k p l h.2⟩

theorem total_foldl_add (f : ℚ → ℚ) (m l : PL A) (x : A) :
    total (m.foldl (fun acc o => add o.1 (f o.2) acc) l) x
      = total l x + total (m.map (fun o => (o.1, f o.2))) x := by
  induction m generalizing l with
  | nil => simp
  | cons o m ih =>
    simp only [List.foldl_cons, List.map_cons]
    rw [ih, total_add, total_cons]
    simp only
    ring

theorem total_multiply (p : ℚ) (l : PL A) (x : A) : total (multiply p l) x = p * total l x := by
  induction l with
  | nil => simp [multiply]
  | cons o l ih =>
    have : multiply p (o :: l) = (o.1, o.2 * p) :: multiply p l := rfl
    rw [this, total_cons, total_cons, ih]
    split <;> simp <;> ring

theorem total_addAll (m : PL A) (p : ℚ) (l : PL A) (x : A) :
    total (addAll m p l) x = total l x + p * total m x := by
  unfold addAll
  rw [total_foldl_add (fun q => q * p), ← total_multiply]
  rfl

theorem total_merge (l m : PL A) (x : A) : total (merge l m) x = total l x + total m x := by
  unfold merge
  rw [total_foldl_add (fun q => q)]
  simp

theorem proper_addAll {m : PL A} {p : ℚ} {l : PL A} (h : Proper l) (hm : ∀ o ∈ m, o.2 ≠ 0)
    (hp : p ≠ 0) : Proper (addAll m p l) := by
  unfold addAll
  induction m generalizing l with
  | nil => exact h
  | cons o m ih =>
    rw [List.foldl_cons]
    exact ih (proper_add h (mul_ne_zero (hm o List.mem_cons_self) hp))
      (fun o' ho' => hm o' (List.mem_cons_of_mem _ ho'))

theorem proper_merge {l m : PL A} (h : Proper l) (hm : ∀ o ∈ m, o.2 ≠ 0) : Proper (merge l m) := by
  unfold merge
  induction m generalizing l with
  | nil => exact h
  | cons o m ih =>
    rw [List.foldl_cons]
    exact ih (proper_add h (hm o List.mem_cons_self))
      (fun o' ho' => hm o' (List.mem_cons_of_mem _ ho'))

theorem total_removeZeros (l : PL A) (x : A) : total (removeZeros l) x = total l x := by
  induction l with
  | nil => rfl
  | cons o l ih =>
    unfold removeZeros at ih ⊢
    rw [List.filter_cons]
    by_cases h : o.2 = 0
    · simp only [h, ne_eq, not_true_eq_false, decide_false, Bool.false_eq_true, if_false, ih]
      rw [total_cons, h]
      simp
    · simp only [h, ne_eq, not_false_eq_true, decide_true, if_true]
      rw [total_cons, total_cons, ih]

theorem checkEmpty_getD (l : PL A) : (checkEmpty l).getD [] = l := by
  unfold checkEmpty
  split
  · rename_i h; rw [List.length_eq_zero_iff] at h; simp [h]
  · rfl

theorem checkEmpty_some {l m : PL A} (h : checkEmpty l = some m) : m = l ∧ m ≠ [] := by
  unfold checkEmpty at h
  split at h
  · exact absurd h (by simp)
  · rename_i hl
    cases h
    exact ⟨rfl, fun e => hl (by simp [e])⟩

theorem checkEmpty_none {l : PL A} : checkEmpty l = none ↔ l = [] := by
  unfold checkEmpty
  split <;> simp_all

theorem proper_removeZeros_multiply {l : PL A} (h : (l.map (·.1)).Nodup) (p : ℚ) :
    Proper (removeZeros (multiply p l)) := by
  refine ⟨?_, ?_⟩
  · refine (List.Sublist.map _ List.filter_sublist).nodup (l₂ := (multiply p l).map (·.1)) ?_
    simpa [multiply, Function.comp_def] using h
  · intro o ho
    simpa using (List.mem_filter.1 ho).2

theorem total_not_mem {l : PL A} {k : A} (h : k ∉ l.map (·.1)) : total l k = 0 := by
  induction l with
  | nil => rfl
  | cons o l ih =>
    simp only [List.map_cons, List.mem_cons, not_or] at h
    rw [total_cons, if_neg (fun e => h.1 e.symm), ih h.2, add_zero]

theorem total_of_mem {l : PL A} (h : (l.map (·.1)).Nodup) {o : A × ℚ} (ho : o ∈ l) :
    total l o.1 = o.2 := by
  induction l with
  | nil => simp at ho
  | cons a l ih =>
    simp only [List.map_cons, List.nodup_cons] at h
    rw [total_cons]
    rcases List.mem_cons.1 ho with rfl | ho
    · rw [if_pos rfl, total_not_mem h.1, add_zero]
    · rw [if_neg, ih h.2 ho, zero_add]
      exact fun e => h.1 (e ▸ List.mem_map.2 ⟨o, ho, rfl⟩)

theorem mem_iff_total {l : PL A} (h : Proper l) (k : A) (p : ℚ) :
    (k, p) ∈ l ↔ total l k = p ∧ p ≠ 0 := by
  constructor
  · intro hm
    exact ⟨total_of_mem h.1 hm, h.2 _ hm⟩
  · rintro ⟨ht, hp⟩
    by_cases hk : k ∈ l.map (·.1)
    · obtain ⟨o, ho, rfl⟩ := List.mem_map.1 hk
      have := total_of_mem h.1 ho
      rw [← ht, this]
      exact ho
    · exact absurd ((total_not_mem hk).symm.trans ht).symm hp

theorem proper_nodup {l : PL A} (h : Proper l) : l.Nodup := List.Nodup.of_map _ h.1

/-- Proper lists with the same exponents have the same entries. -/
theorem perm_of_total {l m : PL A} (hl : Proper l) (hm : Proper m)
    (h : ∀ x, total l x = total m x) : l.Perm m := by
  rw [List.perm_ext_iff_of_nodup (proper_nodup hl) (proper_nodup hm)]
  rintro ⟨k, p⟩
  rw [mem_iff_total hl, mem_iff_total hm, h]

theorem total_perm {l m : PL A} (h : l.Perm m) (x : A) : total l x = total m x := by
  unfold total
  exact ((h.filter _).map _).sum_eq

theorem same_iff {l m : PL A} : same l m = true ↔ l.Perm m := by
  unfold same
  exact List.isPerm_iff

theorem same_iff_total {l m : PL A} (hl : Proper l) (hm : Proper m) :
    same l m = true ↔ ∀ x, total l x = total m x := by
  rw [same_iff]
  exact ⟨fun h x => total_perm h x, perm_of_total hl hm⟩

theorem same_refl (l : PL A) : same l l = true := same_iff.2 (List.Perm.refl _)

theorem total_newList (a b : PL A) (p q : ℚ) (x : A) :
    totalO (newList [(a, p), (b, q)]) x = p * total a x + q * total b x := by
  unfold totalO newList
  rw [checkEmpty_getD]
  simp only [List.foldl_cons, List.foldl_nil, total_addAll, total_nil, zero_add]

theorem proper_newList {a b l : PL A} {p q : ℚ} (ha : ∀ o ∈ a, o.2 ≠ 0) (hb : ∀ o ∈ b, o.2 ≠ 0)
    (hp : p ≠ 0) (hq : q ≠ 0) (h : newList [(a, p), (b, q)] = some l) : Proper l := by
  unfold newList at h
  rw [(checkEmpty_some h).1]
  exact proper_addAll (proper_addAll proper_nil ha hp) hb hq

theorem proper_eq_nil {l : PL A} (h : Proper l) (ht : ∀ x, total l x = 0) : l = [] := by
  cases l with
  | nil => rfl
  | cons o l =>
    have := total_of_mem h.1 (List.mem_cons_self (a := o) (l := l))
    exact absurd (this.symm.trans (ht _)) (h.2 o List.mem_cons_self)

end

section
variable {U D K : Type} [DecidableEq U] [DecidableEq D] [Field K]
variable {pw : K → ℚ → K} {N : Norm U D K}

theorem pow_ne {s : K} (h : PowLaw pw s) (p : ℚ) : pw s p ≠ 0 := by
  intro e
  have := h.2 p (-p)
  rw [add_neg_cancel, h.1, e, zero_mul] at this
  exact one_ne_zero this

theorem pow_neg {s : K} (h : PowLaw pw s) (p : ℚ) : pw s (-p) = (pw s p)⁻¹ := by
  have := h.2 p (-p)
  rw [add_neg_cancel, h.1] at this
  exact (eq_inv_of_mul_eq_one_right this.symm)

@[simp] theorem size_nil : size pw N [] = 1 := rfl

theorem size_cons (o : U × ℚ) (l : PL U) :
    size pw N (o :: l) = pw (stepSize (N.info o.1)) o.2 * size pw N l := by simp [size]

theorem size_append (l m : PL U) : size pw N (l ++ m) = size pw N l * size pw N m := by
  simp [size]

theorem size_ne (hL : Lawful pw N) (l : PL U) : size pw N l ≠ 0 := by
  induction l with
  | nil => simp
  | cons o l ih => rw [size_cons]; exact mul_ne_zero (pow_ne (hL.2 _) _) ih

theorem size_bump (hL : Lawful pw N) (k : U) (p : ℚ) (l : PL U) (h : k ∈ l.map (·.1)) :
    size pw N (bump k p l) = size pw N l * pw (stepSize (N.info k)) p := by
  induction l with
  | nil => simp at h
  | cons o l ih =>
    unfold bump
    by_cases hk : o.1 = k
    · rw [if_pos hk]
      by_cases hz : o.2 + p = 0
      · rw [if_pos hz, size_cons]
        have := (hL.2 k).2 o.2 p
        rw [hz, (hL.2 k).1] at this
        rw [hk, mul_right_comm, ← this, one_mul]
      · rw [if_neg hz, size_cons, size_cons]
        simp only
        rw [(hL.2 _).2, hk]
        ring
    · rw [if_neg hk, size_cons, size_cons, ih]
      · ring
      · simp only [List.map_cons, List.mem_cons] at h
        rcases h with h | h
        · exact absurd h.symm hk
        · exact h

theorem size_add (hL : Lawful pw N) (k : U) (p : ℚ) (l : PL U) :
    size pw N (add k p l) = size pw N l * pw (stepSize (N.info k)) p := by
  unfold add
  cases h : find k l with
  | none => simp only [size_append, size_cons, size_nil, mul_one]
  | some q =>
    simp only
    exact size_bump hL k p l (List.mem_map.2 ⟨_, find_some h, rfl⟩)

theorem size_multiply_add (hL : Lawful pw N) (m : PL U) (p : ℚ) (l : PL U) :
    size pw N (addAll m p l) = size pw N l * size pw N (multiply p m) := by
  unfold addAll
  induction m generalizing l with
  | nil => simp [multiply]
  | cons o m ih =>
    have hm : multiply p (o :: m) = (o.1, o.2 * p) :: multiply p m := rfl
    rw [List.foldl_cons, ih, size_add hL, hm, size_cons]
    ring

theorem multiply_one (l : PL U) : multiply 1 l = l := by simp [multiply]

theorem size_multiply_neg (hL : Lawful pw N) (l : PL U) :
    size pw N (multiply (-1) l) = (size pw N l)⁻¹ := by
  induction l with
  | nil => simp [multiply]
  | cons o l ih =>
    have hm : multiply (-1) (o :: l) = (o.1, o.2 * -1) :: multiply (-1) l := rfl
    rw [hm, size_cons, size_cons, ih, mul_neg_one, pow_neg (hL.2 _), mul_inv]

theorem size_removeZeros (hL : Lawful pw N) (l : PL U) :
    size pw N (removeZeros l) = size pw N l := by
  induction l with
  | nil => rfl
  | cons o l ih =>
    unfold removeZeros at ih ⊢
    rw [List.filter_cons]
    by_cases h : o.2 = 0
    · simp only [h, ne_eq, not_true_eq_false, decide_false, Bool.false_eq_true, if_false, ih]
      rw [size_cons, h, (hL.2 _).1, one_mul]
    · simp only [h, ne_eq, not_false_eq_true, decide_true, if_true]
      rw [size_cons, size_cons, ih]

theorem size_perm {l m : PL U} (h : l.Perm m) : size pw N l = size pw N m :=
  (h.map _).prod_eq

/-- Converting by a proportional unit divides by a power of its size. -/
theorem convert_ok (hL : Lawful pw N) (u : U) (v : K) (p : ℚ) (r : Bool)
    (h : r = true ∨ (N.info u).kind = .scale) :
    convert pw (N.info u) v p r = .ok (v / pw (stepSize (N.info u)) p) := by
  unfold convert stepSize
  rcases h with h | h
  · subst h
    cases (N.info u).kind <;> simp [hL.1]
  · rw [h]

theorem convertList_ok (hL : Lawful pw N) (l : PL U) (v : K) (p : ℚ) (r : Bool)
    (h : Proportional N r l) :
    convertList pw N.info l v p r = .ok (v / size pw N (multiply p l)) := by
  induction l generalizing v with
  | nil => simp [convertList, multiply]
  | cons o l ih =>
    have hm : multiply p (o :: l) = (o.1, o.2 * p) :: multiply p l := rfl
    unfold convertList
    rw [convert_ok hL o.1 v _ r (h o List.mem_cons_self)]
    show convertList pw N.info l _ p r = _
    rw [ih _ (fun o' ho' => h o' (List.mem_cons_of_mem _ ho')), hm, size_cons, div_div]

/-! Dimensions -/

@[simp] theorem dimOf_nil (d : D) : dimOf N [] d = 0 := rfl

theorem dimOf_cons (o : U × ℚ) (l : PL U) (d : D) :
    dimOf N (o :: l) d = o.2 * unitDim N o.1 d + dimOf N l d := by simp [dimOf]

theorem dimOf_append (l m : PL U) (d : D) : dimOf N (l ++ m) d = dimOf N l d + dimOf N m d := by
  simp [dimOf]

theorem dimOf_bump (k : U) (p : ℚ) (l : PL U) (h : k ∈ l.map (·.1)) (d : D) :
    dimOf N (bump k p l) d = dimOf N l d + p * unitDim N k d := by
  induction l with
  | nil => simp at h
  | cons o l ih =>
    unfold bump
    by_cases hk : o.1 = k
    · rw [if_pos hk]
      by_cases hz : o.2 + p = 0
      · rw [if_pos hz, dimOf_cons, hk]
        have : p = -o.2 := by linarith
        rw [this]; ring
      · rw [if_neg hz, dimOf_cons, dimOf_cons]
        simp only [hk]
        ring
    · rw [if_neg hk, dimOf_cons, dimOf_cons, ih]
      · ring
      · simp only [List.map_cons, List.mem_cons] at h
        rcases h with h | h
        · exact absurd h.symm hk
        · exact h

theorem dimOf_add (k : U) (p : ℚ) (l : PL U) (d : D) :
    dimOf N (add k p l) d = dimOf N l d + p * unitDim N k d := by
  unfold add
  cases h : find k l with
  | none => simp only [dimOf_append, dimOf_cons, dimOf_nil, add_zero]
  | some q =>
    simp only
    exact dimOf_bump k p l (List.mem_map.2 ⟨_, find_some h, rfl⟩) d

theorem dimOf_addAll (m : PL U) (p : ℚ) (l : PL U) (d : D) :
    dimOf N (addAll m p l) d = dimOf N l d + p * dimOf N m d := by
  unfold addAll
  induction m generalizing l with
  | nil => simp
  | cons o m ih =>
    rw [List.foldl_cons, ih, dimOf_add, dimOf_cons]
    ring

theorem dimOf_multiply (p : ℚ) (l : PL U) (d : D) : dimOf N (multiply p l) d = p * dimOf N l d := by
  induction l with
  | nil => simp [multiply]
  | cons o l ih =>
    have hm : multiply p (o :: l) = (o.1, o.2 * p) :: multiply p l := rfl
    rw [hm, dimOf_cons, dimOf_cons, ih]
    ring

theorem dimOf_perm {l m : PL U} (h : l.Perm m) (d : D) : dimOf N l d = dimOf N m d :=
  (h.map _).sum_eq

theorem total_normDim (u : U) (d : D) :
    total (normDim N (N.info u).dim) d = unitDim N u d := by
  unfold normDim unitDim
  cases N.rel (N.info u).dim with
  | some l => rfl
  | none => simp only; rw [total_cons]; simp

end
end MC.Unit
