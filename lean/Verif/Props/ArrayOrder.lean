import Verif.Lemmas.Lists
import Verif.Spec.ArrayOrder

/-! # C83: the elements of an array are computed from left to right -/

namespace MC.Props
open MC MC.Spec

variable {S U R σ : Type}

theorem single_parts {e : List Parse.Item} (h : Single e) : NoArrayParts e := by
  intro it hit k hk
  cases it with
  | leaf k' t =>
    simp only [hasKind, decide_eq_false_iff_not]
    rintro rfl
    exact h t k' hk hit
  | _ => rfl

theorem commas_filter {es : List (List Parse.Item)} {its : List Parse.Item} (h : Commas es its)
    (hs : ∀ e ∈ es, Single e) : its.filter (fun it => !isArrBracket it) = its := by
  have one : ∀ e, Single e → ∀ it ∈ e, (!isArrBracket it) = true := by
    intro e he it hit
    cases it with
    | leaf k t =>
      have h1 : k ≠ .arrStart := by rintro rfl; exact he t .arrStart (by decide) hit
      have h2 : k ≠ .arrEnd := by rintro rfl; exact he t .arrEnd (by decide) hit
      cases k <;> simp_all [isArrBracket]
    | _ => rfl
  induction h with
  | last => exact List.filter_eq_self.2 (one _ (hs _ (by simp)))
  | @more e es t its _ ih =>
    rw [List.filter_append, List.filter_eq_self.2 (one e (hs e (by simp))), List.filter_cons_of_pos (by rfl),
      ih (fun e he => hs e (by simp [he]))]

theorem commas_split {es : List (List Parse.Item)} {its : List Parse.Item} (h : Commas es its)
    (hs : ∀ e ∈ es, Single e) : (splitAtKind .arrParam its).map elementItems = es.map (fun e => ⟨e, none, none⟩) := by
  induction h with
  | @last e =>
    have he := single_parts (hs e (by simp))
    rw [(split_none (he.kind (k := .arrParam) (by decide))).1, List.map_cons, List.map_nil, elementItems_one he]
    rfl
  | @more e es t its _ ih =>
    have he := single_parts (hs e (by simp))
    rw [(split_none (he.kind (k := .arrParam) (by decide))).2, List.map_cons, elementItems_one he,
      ih (fun e he => hs e (by simp [he]))]
    rfl

theorem brackets_filter (its : List Parse.Item) (h : its.filter (fun it => !isArrBracket it) = its) :
    (Parse.Item.leaf .arrStart ['['] :: its ++ [Parse.Item.leaf .arrEnd [']']]).filter (fun it => !isArrBracket it)
      = its := by
  rw [List.cons_append, List.filter_cons_of_neg (by simp [isArrBracket]), List.filter_append, h]
  simp [isArrBracket]

/-- **C83**: the elements of an array are computed from left to right: each sees what the elements before it
have changed, the array has their values in the order they are written in, and every change remains. -/
theorem C83_order (cfg : Config (Opd S U R) σ) (A : RangeCfg S U) (av : Parse.Item → Act σ (Opd S U R))
    {es : List (List Parse.Item)} {its : List Parse.Item} (hc : Commas es its) (hs : ∀ e ∈ es, Single e)
    {s s' : σ} {xs : List (Opd S U R)}
    (hrun : InOrder (fun e => executeNodes cfg av (toNodes e)) es s xs s') (hx : ∀ x ∈ xs, ∀ e, x.value ≠ .exc e) :
    arrayVal cfg A av (.leaf .arrStart ['['] :: its ++ [.leaf .arrEnd [']']]) s
      = (.ok ⟨.arr xs, none, none, none⟩, s') := by
  have key : ∀ {es : List (List Parse.Item)} {s s' : σ} {xs : List (Opd S U R)},
      InOrder (fun e => executeNodes cfg av (toNodes e)) es s xs s' → (∀ x ∈ xs, ∀ e, x.value ≠ .exc e) →
      elementsRun A (fun its => executeNodes cfg av (toNodes its)) (es.map (fun e => ⟨e, none, none⟩)) s = (.ok xs, s') := by
    intro es s s' xs h
    induction h with
    | nil => intro _; rfl
    | @cons e es s x s' xs s'' h1 _ ih =>
      intro hx
      have := ih (fun y hy => hx y (by simp [hy]))
      rw [List.map_cons, elementsRun, elementRun]
      simp only [h1]
      split
      · rename_i heq
        split at heq
        · rename_i e he
          exact absurd he (hx x (by simp) _)
        · cases heq
      · rename_i ys t heq
        split at heq
        · cases heq
        · cases heq
          simp only [this, List.singleton_append]
  unfold arrayVal arrayElements
  rw [brackets_filter its (commas_filter hc hs), commas_split hc hs, key hrun hx]
  rfl

/-- **C83**: an array with an element that cannot be computed fails there: the elements before it have been
computed, those after it have not. -/
theorem C83_order_fails (cfg : Config (Opd S U R) σ) (A : RangeCfg S U) (av : Parse.Item → Act σ (Opd S U R))
    {es after : List (List Parse.Item)} {e its : List Parse.Item} (hc : Commas (es ++ e :: after) its)
    (hs : ∀ e' ∈ es ++ e :: after, Single e')
    {s s' s'' : σ} {xs : List (Opd S U R)} {r : Except Raise (Opd S U R)}
    (hrun : InOrder (fun e => executeNodes cfg av (toNodes e)) es s xs s') (hx : ∀ x ∈ xs, ∀ e, x.value ≠ .exc e)
    (hfail : executeNodes cfg av (toNodes e) s' = (r, s''))
    (hr : (∃ f, r = .error f) ∨ ∃ x f, r = .ok x ∧ x.value = .exc (.exec f)) :
    ∃ f, arrayVal cfg A av (.leaf .arrStart ['['] :: its ++ [.leaf .arrEnd [']']]) s = (.error f, s'') := by
  have key : ∀ {es : List (List Parse.Item)} {s : σ} {xs : List (Opd S U R)},
      InOrder (fun e => executeNodes cfg av (toNodes e)) es s xs s' → (∀ x ∈ xs, ∀ e, x.value ≠ .exc e) →
      ∃ f, elementsRun A (fun its => executeNodes cfg av (toNodes its))
        ((es ++ e :: after).map (fun e => ⟨e, none, none⟩)) s = (.error f, s'') := by
    intro es s xs h
    generalize hq : s' = q at h
    induction h with
    | nil =>
      intro _
      subst hq
      rw [List.nil_append, List.map_cons, elementsRun, elementRun]
      simp only [hfail]
      rcases hr with ⟨f, rfl⟩ | ⟨x, f, rfl, hf⟩
      · exact ⟨_, rfl⟩
      · simp only [hf]
        exact ⟨_, rfl⟩
    | @cons e es s x s1 xs s2 h1 _ ih =>
      intro hx
      obtain ⟨f, hf⟩ := ih hq (fun y hy => hx y (by simp [hy]))
      refine ⟨f, ?_⟩
      rw [List.cons_append, List.map_cons, elementsRun, elementRun]
      simp only [h1]
      split
      · rename_i heq
        split at heq
        · rename_i e he
          exact absurd he (hx x (by simp) _)
        · cases heq
      · rename_i ys t heq
        split at heq
        · cases heq
        · cases heq
          simp only [hf]
  obtain ⟨f, hf⟩ := key hrun hx
  refine ⟨f, ?_⟩
  unfold arrayVal arrayElements
  rw [brackets_filter its (commas_filter hc hs), commas_split hc hs, hf]

/-! ### Examples -/

/-- An engine without operators. -/
def countEngine : Config (Opd ℕ Empty Empty) ℕ :=
  ⟨[], none, none, none, none, none, fun _ => false, fun e => ⟨.exc (.exec e), none, none, none⟩,
    fun _ => none, fun _ => none⟩

/-- Numbers answer a counter and move it on; other words fail. -/
def countWord : Parse.Item → Act ℕ (Opd ℕ Empty Empty)
  | .leaf .num _, s => (.ok ⟨.sc s, none, none, none⟩, s + 1)
  | _, s => (.error (.calc "no"), s)

/-- An array without ranges. -/
def noRange : RangeCfg ℕ Empty := ⟨30, 0, fun _ => none, fun _ => false, fun w _ => w, fun u => nomatch u.2⟩

/-- `[n, n]`, where each `n` is a step of a counter at 5. -/
example : arrayVal countEngine noRange countWord
    (.leaf .arrStart ['['] :: ([.leaf .num ['n']] ++ .leaf .arrParam [','] :: [.leaf .num ['n']]) ++ [.leaf .arrEnd [']']]) 5
    = (.ok ⟨.arr [⟨.sc 5, none, none, none⟩, ⟨.sc 6, none, none, none⟩], none, none, none⟩, 7) := by
  refine C83_order countEngine noRange countWord (.more .last) ?_ (.cons rfl (.cons rfl .nil)) ?_
  · intro e he t k hk
    simp only [List.mem_cons, List.not_mem_nil, or_false] at he hk
    rcases he with rfl | rfl <;> rcases hk with rfl | rfl | rfl | rfl | rfl <;> simp
  · intro x hx e
    simp only [List.mem_cons, List.not_mem_nil, or_false] at hx
    rcases hx with rfl | rfl <;> simp

/-- `[n, true, n]`: the counter is moved on once. -/
example : ∃ f, arrayVal countEngine noRange countWord
    (.leaf .arrStart ['['] :: ([.leaf .num ['n']] ++ .leaf .arrParam [','] :: ([.leaf .bool "true".toList]
      ++ .leaf .arrParam [','] :: [.leaf .num ['n']])) ++ [.leaf .arrEnd [']']]) 5 = (.error f, 6) := by
  refine C83_order_fails countEngine noRange countWord (es := [[.leaf .num ['n']]]) (e := [.leaf .bool "true".toList])
    (after := [[.leaf .num ['n']]]) (s' := 6) (.more (.more .last)) ?_ (.cons rfl .nil) ?_ rfl
    (.inr ⟨_, _, rfl, rfl⟩)
  · intro e he t k hk
    simp only [List.cons_append, List.nil_append, List.mem_cons, List.not_mem_nil, or_false] at he hk
    rcases he with rfl | rfl | rfl <;> rcases hk with rfl | rfl | rfl | rfl | rfl <;> simp
  · intro x hx e
    simp only [List.mem_cons, List.not_mem_nil, or_false] at hx
    subst hx
    simp

end MC.Props
