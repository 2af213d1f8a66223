import Mathlib.Data.List.Forall2
import Mathlib.Data.List.Basic
import Mathlib.Tactic.Positivity
import Mathlib.Tactic.Push
import Verif.Lemmas.Units

/-! # `find_units_matching_dimensions`: the odometer visits every combination once -/

set_option linter.unusedSectionVars false

namespace MC.Unit
open Spec

/-- The counter is its minimum plus `k`. -/
def Ok (b : ℚ × ℚ) (c : ℚ) : Prop := ∃ k : ℕ, c = b.1 + k ∧ k < width b

def Valid (bs : List (ℚ × ℚ)) (cs : List ℚ) : Prop := List.Forall₂ Ok bs cs

theorem width_spec {b : ℚ × ℚ} (h : b.1 ≤ b.2) (k : ℕ) : k < width b ↔ b.1 + k ≤ b.2 := by
  unfold width
  have h0 : 0 ≤ ⌊b.2 - b.1⌋ := Int.floor_nonneg.2 (by linarith)
  have h1 : ((⌊b.2 - b.1⌋.toNat : ℕ) : ℤ) = ⌊b.2 - b.1⌋ := Int.toNat_of_nonneg h0
  have h2 : ((k : ℤ) ≤ ⌊b.2 - b.1⌋) ↔ ((k : ℚ) ≤ b.2 - b.1) := by
    rw [Int.le_floor]; simp
  constructor
  · intro h
    have : (k : ℤ) ≤ ⌊b.2 - b.1⌋ := by omega
    have := h2.1 this
    linarith
  · intro h
    have : (k : ℤ) ≤ ⌊b.2 - b.1⌋ := h2.2 (by linarith)
    omega

/-- The position of a counter in the order of the loop. -/
def rank : List (ℚ × ℚ) → List ℚ → ℕ
  | b :: bs, c :: cs => ⌊c - b.1⌋.toNat + width b * rank bs cs
  | _, _ => 0

theorem rank_cons {b : ℚ × ℚ} {bs : List (ℚ × ℚ)} {cs : List ℚ} (k : ℕ) :
    rank (b :: bs) ((b.1 + k) :: cs) = k + width b * rank bs cs := by
  rw [rank]
  have : b.1 + (k : ℚ) - b.1 = k := by ring
  rw [this]
  simp

theorem width_pos (b : ℚ × ℚ) : 0 < width b := Nat.succ_pos _

theorem rank_lt {bs : List (ℚ × ℚ)} {cs : List ℚ} (h : Valid bs cs) :
    rank bs cs < (bs.map width).prod := by
  induction h with
  | nil => simp [rank]
  | cons hb _ ih =>
    rename_i b c bs cs _
    obtain ⟨k, rfl, hk⟩ := hb
    rw [rank_cons, List.map_cons, List.prod_cons]
    calc k + width b * rank bs cs < width b + width b * rank bs cs := by omega
      _ = width b * (rank bs cs + 1) := by ring
      _ ≤ width b * (bs.map width).prod := Nat.mul_le_mul_left _ ih

theorem rank_inj {bs : List (ℚ × ℚ)} {cs ds : List ℚ} (h : Valid bs cs) (h' : Valid bs ds)
    (e : rank bs cs = rank bs ds) : cs = ds := by
  induction h generalizing ds with
  | nil => cases h'; rfl
  | cons hb _ ih =>
    rename_i b c bs cs _
    cases h' with
    | cons hb' hv =>
      rename_i d ds
      obtain ⟨k, rfl, hk⟩ := hb
      obtain ⟨j, rfl, hj⟩ := hb'
      rw [rank_cons, rank_cons] at e
      have h1 := congrArg (· % width b) e
      simp only [Nat.add_mul_mod_self_left, Nat.mod_eq_of_lt hk, Nat.mod_eq_of_lt hj] at h1
      subst h1
      have h2 : rank bs cs = rank bs ds :=
        Nat.eq_of_mul_eq_mul_left (width_pos b) (Nat.add_left_cancel e)
      rw [ih hv h2]

/-- One step of the odometer goes to the next counter, and stops after the last. -/
theorem tick_spec {bs : List (ℚ × ℚ)} {cs : List ℚ} (hb : ∀ b ∈ bs, b.1 ≤ b.2)
    (h : Valid bs cs) :
    (rank bs cs + 1 = (bs.map width).prod ∧ tick bs cs = none) ∨
    (∃ cs', tick bs cs = some cs' ∧ Valid bs cs' ∧ rank bs cs' = rank bs cs + 1) := by
  induction h with
  | nil => left; simp [rank, tick]
  | cons hc hv ih =>
    rename_i b c bs cs
    have ih := ih (fun x hx => hb x (List.mem_cons_of_mem _ hx))
    obtain ⟨k, rfl, hk⟩ := hc
    have hbb := hb b List.mem_cons_self
    have hover : b.2 < b.1 + (k : ℚ) + 1 ↔ ¬ (k + 1 < width b) := by
      rw [width_spec hbb]
      push_cast
      rw [not_le]
      constructor <;> intro h <;> linarith
    rw [rank_cons, List.map_cons, List.prod_cons]
    unfold tick
    by_cases ho : k + 1 < width b
    · rw [if_neg (fun e => hover.1 e ho)]
      right
      refine ⟨_, rfl, List.Forall₂.cons ⟨k + 1, by push_cast; ring, ho⟩ hv, ?_⟩
      have : b.1 + (k : ℚ) + 1 = b.1 + ((k + 1 : ℕ) : ℚ) := by push_cast; ring
      rw [this, rank_cons]
      omega
    · rw [if_pos (hover.2 ho)]
      have hk1 : k + 1 = width b := by omega
      rcases ih with ⟨h1, h2⟩ | ⟨cs', h1, h2, h3⟩
      · left
        rw [h2]
        refine ⟨?_, rfl⟩
        rw [← h1]
        calc k + width b * rank bs cs + 1 = (k + 1) + width b * rank bs cs := by ring
          _ = width b * (rank bs cs + 1) := by rw [hk1]; ring
      · right
        rw [h1]
        refine ⟨_, rfl, List.Forall₂.cons ⟨0, by simp, width_pos b⟩ h2, ?_⟩
        have : b.1 = b.1 + ((0 : ℕ) : ℚ) := by simp
        conv_lhs => rw [this, rank_cons, h3]
        calc 0 + width b * (rank bs cs + 1) = width b + width b * rank bs cs := by ring
          _ = k + width b * rank bs cs + 1 := by rw [← hk1]; ring

theorem walk_spec {bs : List (ℚ × ℚ)} (hb : ∀ b ∈ bs, b.1 ≤ b.2) (n : ℕ) (cs : List ℚ)
    (h : Valid bs cs) (hn : rank bs cs + n = (bs.map width).prod) :
    (∀ x ∈ walk bs n cs, Valid bs x) ∧ (walk bs n cs).map (rank bs) = List.range' (rank bs cs) n := by
  induction n generalizing cs with
  | zero => simp [walk]
  | succ n ih =>
    unfold walk
    rcases tick_spec hb h with ⟨h1, h2⟩ | ⟨cs', h1, h2, h3⟩
    · have : n = 0 := by omega
      subst this
      rw [h2]
      simp [h]
    · rw [h1]
      have := ih cs' h2 (by omega)
      simp only [List.map_cons, this.2, h3, List.range'_succ]
      refine ⟨?_, trivial⟩
      intro x hx
      rcases List.mem_cons.1 hx with rfl | hx
      · exact h
      · exact this.1 x hx

theorem valid_mins (bs : List (ℚ × ℚ)) : Valid bs (bs.map (·.1)) := by
  induction bs with
  | nil => exact List.Forall₂.nil
  | cons b bs ih => exact List.Forall₂.cons ⟨0, by simp, width_pos b⟩ ih

theorem rank_mins (bs : List (ℚ × ℚ)) : rank bs (bs.map (·.1)) = 0 := by
  induction bs with
  | nil => rfl
  | cons b bs ih =>
    have : b.1 = b.1 + ((0 : ℕ) : ℚ) := by simp
    rw [List.map_cons]
    conv_lhs => rw [this, rank_cons, ih]
    simp

theorem bounds_le (p : ℚ) : (bounds p).1 ≤ (bounds p).2 := by
  unfold bounds
  split
  · exact le_of_lt ‹_›
  · exact not_lt.1 ‹_›

theorem forall₂_reverse {α β : Type} {R : α → β → Prop} {l : List α} {m : List β}
    (h : List.Forall₂ R l m) : List.Forall₂ R l.reverse m.reverse := List.rel_reverse h

/-- The loop looks at exactly the counters within the bounds, each once. -/
theorem counters_spec (ps : List ℚ) :
    (counters ps).Nodup ∧ ∀ c, c ∈ counters ps ↔ Valid (ps.map bounds) c := by
  have hb : ∀ b ∈ (ps.map bounds).reverse, b.1 ≤ b.2 := by
    intro b hb
    rw [List.mem_reverse, List.mem_map] at hb
    obtain ⟨p, _, rfl⟩ := hb
    exact bounds_le p
  have hw := walk_spec hb _ _ (valid_mins _) (by rw [rank_mins, Nat.zero_add])
  rw [rank_mins] at hw
  constructor
  · unfold counters
    refine List.Nodup.map List.reverse_injective ?_
    exact List.Nodup.of_map _ (by rw [hw.2]; exact List.nodup_range')
  · intro c
    unfold counters
    simp only [List.mem_map]
    constructor
    · rintro ⟨x, hx, rfl⟩
      have := forall₂_reverse (hw.1 x hx)
      rwa [List.reverse_reverse] at this
    · intro h
      have hr : Valid (ps.map bounds).reverse c.reverse := forall₂_reverse h
      have hlt := rank_lt hr
      have : rank (ps.map bounds).reverse c.reverse ∈
          List.range' 0 (((ps.map bounds).reverse.map width).prod) := by
        rw [List.mem_range']
        exact ⟨_, hlt, by simp⟩
      rw [← hw.2] at this
      obtain ⟨y, hy, he⟩ := List.mem_map.1 this
      have := rank_inj (hw.1 y hy) hr he
      exact ⟨y, hy, by rw [this, List.reverse_reverse]⟩

section
variable {U D K : Type} [DecidableEq U] [DecidableEq D] [Field K] {N : Norm U D K}

theorem goalAt_eq {g : PL D} (h : (g.map (·.1)).Nodup) (d : D) : goalAt g d = total g d := by
  unfold goalAt
  cases hf : g.reverse.find? (fun o => decide (o.1 = d)) with
  | none =>
    rw [List.find?_eq_none] at hf
    rw [total_not_mem]
    · rfl
    · intro hm
      obtain ⟨o, ho, hk⟩ := List.mem_map.1 hm
      exact hf o (List.mem_reverse.2 ho) (by simpa using hk)
  | some o =>
    have h1 := List.find?_some hf
    have h2 := List.mem_reverse.1 (List.mem_of_find?_eq_some hf)
    simp only [decide_eq_true_eq] at h1
    have := total_of_mem h h2
    rw [h1] at this
    simp [this]

theorem sum_filter (l : PL D) (n : ℚ) (d : D) :
    ((l.filter (fun o => o.1 = d)).map (fun o => n * o.2)).sum = n * total l d := by
  unfold total
  induction l with
  | nil => simp
  | cons o l ih =>
    by_cases h : o.1 = d
    · simp only [List.filter_cons, h, decide_true, if_true, List.map_cons, List.sum_cons, ih]
      ring
    · simp only [List.filter_cons, h, decide_false, Bool.false_eq_true, if_false, ih]

/-- What the loop adds up is the dimension of the list it would return. -/
theorem sumAt_eq (l : PL U) (c : List ℚ) (d : D) :
    sumAt (subunits N l) c d = dimOf N (pick (subunits N l) c) d := by
  induction l generalizing c with
  | nil => cases c <;> simp [subunits, sumAt, pick]
  | cons o l ih =>
    have hs : subunits N (o :: l) = (o.1, o.2, normDim N (N.info o.1).dim) :: subunits N l := rfl
    rw [hs]
    cases c with
    | nil => simp [sumAt, pick]
    | cons n c =>
      unfold sumAt pick
      rw [ih]
      simp only
      rw [sum_filter, total_normDim]
      by_cases hn : n = 0
      · simp [hn]
      · rw [if_pos hn, dimOf_cons]

/-- A unit whose dimension list does not mention `d`. -/
theorem unitDim_zero {l : PL U} {d : D} {o : U × ℚ} (ho : o ∈ l)
    (h : d ∉ ((subunits N l).flatMap (fun u => u.2.2)).map (·.1)) : unitDim N o.1 d = 0 := by
  rw [← total_normDim]
  apply total_not_mem
  intro hm
  apply h
  obtain ⟨e, he, hk⟩ := List.mem_map.1 hm
  rw [List.mem_map]
  refine ⟨e, ?_, hk⟩
  rw [List.mem_flatMap]
  exact ⟨(o.1, o.2, normDim N (N.info o.1).dim), List.mem_map.2 ⟨o, ho, rfl⟩, he⟩

theorem pick_keys (l : PL U) (c : List ℚ) :
    ((pick (subunits N l) c).map (·.1)).Sublist (l.map (·.1)) := by
  induction l generalizing c with
  | nil => cases c <;> simp [subunits, pick]
  | cons o l ih =>
    have hs : subunits N (o :: l) = (o.1, o.2, normDim N (N.info o.1).dim) :: subunits N l := rfl
    rw [hs]
    cases c with
    | nil => simp [pick]
    | cons n c =>
      unfold pick
      simp only
      split
      · exact (ih c).cons_cons _
      · exact (ih c).cons _

theorem pick_nonzero (us : List (U × ℚ × PL D)) (c : List ℚ) : ∀ o ∈ pick us c, o.2 ≠ 0 := by
  induction us generalizing c with
  | nil => cases c <;> simp [pick]
  | cons u us ih =>
    cases c with
    | nil => simp [pick]
    | cons n c =>
      unfold pick
      split
      · rename_i hn
        intro o ho
        rcases List.mem_cons.1 ho with rfl | ho
        · exact hn
        · exact ih c o ho
      · exact ih c

theorem dimOf_pick_zero {l : PL U} {d : D} (c : List ℚ)
    (h : d ∉ ((subunits N l).flatMap (fun u => u.2.2)).map (·.1)) :
    dimOf N (pick (subunits N l) c) d = 0 := by
  have : ∀ r : PL U, (∀ o ∈ r, unitDim N o.1 d = 0) → dimOf N r d = 0 := by
    intro r hr
    induction r with
    | nil => rfl
    | cons o r ih =>
      rw [dimOf_cons, hr o List.mem_cons_self, ih (fun o ho => hr o (List.mem_cons_of_mem _ ho))]
      simp
  apply this
  intro o ho
  have hk : o.1 ∈ l.map (·.1) := (pick_keys (N := N) l c).subset (List.mem_map.2 ⟨o, ho, rfl⟩)
  obtain ⟨o', ho', hk'⟩ := List.mem_map.1 hk
  rw [← hk']
  exact unitDim_zero ho' h

/-- The test of the loop on all dimensions, for one of the goals. -/
theorem goal_test {goals : List (PL D)} {g : PL D} (hg : g ∈ goals) (hn : (g.map (·.1)).Nodup)
    (l : PL U) (c : List ℚ) :
    ((goals.flatten.map (·.1) ++ ((subunits N l).flatMap (fun u => u.2.2)).map (·.1)).all
      (fun d => decide (goalAt g d = sumAt (subunits N l) c d))) = true ↔
    ∀ d, dimOf N (pick (subunits N l) c) d = total g d := by
  rw [List.all_eq_true]
  constructor
  · intro h d
    by_cases hd : d ∈ goals.flatten.map (·.1) ++ ((subunits N l).flatMap (fun u => u.2.2)).map (·.1)
    · have := h d hd
      simp only [decide_eq_true_eq] at this
      rw [← goalAt_eq hn, ← sumAt_eq, this]
    · rw [List.mem_append, not_or] at hd
      rw [dimOf_pick_zero c hd.2, total_not_mem]
      intro hm
      apply hd.1
      obtain ⟨o, ho, hk⟩ := List.mem_map.1 hm
      exact List.mem_map.2 ⟨o, List.mem_flatten.2 ⟨g, hg, ho⟩, hk⟩
  · intro h d _
    simp only [decide_eq_true_eq]
    rw [goalAt_eq hn, sumAt_eq, h]

theorem pick_inj {l : PL U} (hnd : (l.map (·.1)).Nodup) {x y : List ℚ}
    (hx : Valid ((l.map (·.2)).map bounds) x) (hy : Valid ((l.map (·.2)).map bounds) y)
    (he : pick (subunits N l) x = pick (subunits N l) y) : x = y := by
  induction l generalizing x y with
  | nil => cases hx; cases hy; rfl
  | cons o l ih =>
    have hs : subunits N (o :: l)
      = (o.1, o.2, normDim N (N.info o.1).dim) :: subunits N l := rfl
    rw [hs] at he
    rw [List.map_cons, List.nodup_cons] at hnd
    cases hx with
    | cons hx0 hx =>
      cases hy with
      | cons hy0 hy =>
        rename_i a as b bs
        unfold pick at he
        simp only at he
        have hkey : ∀ (q : ℚ) (r : PL U) (c : List ℚ),
            (o.1, q) :: r ≠ pick (subunits N l) c := by
          intro q r c e
          have := (pick_keys (N := N) l c).subset (a := o.1) (by rw [← e]; simp)
          exact hnd.1 this
        by_cases ha : a = 0
        · by_cases hb : b = 0
          · rw [if_neg (not_not.2 ha), if_neg (not_not.2 hb)] at he
            rw [ha, hb, ih hnd.2 hx hy he]
          · rw [if_neg (not_not.2 ha), if_pos hb] at he
            exact absurd he.symm (hkey _ _ _)
        · by_cases hb : b = 0
          · rw [if_pos ha, if_neg (not_not.2 hb)] at he
            exact absurd he (hkey _ _ _)
          · rw [if_pos ha, if_pos hb, List.cons.injEq, Prod.mk.injEq] at he
            rw [he.1.2, ih hnd.2 hx hy he.2]

/-- What the search returns for a goal, without its shortcut. -/
def foundFor (N : Norm U D K) (l : PL U) (g : PL D) : PL U → Prop := fun r =>
  ∃ c, Valid ((l.map (·.2)).map bounds) c ∧ r = pick (subunits N l) c ∧
    ∀ d, dimOf N r d = total g d

theorem findUnits_get {goals : List (PL D)} {g : PL D} {j : ℕ} (hj : goals[j]? = some g)
    (hn : (g.map (·.1)).Nodup) (hne : g ≠ []) (hz : ∀ o ∈ g, o.2 ≠ 0) (l : PL U) :
    ∃ fl, (findUnits goals (subunits N l))[j]? = some fl ∧ (∀ r, r ∈ fl ↔ foundFor N l g r) ∧
      ((l.map (·.1)).Nodup → fl.Nodup) := by
  have hg : g ∈ goals := List.mem_of_getElem? hj
  have hmap : (subunits N l).map (fun u => u.2.1) = l.map (·.2) := by
    simp [subunits, Function.comp_def]
  unfold findUnits
  simp only
  split
  · rename_i hno
    refine ⟨[], ?_, ?_, fun _ => List.nodup_nil⟩
    · rw [List.getElem?_map, hj]; rfl
    · intro r
      simp only [List.not_mem_nil, false_iff]
      rintro ⟨c, _, rfl, hd⟩
      obtain ⟨o, ho⟩ := List.exists_mem_of_ne_nil g hne
      simp only [Bool.not_eq_true', List.any_eq_false, List.contains_iff_mem] at hno
      have h1 := hno o.1 (List.mem_map.2 ⟨o, List.mem_flatten.2 ⟨g, hg, ho⟩, rfl⟩)
      have h2 := hd o.1
      rw [dimOf_pick_zero c h1, total_of_mem hn ho] at h2
      exact hz o ho h2.symm
  · refine ⟨_, by rw [List.getElem?_map, hj]; rfl, ?_, ?_⟩
    · intro r
      rw [List.mem_map]
      constructor
      · rintro ⟨c, hc, rfl⟩
        rw [List.mem_filter] at hc
        refine ⟨c, ?_, rfl, (goal_test hg hn l c).1 hc.2⟩
        rw [hmap] at hc
        exact (counters_spec _).2 c |>.1 hc.1
      · rintro ⟨c, hc, rfl, hd⟩
        refine ⟨c, ?_, rfl⟩
        rw [List.mem_filter, hmap]
        exact ⟨(counters_spec _).2 c |>.2 hc, (goal_test hg hn l c).2 hd⟩
    · intro hnd
      refine List.Nodup.map_on ?_ ((by rw [hmap]; exact (counters_spec _).1 :
        (counters ((subunits N l).map (fun u => u.2.1))).Nodup).filter _)
      intro x hx y hy he
      have hx' := (List.mem_filter.1 hx).1
      have hy' := (List.mem_filter.1 hy).1
      rw [hmap] at hx' hy'
      exact pick_inj hnd ((counters_spec _).2 x |>.1 hx') ((counters_spec _).2 y |>.1 hy') he

end
end MC.Unit
