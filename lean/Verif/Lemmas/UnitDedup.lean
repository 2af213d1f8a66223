import Verif.Lemmas.Units

/-! # `deduplicate`: when it adds up the powers of each key, and when it does not -/

set_option linter.unusedSectionVars false

namespace MC.Unit
open Spec

variable {A : Type} [DecidableEq A]

/-- The entries of objects. -/
def entries (l : List (Obj A)) : PL A := l.map (fun o => (o.key, o.pow))

theorem entries_toObjs (n : ℕ) (l : PL A) : entries (toObjs n l) = l := by
  induction l generalizing n with
  | nil => rfl
  | cons o l ih =>
    have := ih (n + 1)
    unfold entries at this ⊢
    simp [toObjs, this]

theorem ids_toObjs (n : ℕ) (l : PL A) : (toObjs n l).map (·.id) = List.range' n l.length := by
  induction l generalizing n with
  | nil => rfl
  | cons o l ih => simp [toObjs, ih, List.range'_succ]

theorem length_toObjs (n : ℕ) (l : PL A) : (toObjs n l).length = l.length := by
  have := congrArg List.length (ids_toObjs n l)
  simpa using this

/-- `obj.power += …` when the object is in the list once. -/
theorem map_id_once {oid : ℕ} {d : ℚ} {a b : List (Obj A)} {o : Obj A} (ho : o.id = oid)
    (ha : ∀ x ∈ a, x.id ≠ oid) (hb : ∀ x ∈ b, x.id ≠ oid) :
    (a ++ o :: b).map (fun x => if x.id = oid then { x with pow := x.pow + d } else x)
      = a ++ { o with pow := o.pow + d } :: b := by
  rw [List.map_append, List.map_cons, if_pos ho]
  congr 1
  · conv_rhs => rw [← List.map_id a]
    exact List.map_congr_left (fun x hx => by simp [ha x hx])
  · congr 1
    conv_rhs => rw [← List.map_id b]
    exact List.map_congr_left (fun x hx => by simp [hb x hx])

/-- One duplicate is absorbed and removed, if the power before is not zero. -/
theorem absorb_ok {a c e : List (Obj A)} {o d : Obj A}
    (hid : ∀ x ∈ a ++ c ++ d :: e, x.id ≠ o.id) (hk : d.key = o.key)
    (ha : ∀ x ∈ a, x.key ≠ o.key) (hc : ∀ x ∈ c, x.key ≠ o.key) (hz : o.pow ≠ 0) :
    absorb o.id (a ++ o :: (c ++ d :: e)) d = a ++ { o with pow := o.pow + d.pow } :: (c ++ e) := by
  unfold absorb
  rw [map_id_once rfl (fun x hx => hid x (by simp [hx]))
    (fun x hx => hid x (by
      rcases List.mem_append.1 hx with h | h
      · simp [h]
      · exact List.mem_append_right _ h))]
  rw [List.eraseP_append_right _ (fun x hx => by
    simp only [decide_eq_true_eq, not_and]
    exact fun e => absurd (e.trans hk) (ha x hx))]
  rw [List.eraseP_cons_of_neg (by
    simp only [decide_eq_true_eq, not_and]
    intro _ e
    exact hz (by linarith))]
  rw [List.eraseP_append_right _ (fun x hx => by
    simp only [decide_eq_true_eq, not_and]
    exact fun e => absurd (e.trans hk) (hc x hx))]
  rw [List.eraseP_cons_of_pos (by simp)]

/-- All duplicates are absorbed and removed, if the running power is never zero before one. -/
theorem absorb_all {a c e : List (Obj A)} {o : Obj A}
    (hid : ∀ x ∈ a ++ c ++ e, x.id ≠ o.id)
    (ha : ∀ x ∈ a, x.key ≠ o.key) (hc : ∀ x ∈ c, x.key ≠ o.key)
    (hs : ∀ pre d post, e = pre ++ d :: post → d.key = o.key →
      o.pow + total (entries pre) o.key ≠ 0) :
    (e.filter (fun x => x.key = o.key)).foldl (absorb o.id) (a ++ o :: (c ++ e))
      = a ++ { o with pow := o.pow + total (entries e) o.key } ::
          (c ++ e.filter (fun x => x.key ≠ o.key)) := by
  induction e generalizing c o with
  | nil => simp [entries]
  | cons d e ih =>
    by_cases hd : d.key = o.key
    · have hz : o.pow ≠ 0 := by
        have := hs [] d e rfl hd
        simpa [entries] using this
      rw [List.filter_cons_of_pos (by simpa using hd), List.foldl_cons,
        absorb_ok hid hd ha hc hz]
      have h := ih (o := { o with pow := o.pow + d.pow }) (c := c)
        (fun x hx => hid x (by
          rcases List.mem_append.1 hx with h | h
          · exact List.mem_append_left _ h
          · exact List.mem_append_right _ (List.mem_cons_of_mem _ h))) ha hc
        (fun pre d' post he hk => by
          have := hs (d :: pre) d' post (by rw [he]; rfl) hk
          simp only [entries, List.map_cons, total_cons, if_pos hd] at this ⊢
          intro e0
          exact this (by rw [← e0]; ring))
      simp only at h
      rw [h, List.filter_cons_of_neg (by simpa using hd)]
      simp only [entries, List.map_cons, total_cons, if_pos hd]
      congr 2
      congr 1
      ring
    · rw [List.filter_cons_of_neg (by simpa using hd),
        List.filter_cons_of_pos (by simpa using hd)]
      have h := ih (o := o) (c := c ++ [d]) (fun x hx => hid x (by simpa using hx)) ha
        (fun x hx => by
          rcases List.mem_append.1 hx with h | h
          · exact hc x h
          · rw [List.mem_singleton] at h; subst h; exact hd)
        (fun pre d' post he hk => by
          have := hs (d :: pre) d' post (by rw [he]; rfl) hk
          simpa only [entries, List.map_cons, total_cons, if_neg hd, zero_add] using this)
      simp only [List.append_assoc, List.singleton_append] at h
      rw [h]
      simp only [entries, List.map_cons, total_cons, if_neg hd, zero_add]

/-- The running condition on objects. -/
def SteadyObjs (l : List (Obj A)) : Prop :=
  ∀ pre d post, l = pre ++ d :: post → (∃ x ∈ pre, x.key = d.key) →
    total (entries pre) d.key ≠ 0

theorem entries_append (a b : List (Obj A)) : entries (a ++ b) = entries a ++ entries b := by
  simp [entries]

theorem total_filter_ne (l : List (Obj A)) (k x : A) :
    total (entries (l.filter (fun o => o.key ≠ k))) x
      = if x = k then 0 else total (entries l) x := by
  induction l with
  | nil => simp [entries]
  | cons o l ih =>
    unfold entries at ih ⊢
    rw [List.filter_cons]
    by_cases h : o.key = k
    · simp only [h, ne_eq, not_true_eq_false, decide_false, Bool.false_eq_true, if_false, ih,
        List.map_cons, total_cons]
      by_cases hx : x = k
      · simp [hx]
      · rw [if_neg hx, if_neg hx, if_neg (fun e => hx e.symm), zero_add]
    · simp only [h, ne_eq, not_false_eq_true, decide_true, if_true, ih, List.map_cons, total_cons]
      by_cases hx : x = k
      · rw [if_pos hx, if_pos hx, if_neg (fun e => h (e.trans hx)), zero_add]
      · rw [if_neg hx, if_neg hx]

/-- Dropping all objects of one key keeps the running condition. -/
theorem steady_filter {o : Obj A} {e : List (Obj A)} (h : SteadyObjs (o :: e)) :
    SteadyObjs (e.filter (fun x => x.key ≠ o.key)) := by
  intro pre d post he hx
  obtain ⟨e1, e2, he12, hp, hq⟩ := List.filter_eq_append_iff.1 he
  obtain ⟨e3, e4, he34, h3, h4, h5⟩ := List.filter_eq_cons_iff.1 hq
  have hdk : d.key ≠ o.key := by simpa using h4
  have := h (o :: e1 ++ e3) d e4 (by rw [he12, he34]; simp)
    (by
      obtain ⟨x, hx, hk⟩ := hx
      refine ⟨x, ?_, hk⟩
      rw [← hp] at hx
      have := (List.mem_filter.1 hx).1
      simp [this])
  have h3' : total (entries e3) d.key = 0 := by
    apply total_not_mem
    intro hm
    simp only [entries, List.map_map, List.mem_map, Function.comp_def] at hm
    obtain ⟨x, hx, hk⟩ := hm
    have := h3 x hx
    simp only [ne_eq, decide_not, Bool.not_eq_true', decide_eq_false_iff_not, not_not] at this
    exact hdk (hk.symm.trans this)
  rw [entries_append, total_append, h3', add_zero] at this
  rw [← hp, total_filter_ne, if_neg hdk]
  have hc : total (entries (o :: e1)) d.key = total (entries e1) d.key := by
    simp only [entries, List.map_cons, total_cons]
    rw [if_neg (fun e => hdk e.symm), zero_add]
  rwa [hc] at this

/-- The loop of `deduplicate`, from a state where the keys of the part already done do not occur
in the rest. -/
theorem dedupLoop_ok (n : ℕ) (a e : List (Obj A)) (hn : e.length ≤ n)
    (hid : ((a ++ e).map (·.id)).Nodup) (hk : (a.map (·.key)).Nodup)
    (hae : ∀ x ∈ a, ∀ y ∈ e, x.key ≠ y.key) (hs : SteadyObjs e) :
    ((dedupLoop n a.length (a ++ e)).map (·.key)).Nodup ∧
    ∀ x, total (entries (dedupLoop n a.length (a ++ e))) x = total (entries (a ++ e)) x := by
  induction n generalizing a e with
  | zero =>
    have : e = [] := by simpa using hn
    subst this
    simp only [dedupLoop, List.append_nil]
    exact ⟨hk, fun _ => trivial⟩
  | succ n ih =>
    cases e with
    | nil =>
      unfold dedupLoop
      rw [List.append_nil, List.getElem?_eq_none (Nat.le_refl _)]
      exact ⟨hk, fun _ => rfl⟩
    | cons o e =>
      have hget : (a ++ o :: e)[a.length]? = some o := by simp
      have hdrop : (a ++ o :: e).drop (a.length + 1) = e := by
        rw [List.drop_append]
        simp
      have hid' : ∀ x ∈ a ++ [] ++ e, x.id ≠ o.id := by
        intro x hx
        rw [List.map_append, List.map_cons, List.nodup_append] at hid
        rw [List.append_nil] at hx
        rcases List.mem_append.1 hx with h | h
        · exact hid.2.2 _ (List.mem_map.2 ⟨x, h, rfl⟩) _ List.mem_cons_self
        · have := (List.nodup_cons.1 hid.2.1).1
          exact fun e => this (e ▸ List.mem_map.2 ⟨x, h, rfl⟩)
      have hfold := absorb_all (a := a) (c := []) (e := e) (o := o) hid'
        (fun x hx => hae x hx o List.mem_cons_self) (by simp)
        (fun pre d post he hd => by
          have := hs (o :: pre) d post (by rw [he]; rfl) ⟨o, List.mem_cons_self, hd.symm⟩
          simpa only [entries, List.map_cons, total_cons, hd, if_true] using this)
      simp only [List.nil_append] at hfold
      unfold dedupLoop
      rw [hget]
      simp only
      rw [hdrop, hfold]
      set o' : Obj A := { o with pow := o.pow + total (entries e) o.key }
      set e' := e.filter (fun x => x.key ≠ o.key)
      have hshape : a ++ o' :: e' = (a ++ [o']) ++ e' := by simp
      have hlen : a.length + 1 = (a ++ [o']).length := by simp
      rw [hshape, hlen]
      have hsub : e'.Sublist e := List.filter_sublist
      have hlen' : e'.length ≤ n := by
        have h1 := hsub.length_le
        simp only [List.length_cons] at hn
        omega
      have hres := ih (a ++ [o']) e' hlen'
        (by
          have hsl : ((a ++ [o'] ++ e').map (·.id)).Sublist ((a ++ o :: e).map (·.id)) := by
            simp only [List.append_assoc, List.singleton_append, List.map_append, List.map_cons]
            exact (List.Sublist.refl _).append ((hsub.map _).cons_cons _)
          exact hsl.nodup hid)
        (by
          rw [List.map_append, List.nodup_append]
          refine ⟨hk, by simp, ?_⟩
          intro x hx y hy
          obtain ⟨z, hz, rfl⟩ := List.mem_map.1 hx
          simp only [List.map_cons, List.map_nil, List.mem_singleton] at hy
          subst hy
          exact hae z hz o List.mem_cons_self)
        (by
          intro x hx y hy
          rcases List.mem_append.1 hx with h | h
          · exact hae x h y (List.mem_cons_of_mem _ (hsub.subset hy))
          · rw [List.mem_singleton] at h
            subst h
            have := (List.mem_filter.1 hy).2
            simp only [ne_eq, decide_not, Bool.not_eq_true', decide_eq_false_iff_not] at this
            exact fun e => this e.symm)
        (steady_filter hs)
      refine ⟨hres.1, fun x => ?_⟩
      rw [hres.2 x, entries_append, entries_append, total_append, total_append, total_filter_ne,
        entries_append, total_append]
      have h1 : total (entries [o']) x
          = if o.key = x then o.pow + total (entries e) o.key else 0 := by
        simp only [entries, List.map_cons, List.map_nil, total_cons, total_nil, add_zero]
        rfl
      have h2 : total (entries (o :: e)) x
          = (if o.key = x then o.pow else 0) + total (entries e) x := by
        simp only [entries, List.map_cons, total_cons]
      rw [h1, h2]
      by_cases hx : o.key = x
      · subst hx
        simp only [if_true]
        ring
      · rw [if_neg hx, if_neg hx, if_neg (fun e => hx e.symm)]
        ring

theorem steady_toObjs {l : PL A} (n : ℕ) (h : Steady l) : SteadyObjs (toObjs n l) := by
  intro pre d post he hx
  have := entries_toObjs n l
  rw [he, entries_append] at this
  refine h (entries pre) (d.key, d.pow) (entries post) (by rw [← this]; rfl) ?_
  obtain ⟨x, hx, hk⟩ := hx
  exact ⟨(x.key, x.pow), List.mem_map.2 ⟨x, hx, rfl⟩, hk⟩

/-- `deduplicate` adds up the powers of each key when the running sum is never zero before a key
comes up again. -/
theorem deduplicate_ok {l : PL A} (h : Steady l) :
    Proper (deduplicate l) ∧ ∀ x, total (deduplicate l) x = total l x := by
  have hh := dedupLoop_ok l.length [] (toObjs 0 l) (by rw [length_toObjs])
    (by rw [List.nil_append, ids_toObjs]; exact List.nodup_range') (by simp) (by simp)
    (steady_toObjs 0 h)
  simp only [List.nil_append, List.length_nil] at hh
  refine ⟨⟨?_, ?_⟩, ?_⟩
  · unfold deduplicate removeZeros
    refine (List.Sublist.map _ List.filter_sublist).nodup ?_
    simpa [Function.comp_def] using hh.1
  · intro o ho
    unfold deduplicate removeZeros at ho
    simpa using (List.mem_filter.1 ho).2
  · intro x
    unfold deduplicate
    rw [total_removeZeros]
    have := hh.2 x
    rw [entries_toObjs] at this
    exact this

/-- No key twice: nothing to add up. -/
theorem steady_of_nodup {l : PL A} (h : (l.map (·.1)).Nodup) : Steady l := by
  intro pre o post he hx
  subst he
  rw [List.map_append, List.map_cons, List.nodup_append] at h
  obtain ⟨o', ho', hk⟩ := hx
  exact absurd hk (h.2.2 _ (List.mem_map.2 ⟨o', ho', rfl⟩) _ List.mem_cons_self)

/-- All contributions to a key have the same sign. -/
theorem steady_of_sign {l : PL A}
    (h : ∀ k, (∀ o ∈ l, o.1 = k → 0 < o.2) ∨ (∀ o ∈ l, o.1 = k → o.2 < 0)) : Steady l := by
  have hpos : ∀ (k : A) (m : PL A), (∀ o ∈ m, o.1 = k → 0 < o.2) → 0 ≤ total m k ∧
      ((∃ o ∈ m, o.1 = k) → 0 < total m k) := by
    intro k m hm
    induction m with
    | nil => simp
    | cons o m ih =>
      have ih := ih (fun o ho => hm o (List.mem_cons_of_mem _ ho))
      rw [total_cons]
      by_cases hk : o.1 = k
      · rw [if_pos hk]
        have := hm o List.mem_cons_self hk
        exact ⟨by linarith [ih.1], fun _ => by linarith [ih.1]⟩
      · rw [if_neg hk, zero_add]
        refine ⟨ih.1, ?_⟩
        rintro ⟨o', ho', hk'⟩
        rcases List.mem_cons.1 ho' with rfl | ho'
        · exact absurd hk' hk
        · exact ih.2 ⟨o', ho', hk'⟩
  have hneg : ∀ (k : A) (m : PL A), (∀ o ∈ m, o.1 = k → o.2 < 0) → total m k ≤ 0 ∧
      ((∃ o ∈ m, o.1 = k) → total m k < 0) := by
    intro k m hm
    induction m with
    | nil => simp
    | cons o m ih =>
      have ih := ih (fun o ho => hm o (List.mem_cons_of_mem _ ho))
      rw [total_cons]
      by_cases hk : o.1 = k
      · rw [if_pos hk]
        have := hm o List.mem_cons_self hk
        exact ⟨by linarith [ih.1], fun _ => by linarith [ih.1]⟩
      · rw [if_neg hk, zero_add]
        refine ⟨ih.1, ?_⟩
        rintro ⟨o', ho', hk'⟩
        rcases List.mem_cons.1 ho' with rfl | ho'
        · exact absurd hk' hk
        · exact ih.2 ⟨o', ho', hk'⟩
  intro pre o post he hx
  have hsub : ∀ x ∈ pre, x ∈ l := fun x hx => by rw [he]; exact List.mem_append_left _ hx
  rcases h o.1 with h | h
  · exact ne_of_gt ((hpos o.1 pre (fun x hx' hk => h x (hsub x hx') hk)).2 hx)
  · exact ne_of_lt ((hneg o.1 pre (fun x hx' hk => h x (hsub x hx') hk)).2 hx)

end MC.Unit
