import Verif.Lemmas.UnitSearch

/-! # The counters of the search are the parts of the list -/

set_option linter.unusedSectionVars false

namespace MC.Unit
open Spec

section
variable {U D K : Type} [DecidableEq U] [DecidableEq D] [Field K]
variable {N : Norm U D K}

theorem between_iff {p : ℤ} {c : ℚ} :
    (∃ k : ℕ, c = (bounds (p : ℚ)).1 + k ∧ k < width (bounds (p : ℚ))) ↔ Between p c := by
  have hw := width_spec (bounds_le (p : ℚ))
  constructor
  · rintro ⟨k, rfl, hk⟩
    rw [hw] at hk
    unfold bounds at hk ⊢
    have hk0 : (0 : ℚ) ≤ k := Nat.cast_nonneg k
    split at hk
    · rename_i hp
      rw [if_pos hp]
      refine ⟨⟨p + k, by push_cast; rfl⟩, .inr ⟨by simp only; linarith, hk⟩⟩
    · rename_i hp
      rw [if_neg hp]
      refine ⟨⟨k, by simp⟩, .inl ⟨by simp, by simpa using hk⟩⟩
  · rintro ⟨⟨z, rfl⟩, h⟩
    have hz : (bounds (p : ℚ)).1 ≤ z ∧ (z : ℚ) ≤ (bounds (p : ℚ)).2 := by
      unfold bounds
      split
      · rename_i hp
        rcases h with h | h
        · exact absurd (h.1.trans h.2) (not_le.2 hp)
        · exact ⟨h.1, h.2⟩
      · rename_i hp
        rcases h with h | h
        · exact ⟨h.1, h.2⟩
        · have h0 : (p : ℚ) = 0 := le_antisymm (h.1.trans h.2) (not_lt.1 hp)
          exact ⟨by rw [← h0]; exact h.1, by rw [h0]; exact h.2⟩
    have hmin : ∃ m : ℤ, (bounds (p : ℚ)).1 = m := by
      unfold bounds
      split
      · exact ⟨p, rfl⟩
      · exact ⟨0, by simp⟩
    obtain ⟨m, hm⟩ := hmin
    have hmz : m ≤ z := by
      have := hz.1
      rw [hm] at this
      exact_mod_cast this
    refine ⟨(z - m).toNat, ?_, ?_⟩
    · have : (((z - m).toNat : ℤ) : ℚ) = ((z - m : ℤ) : ℚ) := by
        rw [Int.toNat_of_nonneg (by omega)]
      rw [hm]
      push_cast at this
      rw [this]
      ring
    · rw [hw]
      have : (((z - m).toNat : ℤ) : ℚ) = ((z - m : ℤ) : ℚ) := by
        rw [Int.toNat_of_nonneg (by omega)]
      push_cast at this
      rw [this, hm]
      linarith [hz.2]

theorem pick_of_part {l r : PL U} (hnd : (l.map (·.1)).Nodup) (hr : Proper r)
    (hs : (r.map (·.1)).Sublist (l.map (·.1))) :
    pick (subunits N l) (l.map (fun o => total r o.1)) = r := by
  induction l generalizing r with
  | nil =>
    have : r = [] := by simpa using hs
    rw [this]; rfl
  | cons o l ih =>
    have hsu : subunits N (o :: l)
      = (o.1, o.2, normDim N (N.info o.1).dim) :: subunits N l := rfl
    rw [hsu, List.map_cons]
    rw [List.map_cons, List.nodup_cons] at hnd
    unfold pick
    simp only
    rw [List.map_cons] at hs
    cases r with
    | nil =>
      simp only [total_nil, ne_eq, not_true_eq_false, if_false]
      have := ih hnd.2 hr (by simp)
      simpa using this
    | cons a r =>
      rw [List.map_cons] at hs
      by_cases ha : a.1 = o.1
      · have hs' : (r.map (·.1)).Sublist (l.map (·.1)) := by
          rw [ha] at hs
          exact List.cons_sublist_cons.1 hs
        have hr' : Proper r := ⟨(List.nodup_cons.1 hr.1).2,
          fun o ho => hr.2 o (List.mem_cons_of_mem _ ho)⟩
        have h0 : total (a :: r) o.1 = a.2 := by
          rw [← ha]; exact total_of_mem hr.1 List.mem_cons_self
        rw [h0, if_pos (hr.2 a List.mem_cons_self)]
        have hmap : l.map (fun o => total (a :: r) o.1) = l.map (fun o => total r o.1) := by
          apply List.map_congr_left
          intro x hx
          rw [total_cons, if_neg, zero_add]
          intro e
          exact hnd.1 (by rw [← ha, e]; exact List.mem_map.2 ⟨x, hx, rfl⟩)
        rw [hmap, ih hnd.2 hr' hs', ← ha]
      · have hs' : ((a :: r).map (·.1)).Sublist (l.map (·.1)) := by
          rw [List.map_cons]
          rcases List.sublist_cons_iff.1 hs with h | ⟨r', h, _⟩
          · exact h
          · rw [List.cons.injEq] at h
            exact absurd h.1 ha
        have h0 : total (a :: r) o.1 = 0 := by
          apply total_not_mem
          intro h
          exact hnd.1 (hs'.subset h)
        rw [h0, if_neg (by simp), ih hnd.2 hr hs']

theorem part_iff {l : PL U} (hnd : (l.map (·.1)).Nodup) (hi : ∀ o ∈ l, ∃ z : ℤ, o.2 = z)
    (r : PL U) :
    (∃ c, Valid ((l.map (·.2)).map bounds) c ∧ r = pick (subunits N l) c) ↔ Part r l := by
  constructor
  · rintro ⟨c, hc, rfl⟩
    refine ⟨⟨(pick_keys l c).nodup hnd, pick_nonzero _ c⟩, pick_keys l c, ?_⟩
    intro u
    induction l generalizing c with
    | nil =>
      cases hc
      exact ⟨⟨0, by simp [pick, subunits]⟩, .inl ⟨by simp [pick, subunits], by simp [pick, subunits]⟩⟩
    | cons o l ih =>
      have hsu : subunits N (o :: l)
        = (o.1, o.2, normDim N (N.info o.1).dim) :: subunits N l := rfl
      rw [List.map_cons, List.nodup_cons] at hnd
      cases hc with
      | cons h0 hc =>
        rename_i a as
        have ih := ih hnd.2 (fun o ho => hi o (List.mem_cons_of_mem _ ho)) as hc
        rw [hsu]
        unfold pick
        simp only
        obtain ⟨z, hz⟩ := hi o List.mem_cons_self
        change Ok (bounds o.2) a at h0
        rw [hz] at h0
        have hb : Between o.2 a := by rw [hz]; exact between_iff.1 h0
        by_cases hu : o.1 = u
        · have hl : total l u = 0 := total_not_mem (by rw [← hu]; exact hnd.1)
          have hr : total (pick (subunits N l) as) u = 0 := by
            apply total_not_mem
            rw [← hu]
            exact fun h => hnd.1 ((pick_keys l as).subset h)
          rw [total_cons, if_pos hu, hl, add_zero]
          split
          · rw [total_cons, if_pos hu, hr, add_zero]; exact hb
          · rename_i ha
            rw [hr]
            rw [not_not.1 ha] at hb
            exact hb
        · rw [total_cons, if_neg hu, zero_add]
          split
          · rw [total_cons, if_neg hu, zero_add]; exact ih
          · exact ih
  · rintro ⟨hp, hs, hb⟩
    refine ⟨l.map (fun o => total r o.1), ?_, (pick_of_part hnd hp hs).symm⟩
    have : ∀ m : PL U, (∀ o ∈ m, o ∈ l) →
        Valid ((m.map (·.2)).map bounds) (m.map (fun o => total r o.1)) := by
      intro m
      induction m with
      | nil => intro _; exact .nil
      | cons o m ih =>
        intro hm
        refine .cons ?_ (ih (fun o ho => hm o (List.mem_cons_of_mem _ ho)))
        have ho := hm o List.mem_cons_self
        obtain ⟨z, hz⟩ := hi o ho
        have := hb o.1
        rw [total_of_mem hnd ho] at this
        change Ok (bounds o.2) (total r o.1)
        rw [hz] at this ⊢
        exact between_iff.2 this
    exact this l (fun _ h => h)

end
end MC.Unit
