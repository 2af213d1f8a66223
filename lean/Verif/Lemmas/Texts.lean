import Verif.Lemmas.Strings
import Verif.Spec.Texts
import Verif.Props.Strings

/-! # The functions of texts do what they should -/

namespace MC.Texts
open MC.Spec MC.Strings MC.Props

theorem less_lt : ∀ a b : List Char, less a b = decide (a < b)
  | [], [] => by simp [less]
  | [], _ :: _ => by simp [less]
  | _ :: _, [] => by simp [less]
  | a :: as, b :: bs => by
    have ih := less_lt as bs
    rw [less]
    split
    · rename_i h
      subst h
      rw [ih]
      simp
    · rename_i h
      rw [Bool.eq_iff_iff, decide_eq_true_iff, decide_eq_true_iff, List.cons_lt_cons_iff]
      simp only [h, false_and, or_false]
      exact UInt32.lt_iff_toNat_lt.symm

theorem less_ge (a b : List Char) : (!less b a) = decide (a ≤ b) := by
  rw [less_lt, ← decide_not, Bool.eq_iff_iff, decide_eq_true_iff, decide_eq_true_iff]
  exact Iff.rfl

theorem occurs_iff {sub t : List Char} {k : ℕ} (hk : k ≤ t.length) : OccursAt sub t k ↔ sub.isPrefixOf (t.drop k) = true := by
  rw [List.isPrefixOf_iff_prefix]
  constructor
  · rintro ⟨a, b, rfl, rfl⟩
    simp
  · rintro ⟨b, hb⟩
    exact ⟨t.take k, b, by rw [List.append_assoc, hb, List.take_append_drop], by simp [hk]⟩

theorem placeOf_some {sub t : List Char} {k : ℕ} (h : placeOf sub t = some k) : FirstAt sub t k := by
  unfold placeOf at h
  rw [List.find?_range_eq_some] at h
  obtain ⟨h1, h2, h3⟩ := h
  rw [List.mem_range] at h2
  refine ⟨(occurs_iff (by omega)).2 h1, fun j hj => ?_⟩
  by_contra hlt
  have := h3 j (by omega)
  rw [(occurs_iff (by omega)).1 hj] at this
  cases this

theorem placeOf_none {sub t : List Char} (h : placeOf sub t = none) : ¬ Contains sub t := by
  unfold placeOf at h
  rw [List.find?_eq_none] at h
  rintro ⟨k, a, b, rfl, rfl⟩
  refine h a.length (by simp; omega) ?_
  simp

theorem cutting_skip (sep : List Char) : ∀ (k : ℕ) (t : List Char), cutting sep k t = cutting sep 0 (t.drop k)
  | 0, t => by simp
  | k + 1, [] => by simp [cutting]
  | k + 1, c :: t => by rw [cutting, cutting_skip sep k t, List.drop_succ_cons]

theorem pieces_are {sep : List Char} (hsep : sep ≠ []) : ∀ (n : ℕ) (t : List Char), t.length ≤ n → Pieces sep t (pieces sep t)
  | n, [], _ => by
    refine .whole ?_
    rintro ⟨k, a, b, h, -⟩
    have := congrArg List.length h
    have : 0 < sep.length := List.length_pos_iff.2 hsep
    simp at *
    omega
  | n + 1, c :: t, hn => by
    unfold pieces
    rw [cutting]
    split
    · rename_i h
      rw [List.isPrefixOf_iff_prefix] at h
      obtain ⟨rest, hr⟩ := h
      have hl : 0 < sep.length := List.length_pos_iff.2 hsep
      have hd : t.drop (sep.length - 1) = rest := by
        have := congrArg (List.drop sep.length) hr
        rw [List.drop_left, show sep.length = (sep.length - 1) + 1 by omega, List.drop_succ_cons] at this
        exact this.symm
      have ih := pieces_are hsep n (t.drop (sep.length - 1)) (by simp at hn ⊢; omega)
      dsimp only
      rw [cutting_skip]
      have : Pieces sep ([] ++ sep ++ rest) ([] :: pieces sep rest) := by
        refine .cut ⟨⟨[], rest, rfl, rfl⟩, fun j _ => by simp⟩ ?_
        rwa [hd] at ih
      rw [hd]
      rw [List.nil_append, hr] at this
      exact this
    · rename_i h
      have ih := pieces_are hsep n t (by simp at hn; omega)
      unfold pieces at ih
      dsimp only at ih ⊢
      have h0 : ¬ OccursAt sep (c :: t) 0 := by rw [occursAt_zero]; exact h
      generalize (cutting sep 0 t).1 = p at ih
      generalize (cutting sep 0 t).2 = ps at ih
      cases ih with
      | whole hno =>
        refine .whole ?_
        rintro ⟨k, hk⟩
        cases k with
        | zero => exact h0 hk
        | succ k => exact hno ⟨k, occursAt_succ.1 hk⟩
      | @cut p rest ps hf hp =>
        have : Pieces sep ((c :: p) ++ sep ++ rest) ((c :: p) :: ps) := by
          refine .cut ⟨⟨c :: p, rest, rfl, rfl⟩, fun j hj => ?_⟩ hp
          cases j with
          | zero => exact absurd hj h0
          | succ j =>
            have := hf.2 j (occursAt_succ.1 hj)
            simp
            omega
        exact this

theorem joined_glue (new : List Char) : ∀ ps : List (List Char), joined new ps = glue new ps
  | [] => rfl
  | [p] => by simp [joined, glue]
  | p :: q :: ps => by
    have ih := joined_glue new (q :: ps)
    unfold joined at ih ⊢
    rw [glue, List.intersperse_cons_cons, List.flatten_cons, List.flatten_cons, ih, List.append_assoc]

theorem withoutLeft_eq (chars t : List Char) : withoutLeft chars t = lstrip chars t := by
  unfold withoutLeft lstrip
  congr 1
  funext c
  simp

theorem withoutRight_eq (chars t : List Char) : withoutRight chars t = rstrip chars t := by
  unfold withoutRight rstrip List.rdropWhile
  congr 2
  funext c
  simp

theorem placeIn_eq (t : List Char) (i : ℤ) : placeIn t i = position t i := rfl

theorem between_eq {t : List Char} {i j : ℤ} {r : List Char} (h : FromTo t i j r) : r = between t i j := by
  apply List.ext_getElem?
  intro k
  rw [h k, between, List.getElem?_take, List.getElem?_drop]
  have : (max i 0).toNat = i.toNat := by omega
  rw [this]
  by_cases h : max i 0 + k ≤ j
  · rw [if_pos h, if_pos (by omega)]
  · rw [if_neg h, if_neg (by omega)]

end MC.Texts
