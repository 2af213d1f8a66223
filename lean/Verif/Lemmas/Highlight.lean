import Verif.Model.Highlight
import Verif.Model.ErrorPos
import Verif.Lemmas.Parse

/-!
# Lemmas on highlighting and error positions
-/

namespace MC.Parse

open Spec

variable {cat : Kind → String}

/-- The text of fragments. -/
def fragText (fs : List Frag) : Text := fs.flatMap Prod.snd

theorem fragText_append (a b : List Frag) : fragText (a ++ b) = fragText a ++ fragText b := by
  simp [fragText]

theorem findAt_some {sub : Text} : ∀ {t : Text} {j : ℕ}, findAt sub t = some j →
    j ≤ t.length ∧ sub <+: t.drop j
  | [], j, h => by
    unfold findAt at h
    split at h
    · rename_i hp
      simp only [Option.some.injEq] at h
      subst h
      exact ⟨by simp, List.isPrefixOf_iff_prefix.1 hp⟩
    · simp at h
  | a :: t, j, h => by
    unfold findAt at h
    split at h
    · rename_i hp
      simp only [Option.some.injEq] at h
      subst h
      exact ⟨by simp, List.isPrefixOf_iff_prefix.1 hp⟩
    · cases hf : findAt sub t with
      | none => simp [hf] at h
      | some k =>
        simp only [hf, Option.map_some, Option.some.injEq] at h
        subst h
        have := findAt_some hf
        exact ⟨by simp; exact this.1, by simpa using this.2⟩

theorem pyFind_some {text sub : Text} {i j : ℕ} (h : pyFind text sub i = some j) :
    i ≤ j ∧ j ≤ text.length ∧ sub <+: text.drop j := by
  unfold pyFind at h
  split at h
  · simp at h
  · rename_i hi
    cases hf : findAt sub (text.drop i) with
    | none => simp [hf] at h
    | some k =>
      simp only [hf, Option.map_some, Option.some.injEq] at h
      have := findAt_some hf
      rw [List.length_drop, List.drop_drop] at this
      rw [Nat.add_comm] at h
      subst h
      exact ⟨by omega, by omega, this.2⟩

mutual
theorem highlightFrom_text (text : Text) : ∀ (items : List Item) (i : ℕ) (fs : List Frag),
    i ≤ text.length → highlightFrom cat text items i = some fs → fragText fs = text.drop i
  | [], i, fs, hi, h => by
    simp only [highlightFrom, Option.some.injEq] at h
    subst h
    split
    · simp [fragText]
    · have : text.length ≤ i := by omega
      simp [fragText, List.drop_eq_nil_iff.2 this]
  | it :: its, i, fs, hi, h => by
    simp only [highlightFrom] at h
    cases hp : pyFind text it.text i with
    | none => simp [hp] at h
    | some ii =>
      obtain ⟨h1, h2, h3⟩ := pyFind_some hp
      simp only [hp] at h
      cases hin : highlightItem cat it with
      | none => simp [hin] at h
      | some inner =>
        simp only [hin] at h
        cases hr : highlightFrom cat text its (ii + it.text.length) with
        | none => simp [hr] at h
        | some rest =>
          simp only [hr, Option.some.injEq] at h
          subst h
          have hii := prefix_le h2 h3
          have e1 := highlightItem_text it inner hin
          have e2 := highlightFrom_text text its _ rest hii hr
          rw [fragText_append, fragText_append, e1, e2]
          have e3 : fragText (if i ≠ ii then [("default", (text.drop i).take (ii - i))] else [])
              = (text.drop i).take (ii - i) := by
            by_cases hii : i = ii
            · simp [hii, fragText]
            · rw [if_pos hii]; simp [fragText]
          rw [e3]
          obtain ⟨t, ht⟩ := h3
          have e4 : text.drop i = (text.drop i).take (ii - i) ++ text.drop ii := by
            have := List.take_append_drop (ii - i) (text.drop i)
            rw [List.drop_drop, Nat.add_sub_cancel' h1] at this
            exact this.symm
          conv_rhs => rw [e4]
          rw [List.append_assoc]
          congr 1
          rw [← ht, ← List.drop_drop, ← ht]
          simp
theorem highlightItem_text : ∀ (it : Item) (fs : List Frag),
    highlightItem cat it = some fs → fragText fs = it.text
  | .leaf k t, fs, h => by
    simp only [highlightItem, Option.some.injEq] at h
    subst h
    simp [fragText]
  | .nest k t items, fs, h => by
    simp only [highlightItem] at h
    exact highlightFrom_text t items 0 fs (Nat.zero_le _) h
end

mutual
/-- The items without items inside, left to right. -/
def leavesOf : List Item → List (Kind × Text)
  | [] => []
  | it :: its => leaves it ++ leavesOf its
def leaves : Item → List (Kind × Text)
  | .leaf k t => [(k, t)]
  | .nest _ _ items => leavesOf items
end

mutual
theorem highlightFrom_covers : ∀ (items : List Item) (pre : Text),
    (∀ it ∈ items, Whole it) →
    highlightFrom cat (pre ++ itemsText items) items pre.length
      = some ((leavesOf items).map (fun x => (cat x.1, x.2)))
  | [], pre, _ => by simp [highlightFrom, leavesOf]
  | it :: its, pre, hw => by
    have hp : pyFind (pre ++ itemsText (it :: its)) it.text pre.length = some pre.length :=
      pyFind_here (by simp) (by simp)
    have h1 := highlightItem_covers it (hw it (by simp))
    have h2 := highlightFrom_covers its (pre ++ it.text) (fun i hi => hw i (by simp [hi]))
    simp only [itemsText_cons, List.append_assoc, List.length_append] at h2 hp
    simp only [highlightFrom, itemsText_cons, hp, h1, h2, leavesOf]
    simp
theorem highlightItem_covers : ∀ (it : Item), Whole it →
    highlightItem cat it = some ((leaves it).map (fun x => (cat x.1, x.2)))
  | .leaf k t, _ => by simp [highlightItem, leaves]
  | .nest k t items, hw => by
    cases hw with
    | nest _ _ _ h1 h2 =>
      have := highlightFrom_covers items [] h1
      simp only [List.nil_append, List.length_nil, h2] at this
      simp only [highlightItem, leaves, this]
end

/-! ### Restoring -/

theorem restoreLoop_stop (tr : Bool) (m : ℕ) : ∀ (l : List (Item × Item)) (f : ℕ), m < f →
    restoreLoop tr m f l = []
  | [], f, _ => rfl
  | (o, v) :: l, f, h => by
    unfold restoreLoop
    rw [if_neg (by omega)]

theorem restoreLoop_plain {pre post : List Item} {it : Item} (hit : it.functional = true) :
    ∀ (f k : ℕ), f + (functionalItems pre).length = k →
    restoreLoop false k f ((pre ++ it :: post).zip (pre ++ it :: post)) = pre := by
  induction pre with
  | nil =>
    intro f k h
    simp only [functionalItems, List.filter_nil, List.length_nil, Nat.add_zero] at h
    subst h
    simp only [List.nil_append, List.zip_cons_cons, restoreLoop, Nat.le_refl, if_true, hit]
    simp [restoreLoop_stop]
  | cons a pre ih =>
    intro f k h
    simp only [List.cons_append, List.zip_cons_cons, restoreLoop]
    cases ha : a.functional with
    | true =>
      simp only [functionalItems, List.filter_cons, ha, if_true, List.length_cons] at h
      rw [if_pos (by omega)]
      have := ih (f + 1) k (by simp only [functionalItems]; omega)
      have hf : f + 1 ≤ k := by omega
      simp [this, hf]
    | false =>
      simp only [functionalItems, List.filter_cons, ha, Bool.false_eq_true, if_false] at h
      rw [if_pos (by omega)]
      have := ih f k (by simpa [functionalItems] using h)
      have hf : f ≤ k := by omega
      simp [this, hf]

theorem restoreLoop_truncated {pre post : List Item} {it it' : Item}
    (hit : it'.functional = true) :
    ∀ (f k : ℕ), f + (functionalItems pre).length = k →
    restoreLoop true (k + 1) f ((pre ++ it' :: post).zip (pre ++ it :: post)) = pre ++ [it'] := by
  induction pre with
  | nil =>
    intro f k h
    simp only [functionalItems, List.filter_nil, List.length_nil, Nat.add_zero] at h
    subst h
    simp only [List.nil_append, List.zip_cons_cons, restoreLoop, hit]
    rw [if_pos (by omega)]
    have : restoreLoop true (f + 1) (f + 1) (post.zip post) = [] := by
      cases post with
      | nil => rfl
      | cons a l =>
        have hs : ∀ (l : List (Item × Item)), restoreLoop true (f + 1) (f + 1) l = [] := by
          intro l
          induction l with
          | nil => rfl
          | cons x l ih =>
            obtain ⟨o, v⟩ := x
            unfold restoreLoop
            rw [if_pos (Nat.le_refl _)]
            cases o.functional with
            | true => simp [restoreLoop_stop]
            | false => simp [ih]
        exact hs _
    simp [this]
  | cons a pre ih =>
    intro f k h
    simp only [List.cons_append, List.zip_cons_cons, restoreLoop]
    cases ha : a.functional with
    | true =>
      simp only [functionalItems, List.filter_cons, ha, if_true, List.length_cons] at h
      rw [if_pos (by omega)]
      have := ih (f + 1) k (by simp only [functionalItems]; omega)
      have hf : f < k + 1 := by omega
      simp [this, hf]
    | false =>
      simp only [functionalItems, List.filter_cons, ha, Bool.false_eq_true, if_false] at h
      rw [if_pos (by omega)]
      have := ih f k (by simpa [functionalItems] using h)
      have hf : f < k + 1 := by omega
      simp [this, hf]

end MC.Parse
