import Mathlib.Data.List.Induction
import Verif.Model.Lexer

/-!
# Checking that names are distinct

Names are coded as numbers and put into a search tree, so that the kernel can check a table of many
names.
-/

namespace MC.NameTree
open MC.Parse (Text)

/-- A name as a number in base `2 ^ 21`. -/
def code (t : Text) : ℕ := t.foldl (fun a c => a * 2097152 + (c.toNat + 1)) 0

theorem code_snoc (t : Text) (c : Char) : code (t ++ [c]) = code t * 2097152 + (c.toNat + 1) := by
  simp [code]

theorem char_lt (c : Char) : c.toNat + 1 < 2097152 := by
  rcases c with ⟨v, h⟩
  have h2 : v.toNat < 0x110000 := by
    rcases h with h | ⟨_, h⟩
    · exact lt_trans h (by decide)
    · exact h
  change v.toNat + 1 < _
  omega

theorem digit_inj {a b x y : ℕ} (hx : x < 2097152) (hy : y < 2097152)
    (h : a * 2097152 + x = b * 2097152 + y) : a = b ∧ x = y := by omega

theorem code_nil : code [] = 0 := rfl

theorem code_ne (t : Text) (c : Char) : code (t ++ [c]) ≠ 0 := by
  rw [code_snoc]
  generalize code t * 2097152 = a
  omega

theorem code_inj {s t : Text} (h : code s = code t) : s = t := by
  induction s using List.reverseRecOn generalizing t with
  | nil =>
    rcases List.eq_nil_or_concat t with e | ⟨t', c, e⟩
    · exact e.symm
    · subst e
      rw [List.concat_eq_append, code_nil] at h
      exact absurd h.symm (code_ne t' c)
  | append_singleton s c ih =>
    rcases List.eq_nil_or_concat t with e | ⟨t', d, e⟩
    · subst e
      rw [code_nil] at h
      exact absurd h (code_ne s c)
    · subst e
      rw [List.concat_eq_append, code_snoc, code_snoc] at h
      rw [List.concat_eq_append]
      obtain ⟨h1, h2⟩ := digit_inj (char_lt c) (char_lt d) h
      rw [ih h1, Char.toNat_inj.1 (Nat.succ.inj h2)]

/-- A search tree from numbers to numbers. -/
inductive Tree where
  | leaf
  | node (l : Tree) (k v : ℕ) (r : Tree)

def Tree.find (k : ℕ) : Tree → Option ℕ
  | .leaf => none
  | .node l k' v r =>
    if k.beq k' then some v else if k.ble k' then l.find k else r.find k

/-- Put in a key; `none` if it is in there with another value. -/
def Tree.insert (k v : ℕ) : Tree → Option Tree
  | .leaf => some (.node .leaf k v .leaf)
  | .node l k' v' r =>
    if k.beq k' then (if v.beq v' then some (.node l k' v' r) else none)
    else if k.ble k' then
      match l.insert k v with
      | some l => some (.node l k' v' r)
      | none => none
    else
      match r.insert k v with
      | some r => some (.node l k' v' r)
      | none => none

def Tree.ofList : List (ℕ × ℕ) → Tree → Option Tree
  | [], t => some t
  | (k, v) :: l, t =>
    match t.insert k v with
    | some t => Tree.ofList l t
    | none => none

theorem Tree.find_insert {k v : ℕ} : ∀ {t t' : Tree}, t.insert k v = some t' →
    t'.find k = some v ∧ ∀ k', k' ≠ k → t'.find k' = t.find k' := by
  intro t
  induction t with
  | leaf =>
    intro t' h
    simp only [insert, Option.some.injEq] at h
    subst h
    constructor
    · simp [find]
    · intro k' hk
      have : k'.beq k = false := by
        cases hb : k'.beq k with
        | false => rfl
        | true => exact absurd (Nat.eq_of_beq_eq_true hb) hk
      simp [find, this]
  | node l k0 v0 r ihl ihr =>
    intro t' h
    simp only [insert] at h
    cases hb : k.beq k0 with
    | true =>
      have e := Nat.eq_of_beq_eq_true hb
      simp only [hb, if_true] at h
      cases hv : v.beq v0 with
      | false => simp [hv] at h
      | true =>
        have ev := Nat.eq_of_beq_eq_true hv
        simp only [hv, if_true, Option.some.injEq] at h
        subst h e ev
        exact ⟨by simp [find], fun _ _ => rfl⟩
    | false =>
      simp only [hb, Bool.false_eq_true, if_false] at h
      cases hl : k.ble k0 with
      | true =>
        simp only [hl, if_true] at h
        cases hi : l.insert k v with
        | none => simp [hi] at h
        | some l' =>
          simp only [hi, Option.some.injEq] at h
          subst h
          obtain ⟨h1, h2⟩ := ihl hi
          refine ⟨by simp [find, hb, hl, h1], fun k' hk => ?_⟩
          simp only [find, h2 k' hk]
      | false =>
        simp only [hl, Bool.false_eq_true, if_false] at h
        cases hi : r.insert k v with
        | none => simp [hi] at h
        | some r' =>
          simp only [hi, Option.some.injEq] at h
          subst h
          obtain ⟨h1, h2⟩ := ihr hi
          refine ⟨by simp [find, hb, hl, h1], fun k' hk => ?_⟩
          simp only [find, h2 k' hk]

theorem Tree.insert_keeps {k v : ℕ} {t t' : Tree} (h : t.insert k v = some t') {k' w : ℕ}
    (hf : t.find k' = some w) : t'.find k' = some w := by
  obtain ⟨h1, h2⟩ := find_insert h
  by_cases e : k' = k
  · subst e
    rw [h1]
    clear h1 h2
    induction t generalizing t' with
    | leaf => simp [find] at hf
    | node l k0 v0 r ihl ihr =>
      simp only [insert] at h
      simp only [find] at hf
      cases hb : k'.beq k0 with
      | true =>
        simp only [hb, if_true] at h hf
        cases hv : v.beq v0 with
        | false => simp [hv] at h
        | true => rw [Nat.eq_of_beq_eq_true hv]; exact hf
      | false =>
        simp only [hb, Bool.false_eq_true, if_false] at h hf
        cases hl : k'.ble k0 with
        | true =>
          simp only [hl, if_true] at h hf
          cases hi : l.insert k' v with
          | none => simp [hi] at h
          | some l' => exact ihl hf hi
        | false =>
          simp only [hl, Bool.false_eq_true, if_false] at h hf
          cases hi : r.insert k' v with
          | none => simp [hi] at h
          | some l' => exact ihr hf hi
  · rw [h2 k' e]; exact hf

theorem Tree.ofList_find : ∀ {l : List (ℕ × ℕ)} {t t' : Tree}, Tree.ofList l t = some t' →
    (∀ k w, t.find k = some w → t'.find k = some w) ∧ ∀ p ∈ l, t'.find p.1 = some p.2
  | [], t, t', h => by
    simp only [ofList, Option.some.injEq] at h
    subst h
    exact ⟨fun _ _ h => h, by simp⟩
  | (k, v) :: l, t, t', h => by
    simp only [ofList] at h
    cases hi : t.insert k v with
    | none => simp [hi] at h
    | some t1 =>
      simp only [hi] at h
      obtain ⟨h1, h2⟩ := ofList_find h
      refine ⟨fun k' w hk => h1 k' w (insert_keeps hi hk), ?_⟩
      intro p hp
      rcases List.mem_cons.1 hp with e | hp
      · subst e
        exact h1 _ _ (find_insert hi).1
      · exact h2 p hp

/-- What a tree finds is in the list it was made from. -/
theorem Tree.ofList_mem : ∀ {l : List (ℕ × ℕ)} {t t' : Tree}, Tree.ofList l t = some t' →
    ∀ k w, t'.find k = some w → t.find k = some w ∨ (k, w) ∈ l
  | [], t, t', h => by
    simp only [ofList, Option.some.injEq] at h
    subst h
    exact fun _ _ h => .inl h
  | (k, v) :: l, t, t', h => by
    simp only [ofList] at h
    cases hi : t.insert k v with
    | none => simp [hi] at h
    | some t1 =>
      simp only [hi] at h
      intro k' w hk
      rcases ofList_mem h k' w hk with h1 | h1
      · by_cases e : k' = k
        · subst e
          rw [(find_insert hi).1] at h1
          cases h1
          exact .inr List.mem_cons_self
        · rw [(find_insert hi).2 k' e] at h1
          exact .inl h1
      · exact .inr (List.mem_cons_of_mem _ h1)

end MC.NameTree
