import Verif.Model.Table
import Verif.Spec.Table
import Mathlib.Data.List.Forall2
import Mathlib.Data.List.Perm.Basic
import Mathlib.Data.List.Nodup
import Mathlib.Tactic.Tauto

/-! # Lemmas about `add_op` -/

namespace MC

variable {V σ : Type}

/-- The symbols of a level. -/
def Level.syms (l : Level V σ) : List String := l.entries.map Prod.fst

theorem Level.has_syms {l : Level V σ} {s : String} : l.has s = true ↔ s ∈ l.syms := by
  unfold Level.has Level.syms
  simp [List.any_eq_true, List.mem_map]

/-- A level of the table all of whose symbols are in row `r`, each once, with one `rtl`. -/
structure InRow (r : List String) (l : Level V σ) : Prop where
  sub : ∀ s ∈ l.syms, s ∈ r
  nodup : l.syms.Nodup
  rtl : ∀ e ∈ l.entries, e.2.rtl = l.head.2.rtl

/-- The table follows the layout. -/
inductive FitsLayout : List (List String) → List (Level V σ) → Prop
  | nil : FitsLayout [] []
  | skip {r rows t} : FitsLayout rows t → FitsLayout (r :: rows) t
  | take {r rows l t} : InRow r l → FitsLayout rows t → FitsLayout (r :: rows) (l :: t)

/-- The symbols of a table. -/
def tableSyms (t : List (Level V σ)) : List String := t.flatMap Level.syms

theorem FitsLayout.mem {rows : List (List String)} {t : List (Level V σ)} (h : FitsLayout rows t) :
    ∀ s ∈ tableSyms t, s ∈ rows.flatten := by
  induction h with
  | nil => simp [tableSyms]
  | skip _ ih => intro s hs; simpa using Or.inr (List.mem_flatten.mp (ih s hs))
  | take hl _ ih =>
    intro s hs
    simp only [tableSyms, List.flatMap_cons, List.mem_append] at hs
    rw [List.flatten_cons, List.mem_append]
    rcases hs with hs | hs
    · exact Or.inl (hl.sub s hs)
    · exact Or.inr (ih s hs)

/-- The rows have no symbol in common. -/
def DisjointRows (rows : List (List String)) : Prop := rows.Pairwise List.Disjoint

theorem disjoint_flatten {r : List String} {rows : List (List String)}
    (h : DisjointRows (r :: rows)) : ∀ s ∈ r, s ∉ rows.flatten := by
  intro s hs hm
  obtain ⟨r', hr', hs'⟩ := List.mem_flatten.mp hm
  exact (List.rel_of_pairwise_cons h hr') hs hs'

/-! ### Dictionary updates -/

theorem lookup_cons {D : Type} (e : String × D) (es : List (String × D)) (s : String) :
    (e :: es).lookup s = if s = e.1 then some e.2 else es.lookup s := by
  obtain ⟨k, d⟩ := e
  rw [List.lookup_cons]
  by_cases h : s = k
  · simp [h]
  · have : (s == k) = false := by simpa using h
    simp [this, h]

theorem dictSet_keys (sym : String) (op : OpDef V σ) (es : List (String × OpDef V σ)) :
    (dictSet sym op es).map Prod.fst
      = if sym ∈ es.map Prod.fst then es.map Prod.fst else es.map Prod.fst ++ [sym] := by
  induction es with
  | nil => simp [dictSet]
  | cons e es ih =>
    unfold dictSet
    by_cases h : e.1 = sym
    · simp [h]
    · simp only [h, if_false, List.map_cons, ih, List.mem_cons, Ne.symm h, false_or]
      split <;> simp

theorem dictSet_mem {sym : String} {op : OpDef V σ} {es : List (String × OpDef V σ)}
    {e : String × OpDef V σ} (h : e ∈ dictSet sym op es) : e = (sym, op) ∨ e ∈ es := by
  induction es with
  | nil => simpa [dictSet] using h
  | cons x es ih =>
    unfold dictSet at h
    split at h
    · rcases List.mem_cons.mp h with h | h
      · exact Or.inl h
      · exact Or.inr (List.mem_cons_of_mem _ h)
    · rcases List.mem_cons.mp h with h | h
      · exact Or.inr (by simp [h])
      · rcases ih h with h | h
        · exact Or.inl h
        · exact Or.inr (List.mem_cons_of_mem _ h)

theorem dictSet_lookup (sym : String) (op : OpDef V σ) (es : List (String × OpDef V σ))
    (s : String) : (dictSet sym op es).lookup s = if s = sym then some op else es.lookup s := by
  induction es with
  | nil => simp [dictSet, lookup_cons]
  | cons e es ih =>
    unfold dictSet
    by_cases h : e.1 = sym
    · simp only [h, if_true, lookup_cons]
      split <;> rfl
    · simp only [h, if_false, lookup_cons, ih]
      by_cases h2 : s = e.1
      · subst h2
        simp [h]
      · simp [h2]

theorem Level.set_entries (l : Level V σ) (sym : String) (op : OpDef V σ) :
    (l.set sym op).entries = dictSet sym op l.entries := by
  unfold Level.set Level.entries
  rw [dictSet]
  split <;> rfl

theorem Level.set_syms (l : Level V σ) (sym : String) (op : OpDef V σ) :
    (l.set sym op).syms = if sym ∈ l.syms then l.syms else l.syms ++ [sym] := by
  unfold Level.syms
  rw [Level.set_entries, dictSet_keys]

theorem InRow.set {r : List String} {l : Level V σ} (h : InRow r l) {sym : String}
    {op : OpDef V σ} (hs : sym ∈ r) (hr : op.rtl = l.head.2.rtl) : InRow r (l.set sym op) where
  sub := by
    intro s
    rw [Level.set_syms]
    split
    · exact h.sub s
    · simp only [List.mem_append, List.mem_singleton]
      rintro (h1 | rfl)
      · exact h.sub s h1
      · exact hs
  nodup := by
    rw [Level.set_syms]
    split
    · exact h.nodup
    · next hn => 
      rw [List.nodup_append]
      exact ⟨h.nodup, by simp, by rintro a ha b hb rfl; exact hn (by simp_all)⟩
  rtl := by
    have hh : (l.set sym op).head.2.rtl = l.head.2.rtl := by
      unfold Level.set
      split
      · exact hr
      · rfl
    intro e he
    rw [Level.set_entries] at he
    rw [hh]
    rcases dictSet_mem he with rfl | he
    · exact hr
    · exact h.rtl e he

theorem placeAt_row {r after : List String} {l : Level V σ} (h : InRow r l) :
    placeAt r after l.entries = some (.join l.head.2.rtl) := by
  have : l.head.1 ∈ r := h.sub _ (by simp [Level.syms, Level.entries])
  simp [Level.entries, placeAt, this]

theorem placeAt_before {target after : List String} {l : Level V σ}
    (h1 : ∀ s ∈ l.syms, s ∉ target) (h2 : ∀ s ∈ l.syms, s ∈ after) :
    placeAt target after l.entries = some .before := by
  have hm : l.head.1 ∈ l.syms := by simp [Level.syms, Level.entries]
  simp [Level.entries, placeAt, h1 _ hm, h2 _ hm]

theorem placeAt_none {target after : List String} (es : List (String × OpDef V σ))
    (h1 : ∀ s ∈ es.map Prod.fst, s ∉ target) (h2 : ∀ s ∈ es.map Prod.fst, s ∉ after) :
    placeAt target after es = none := by
  induction es with
  | nil => rfl
  | cons e es ih =>
    simp only [placeAt]
    rw [if_neg (h1 _ (by simp)), if_neg (h2 _ (by simp))]
    exact ih (fun s hs => h1 s (by simp only [List.map_cons, List.mem_cons]; exact Or.inr hs))
      (fun s hs => h2 s (by simp only [List.map_cons, List.mem_cons]; exact Or.inr hs))

/-! ### The rows found for a symbol -/

theorem target_here {r : List String} {rows : List (List String)} {sym : String} (h : sym ∈ r)
    (hd : DisjointRows (r :: rows)) : targetRow (r :: rows) sym = some r ∧
      ∀ s, s ∈ afterSymbols (r :: rows) sym ↔ s ∈ rows.flatten := by
  have hn : ∀ x ∈ rows, sym ∉ x := fun x hx hs => 
    disjoint_flatten hd sym h (List.mem_flatten.mpr ⟨x, hx, hs⟩)
  constructor
  · unfold targetRow
    have : rows.filter (fun r => decide (sym ∈ r)) = [] := by
      rw [List.filter_eq_nil_iff]
      intro x hx
      simpa using hn x hx
    simp [h, this]
  · intro s
    unfold afterSymbols
    have : rows.filter (fun r => decide (sym ∉ r)) = rows := by
      rw [List.filter_eq_self]
      intro x hx
      simpa using hn x hx
    simp only [List.dropWhile_cons, h, not_true_eq_false, decide_false, Bool.false_eq_true,
      if_false, List.filter_cons]
    rw [this]

theorem target_later {r : List String} {rows : List (List String)} {sym : String} (h : sym ∉ r) :
    targetRow (r :: rows) sym = targetRow rows sym ∧
      afterSymbols (r :: rows) sym = afterSymbols rows sym := by
  constructor
  · simp [targetRow, h]
  · simp [afterSymbols, h]

theorem target_mem {rows : List (List String)} {sym : String} {r : List String}
    (h : targetRow rows sym = some r) : r ∈ rows ∧ sym ∈ r := by
  unfold targetRow at h
  have := List.mem_of_getLast? h
  simpa using List.mem_filter.mp this

theorem after_mem {rows : List (List String)} {sym s : String}
    (h : s ∈ afterSymbols rows sym) : s ∈ rows.flatten := by
  unfold afterSymbols at h
  obtain ⟨r, hr, hs⟩ := List.mem_flatten.mp h
  exact List.mem_flatten.mpr
    ⟨r, (List.dropWhile_sublist _).subset (List.mem_filter.mp hr).1, hs⟩

theorem target_some {rows : List (List String)} {sym : String} (h : sym ∈ rows.flatten) :
    ∃ r, targetRow rows sym = some r := by
  unfold targetRow
  obtain ⟨r, hr, hs⟩ := List.mem_flatten.mp h
  cases hl : (rows.filter (fun r => decide (sym ∈ r))).getLast? with
  | some x => exact ⟨x, rfl⟩
  | none =>
    rw [List.getLast?_eq_none_iff, List.filter_eq_nil_iff] at hl
    exact absurd (by simpa using hs) (hl r hr)

/-! ### Adding an operator -/

/-- What adding an operator to a table that follows the layout does. -/
structure Added (rows : List (List String)) (sym : String) (op : OpDef V σ)
    (t t' : List (Level V σ)) : Prop where
  fits : FitsLayout rows t'
  syms : ∀ s, s ∈ tableSyms t' ↔ s ∈ tableSyms t ∨ s = sym
  lookup : ∀ s, (t'.flatMap Level.entries).lookup s
    = if s = sym then some op else (t.flatMap Level.entries).lookup s

theorem lookup_append {D : Type} (a b : List (String × D)) (s : String) :
    (a ++ b).lookup s = ((a.lookup s).or (b.lookup s)) := by
  induction a with
  | nil => simp
  | cons e a ih =>
    simp only [List.cons_append, lookup_cons, ih]
    split <;> simp

theorem lookup_none {D : Type} {a : List (String × D)} {s : String}
    (h : s ∉ a.map Prod.fst) : a.lookup s = none := by
  rw [List.lookup_eq_none_iff]
  intro e he
  simp only [ne_eq, bne_iff_ne]
  rintro rfl
  exact h (List.mem_map_of_mem he)

theorem syms_entries (t : List (Level V σ)) :
    (t.flatMap Level.entries).map Prod.fst = tableSyms t := by
  induction t with
  | nil => rfl
  | cons l t ih => rw [List.flatMap_cons, List.map_append, ih]; rfl

/-- Adding an operator: the loop of `add_op` on a table that follows the layout. -/
theorem insertOp_spec {rows : List (List String)} {t : List (Level V σ)} (h : FitsLayout rows t)
    (hd : DisjointRows rows) {sym : String} {op : OpDef V σ} {target : List String}
    {after : List String}
    (ht : targetRow rows sym = some target)
    (ha : ∀ s, s ∈ after ↔ s ∈ afterSymbols rows sym)
    (hrtl : ∀ e ∈ t.flatMap Level.entries, e.1 ∈ target → e.2.rtl = op.rtl) :
    ∃ t', insertOp target after sym op t = .ok t' ∧ Added rows sym op t t' := by
  have newFits : ∀ {r : List String} {rows : List (List String)} {t : List (Level V σ)},
      sym ∈ r → FitsLayout rows t →
      Added (r :: rows) sym op t (⟨(sym, op), []⟩ :: t) := by
    intro r rows t hs hf
    refine ⟨.take ⟨?_, ?_, ?_⟩ hf, ?_, ?_⟩
    · simpa [Level.syms, Level.entries] using hs
    · simp [Level.syms, Level.entries]
    · simp [Level.entries]
    · intro s
      simp [tableSyms, Level.syms, Level.entries, or_comm]
    · intro s
      simp only [List.flatMap_cons, Level.entries, List.cons_append, List.nil_append,
        lookup_cons]
  induction h with
  | nil => simp [targetRow] at ht
  | @skip r rows t hf ih =>
    have hd' : DisjointRows rows := List.Pairwise.of_cons hd
    by_cases hs : sym ∈ r
    · obtain ⟨h1, h2⟩ := target_here hs hd
      rw [h1] at ht
      obtain rfl := Option.some.inj ht
      refine ⟨⟨(sym, op), []⟩ :: t, ?_, newFits hs hf⟩
      cases t with
      | nil => rfl
      | cons l t =>
        have hm : ∀ s ∈ l.syms, s ∈ rows.flatten := fun s hs =>
          hf.mem s (by simp [tableSyms, hs])
        have : placeAt r after l.entries = some .before := placeAt_before
          (fun s hs hr => disjoint_flatten hd s hr (hm s hs))
          (fun s hs => (ha s).mpr ((h2 s).mpr (hm s hs)))
        simp only [insertOp, this]
    · obtain ⟨h1, h2⟩ := target_later (rows := rows) hs
      rw [h1] at ht
      obtain ⟨t', e, a⟩ := ih hd' ht (by intro s; rw [ha s, h2]) hrtl
      exact ⟨t', e, .skip a.fits, a.syms, a.lookup⟩
  | @take r rows l t hl hf ih =>
    have hd' : DisjointRows rows := List.Pairwise.of_cons hd
    by_cases hs : sym ∈ r
    · obtain ⟨h1, h2⟩ := target_here hs hd
      rw [h1] at ht
      obtain rfl := Option.some.inj ht
      have hhead : l.head.2.rtl = op.rtl := hrtl l.head (by simp [Level.entries])
        (hl.sub _ (by simp [Level.syms, Level.entries]))
      refine ⟨l.set sym op :: t, ?_, .take (hl.set hs hhead.symm) hf, ?_, ?_⟩
      · simp only [insertOp, placeAt_row hl]
        rw [if_neg (by simp [hhead])]
      · intro s
        simp only [tableSyms, List.flatMap_cons, List.mem_append, Level.set_syms]
        split
        · next hm =>
          constructor
          · exact Or.inl
          · rintro (h | rfl)
            · exact h
            · exact Or.inl hm
        · simp only [List.mem_append, List.mem_singleton]
          tauto
      · intro s
        simp only [List.flatMap_cons, lookup_append, Level.set_entries, dictSet_lookup]
        split <;> simp
    · obtain ⟨h1, h2⟩ := target_later (rows := rows) hs
      rw [h1] at ht
      have htm := target_mem ht
      have htf : ∀ s ∈ target, s ∈ rows.flatten := fun s hs =>
        List.mem_flatten.mpr ⟨target, htm.1, hs⟩
      obtain ⟨t', e, a⟩ := ih hd' ht (by intro s; rw [ha s, h2]) (by
        intro e he
        exact hrtl e (by simp only [List.flatMap_cons, List.mem_append]; exact Or.inr he))
      refine ⟨l :: t', ?_, .take hl a.fits, ?_, ?_⟩
      · have : placeAt target after l.entries = none := placeAt_none _
          (fun s hs' hr => disjoint_flatten hd s (hl.sub s hs') (htf s hr))
          (fun s hs' hr => disjoint_flatten hd s (hl.sub s hs')
            (after_mem (sym := sym) (by rw [← h2]; exact (ha s).mp hr)))
        simp only [insertOp, this, e]
      · intro s
        have := a.syms s
        simp only [tableSyms, List.flatMap_cons, List.mem_append] at this ⊢
        rw [this]
        tauto
      · intro s
        simp only [List.flatMap_cons, lookup_append, a.lookup]
        by_cases h : s = sym
        · subst h
          have : l.entries.lookup s = none := lookup_none (fun hm => hs (hl.sub s hm))
          simp [this]
        · simp [h]

/-- `add_op` on a table that follows the layout. -/
theorem addOp_spec {rows : List (List String)} {t : List (Level V σ)} (h : FitsLayout rows t)
    (hd : DisjointRows rows) {sym : String} {op : OpDef V σ} (hs : sym ∈ rows.flatten)
    (hrtl : ∀ r ∈ rows, sym ∈ r → ∀ e ∈ t.flatMap Level.entries, e.1 ∈ r → e.2.rtl = op.rtl) :
    ∃ t', addOp rows sym op t = .ok t' ∧ Added rows sym op t t' := by
  obtain ⟨r, hr⟩ := target_some hs
  unfold addOp
  rw [hr]
  have hm := target_mem hr
  exact insertOp_spec h hd hr (fun s => Iff.rfl) (hrtl r hm.1 hm.2)

theorem FitsLayout.empty (rows : List (List String)) : FitsLayout rows ([] : List (Level V σ)) := by
  induction rows with
  | nil => exact .nil
  | cons r rows ih => exact .skip ih

theorem FitsLayout.nodup {rows : List (List String)} {t : List (Level V σ)} (h : FitsLayout rows t)
    (hd : DisjointRows rows) : (tableSyms t).Nodup := by
  induction h with
  | nil => simp [tableSyms]
  | skip _ ih => exact ih (List.Pairwise.of_cons hd)
  | take hl hf ih =>
    simp only [tableSyms, List.flatMap_cons]
    rw [List.nodup_append]
    refine ⟨hl.nodup, ih (List.Pairwise.of_cons hd), ?_⟩
    rintro a ha b hb rfl
    exact disjoint_flatten hd a (hl.sub a ha) (hf.mem a hb)

/-- The lookup of the engine (last entry) is the same as the first, as symbols are there once. -/
theorem lookup_reverse {D : Type} {es : List (String × D)} (h : (es.map Prod.fst).Nodup)
    (s : String) : es.reverse.lookup s = es.lookup s := by
  induction es with
  | nil => rfl
  | cons e es ih =>
    simp only [List.map_cons, List.nodup_cons] at h
    rw [List.reverse_cons, lookup_append, ih h.2, lookup_cons, lookup_cons, List.lookup_nil]
    by_cases hs : s = e.1
    · subst hs
      simp [lookup_none h.1]
    · simp [hs]

theorem lookup_mem {D : Type} {es : List (String × D)} {s : String} {d : D}
    (h : es.lookup s = some d) : (s, d) ∈ es := by
  induction es with
  | nil => simp at h
  | cons e es ih =>
    rw [lookup_cons] at h
    split at h
    · next hb =>
      rw [← Option.some.inj h, hb]
      simp
    · exact List.mem_cons_of_mem _ (ih h)

theorem mem_lookup {D : Type} {es : List (String × D)} (hn : (es.map Prod.fst).Nodup)
    {e : String × D} (h : e ∈ es) : es.lookup e.1 = some e.2 := by
  induction es with
  | nil => simp at h
  | cons x es ih =>
    simp only [List.map_cons, List.nodup_cons] at hn
    rw [lookup_cons]
    rcases List.mem_cons.mp h with rfl | h
    · simp
    · rw [if_neg (fun he : e.1 = x.1 => hn.1 (he ▸ List.mem_map_of_mem h))]
      exact ih hn.2 h

/-! ### The rows of the table -/

theorem FitsLayout.rows {rows : List (List String)} {t : List (Level V σ)} (h : FitsLayout rows t)
    (hd : DisjointRows rows) (hr : ∀ r ∈ rows, r.Nodup) {added : List String}
    (ha : ∀ s ∈ rows.flatten, (s ∈ tableSyms t ↔ s ∈ added)) :
    List.Forall₂ (fun l r => l.syms.Perm r) t (Spec.restrict rows added) := by
  induction h with
  | nil => simp [Spec.restrict]
  | @skip r rows t hf ih =>
    have he : r.filter (fun s => decide (s ∈ added)) = [] := by
      rw [List.filter_eq_nil_iff]
      intro s hs
      have h1 : s ∉ tableSyms t := fun hm => disjoint_flatten hd s hs (hf.mem s hm)
      have h2 := ha s (by simp [hs])
      simp only [decide_eq_true_eq]
      exact fun h => h1 (h2.mpr h)
    have : Spec.restrict (r :: rows) added = Spec.restrict rows added := by
      simp only [Spec.restrict, List.map_cons, he]
      simp
    rw [this]
    exact ih (List.Pairwise.of_cons hd) (fun r hr' => hr r (List.mem_cons_of_mem _ hr'))
      (fun s hs => ha s (by rw [List.flatten_cons, List.mem_append]; exact Or.inr hs))
  | @take r rows l t hl hf ih =>
    have hp : l.syms.Perm (r.filter (fun s => decide (s ∈ added))) := by
      rw [List.perm_ext_iff_of_nodup hl.nodup ((hr r (by simp)).filter _)]
      intro s
      rw [List.mem_filter, decide_eq_true_eq]
      constructor
      · intro hs
        have hsr := hl.sub s hs
        exact ⟨hsr, (ha s (by simp [hsr])).mp (by simp [tableSyms, hs])⟩
      · rintro ⟨hsr, hsa⟩
        have := (ha s (by simp [hsr])).mpr hsa
        simp only [tableSyms, List.flatMap_cons, List.mem_append] at this
        rcases this with h | h
        · exact h
        · exact absurd (hf.mem s h) (disjoint_flatten hd s hsr)
    have hne : r.filter (fun s => decide (s ∈ added)) ≠ [] := by
      intro h
      rw [h] at hp
      have := hp.length_eq
      simp [Level.syms, Level.entries] at this
    have : Spec.restrict (r :: rows) added
        = r.filter (fun s => decide (s ∈ added)) :: Spec.restrict rows added := by
      simp only [Spec.restrict, List.map_cons, List.filter_cons]
      simp [hne]
    rw [this]
    refine .cons hp (ih (List.Pairwise.of_cons hd)
      (fun r hr' => hr r (List.mem_cons_of_mem _ hr')) ?_)
    intro s hs
    rw [← ha s (by rw [List.flatten_cons, List.mem_append]; exact Or.inr hs)]
    simp only [tableSyms, List.flatMap_cons, List.mem_append]
    constructor
    · exact Or.inr
    · rintro (h | h)
      · exact absurd hs (disjoint_flatten hd s (hl.sub s h))
      · exact h

end MC
