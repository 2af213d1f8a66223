import Verif.Lemmas.Table2
import Verif.Model.Shipped
import Mathlib.Data.List.Induction
import Mathlib.Data.List.Pairwise

/-!
# C38, C39: the operator table and the parser list do not depend on the order of installation
-/

namespace MC.Props
open MC MC.Spec

variable {V σ : Type}

/-- A layout: no symbol twice. -/
structure GoodLayout (layout : List (List String)) : Prop where
  disjoint : layout.Pairwise List.Disjoint
  nodup : ∀ r ∈ layout, r.Nodup

/-- Operators that can be added: each has a place in the layout, and operators of one row are
read in the same direction. -/
structure Addable (layout : List (List String)) (adds : List (String × OpDef V σ)) : Prop where
  known : ∀ e ∈ adds, ∃ r ∈ layout, e.1 ∈ r
  direction : ∀ r ∈ layout, ∀ e ∈ adds, ∀ e' ∈ adds, e.1 ∈ r → e'.1 ∈ r → e.2.rtl = e'.2.rtl

theorem lastFor_append {D : Type} (s : String) (adds : List (String × D)) (e : String × D) :
    lastFor s (adds ++ [e]) = if s = e.1 then some e.2 else lastFor s adds := by
  unfold lastFor
  rw [List.filter_append, List.map_append]
  by_cases h : s = e.1
  · simp [h]
  · simp [h, Ne.symm h]

theorem addOps_append (layout : List (List String)) (a b : List (String × OpDef V σ))
    (t : List (Level V σ)) : addOps layout (a ++ b) t
      = (match addOps layout a t with
        | .ok t' => addOps layout b t'
        | .error e => .error e) := by
  induction a generalizing t with
  | nil => rfl
  | cons e a ih =>
    simp only [List.cons_append, addOps]
    cases addOp layout e.1 e.2 t with
    | ok t' => simp only [ih]
    | error _ => rfl

/-- What holds after a number of additions. -/
theorem addOps_spec {layout : List (List String)} (hl : GoodLayout layout)
    (adds : List (String × OpDef V σ)) (ha : Addable layout adds) :
    ∃ t, addOps layout adds [] = .ok t ∧ FitsLayout layout t ∧
      (∀ s, s ∈ tableSyms t ↔ s ∈ adds.map Prod.fst) ∧
      (∀ s, (t.flatMap Level.entries).lookup s = lastFor s adds) := by
  induction adds using List.reverseRecOn with
  | nil => exact ⟨[], rfl, FitsLayout.empty _, by simp [tableSyms], by simp [lastFor]⟩
  | append_singleton adds e ih =>
    obtain ⟨t, h1, h2, h3, h4⟩ := ih ⟨fun e he => ha.known e (by simp [he]),
      fun r hr e he e' he' => ha.direction r hr e (by simp [he]) e' (by simp [he'])⟩
    have hk : e.1 ∈ layout.flatten := List.mem_flatten.mpr (ha.known e (by simp))
    obtain ⟨t', h5, h6⟩ := addOp_spec (op := e.2) h2 hl.disjoint hk (by
      intro r hr hs x hx hxr
      have hx' : (t.flatMap Level.entries).lookup x.1 = some x.2 :=
        mem_lookup (by rw [syms_entries]; exact h2.nodup hl.disjoint) hx
      rw [h4] at hx'
      unfold lastFor at hx'
      obtain ⟨y, hy, hyx⟩ := List.mem_map.mp (List.mem_of_getLast? hx')
      obtain ⟨hy1, hy2⟩ := List.mem_filter.mp hy
      have hy3 : y.1 = x.1 := by simpa using hy2
      rw [← hyx]
      exact ha.direction r hr y (by simp [hy1]) e (by simp) (hy3 ▸ hxr) hs)
    refine ⟨t', ?_, h6.fits, ?_, ?_⟩
    · rw [addOps_append, h1]
      simp only [addOps, h5]
    · intro s
      rw [h6.syms, h3]
      simp
    · intro s
      rw [h6.lookup, lastFor_append, h4]

theorem opsList_first {layout : List (List String)} (hl : GoodLayout layout) (cfg : Config V σ)
    (h : FitsLayout layout cfg.ops) (s : String) :
    opsList cfg s = (cfg.ops.flatMap Level.entries).lookup s := by
  unfold opsList
  exact lookup_reverse (by rw [syms_entries]; exact h.nodup hl.disjoint) s

/-- **C38**: operators can be added in any order, and the precedence table is then the layout
restricted to them (rows without operators left out, the symbols of a row in any order); each
symbol has the definition added last. -/
theorem C38_table {layout : List (List String)} (hl : GoodLayout layout)
    (adds : List (String × OpDef V σ)) (ha : Addable layout adds) :
    ∃ t, addOps layout adds [] = .ok t ∧
      List.Forall₂ (fun (level : Level V σ) row => (level.entries.map Prod.fst).Perm row)
        t (restrict layout (adds.map Prod.fst)) ∧
      ∀ cfg : Config V σ, cfg.ops = t → ∀ s, opsList cfg s = lastFor s adds := by
  obtain ⟨t, h1, h2, h3, h4⟩ := addOps_spec hl adds ha
  refine ⟨t, h1, h2.rows hl.disjoint hl.nodup (fun s _ => h3 s), ?_⟩
  rintro cfg rfl s
  rw [opsList_first hl cfg h2, h4]

theorem head_rtl {layout : List (List String)} (hl : GoodLayout layout) (cfg : Config V σ)
    (h : FitsLayout layout cfg.ops) {l : Level V σ} (hm : l ∈ cfg.ops) :
    opsList cfg l.head.1 = some l.head.2 := by
  rw [opsList_first hl cfg h]
  exact mem_lookup (by rw [syms_entries]; exact h.nodup hl.disjoint)
    (List.mem_flatMap.mpr ⟨l, hm, by simp [Level.entries]⟩)

theorem fits_inRow {layout : List (List String)} {t : List (Level V σ)} (h : FitsLayout layout t) :
    ∀ l ∈ t, ∀ e ∈ l.entries, e.2.rtl = l.head.2.rtl := by
  induction h with
  | nil => simp
  | skip _ ih => exact ih
  | take hl _ ih =>
    intro l hm
    rcases List.mem_cons.mp hm with rfl | hm
    · exact hl.rtl
    · exact ih l hm

/-- Two lists of additions with the same definitions give tables that behave the same. -/
theorem same_table {layout : List (List String)} (hl : GoodLayout layout)
    {adds adds' : List (String × OpDef V σ)} (ha : Addable layout adds)
    (ha' : Addable layout adds') (hsame : ∀ s, lastFor s adds = lastFor s adds')
    (cfg : Config V σ) :
    ∃ t t', addOps layout adds [] = .ok t ∧ addOps layout adds' [] = .ok t' ∧
      SameTable { cfg with ops := t } { cfg with ops := t' } := by
  obtain ⟨t, h1, h2, h3, h4⟩ := addOps_spec hl adds ha
  obtain ⟨t', h1', h2', h3', h4'⟩ := addOps_spec hl adds' ha'
  have hlook : opsList { cfg with ops := t } = opsList { cfg with ops := t' } := by
    funext s
    rw [opsList_first hl _ (by exact h2), opsList_first hl _ (by exact h2')]
    rw [h4, h4', hsame]
  have hmem : ∀ s, s ∈ adds.map Prod.fst ↔ s ∈ adds'.map Prod.fst := by
    have key : ∀ (a : List (String × OpDef V σ)) s, s ∈ a.map Prod.fst ↔ lastFor s a ≠ none := by
      intro a s
      unfold lastFor
      rw [Ne, List.getLast?_eq_none_iff, List.map_eq_nil_iff, List.filter_eq_nil_iff]
      simp only [List.mem_map, decide_eq_true_eq]
      push Not
      rfl
    intro s
    rw [key, key, hsame]
  have hrows : List.Forall₂ (fun (l1 l2 : Level V σ) => l1.syms.Perm l2.syms) t t' := by
    have r1 := h2.rows hl.disjoint hl.nodup (fun s _ => h3 s)
    have r2 := h2'.rows hl.disjoint hl.nodup (added := adds.map Prod.fst)
      (fun s _ => by rw [h3', hmem])
    revert r1 r2
    generalize restrict layout (adds.map Prod.fst) = rows
    clear h1 h1' h2 h2' h3 h3' h4 h4' hlook
    intro r1 r2
    induction r1 generalizing t' with
    | nil => cases r2; exact .nil
    | cons hp _ ih =>
      cases r2 with
      | cons hp' r2 => exact .cons (hp.trans hp'.symm) (ih _ r2)
  refine ⟨t, t', h1, h1', rfl, ?_, hlook⟩
  have hmemb : ∀ {l1 l2 : Level V σ}, l1 ∈ t → l2 ∈ t' → l1.syms.Perm l2.syms →
      l1.has = l2.has ∧ (opsList { cfg with ops := t } l1.head.1).map OpDef.rtl
        = (opsList { cfg with ops := t' } l2.head.1).map OpDef.rtl := by
    intro l1 l2 m1 m2 hp
    constructor
    · funext s
      rw [Bool.eq_iff_iff, Level.has_syms, Level.has_syms]
      exact hp.mem_iff
    · rw [head_rtl hl { cfg with ops := t } h2 m1, head_rtl hl { cfg with ops := t' } h2' m2]
      simp only [Option.map_some, Option.some.injEq]
      have hin : l1.head.1 ∈ l2.syms := hp.mem_iff.mp (by simp [Level.syms, Level.entries])
      obtain ⟨e, he, hee⟩ := List.mem_map.mp hin
      have hr := fits_inRow h2' l2 m2 e he
      have e1 : opsList { cfg with ops := t' } e.1 = some e.2 := by
        rw [opsList_first hl _ (by exact h2')]
        exact mem_lookup (by rw [syms_entries]; exact h2'.nodup hl.disjoint)
          (List.mem_flatMap.mpr ⟨l2, m2, he⟩)
      rw [hee, ← hlook, head_rtl hl { cfg with ops := t } h2 m1] at e1
      rw [Option.some.inj e1, hr]
  clear h1 h1' h2 h2' h3 h3' h4 h4'
  show List.Forall₂ _ t t'
  revert hmemb
  generalize ho : opsList { cfg with ops := t } = o
  generalize ho' : opsList { cfg with ops := t' } = o'
  clear ho ho' hlook
  intro hmemb
  induction hrows with
  | nil => exact .nil
  | cons hp _ ih =>
    refine .cons (hmemb (by simp) (by simp) hp) (ih ?_)
    intro l1 l2 m1 m2 hp
    exact hmemb (by simp [m1]) (by simp [m2]) hp

/-- **C38**: the order of the additions cannot be observed: two histories of additions that leave
the same definition for every symbol give the same answer to every calculation, errors and
variables included. -/
theorem C38_order {layout : List (List String)} (hl : GoodLayout layout)
    {adds adds' : List (String × OpDef V σ)} (ha : Addable layout adds)
    (ha' : Addable layout adds') (hsame : ∀ s, lastFor s adds = lastFor s adds')
    (cfg : Config V σ) :
    ∃ t t', addOps layout adds [] = .ok t ∧ addOps layout adds' [] = .ok t' ∧
      ∀ (A : Type) (atomVal : A → Act σ V) (finalize : V → Act σ V)
        (statements : List (List (Node A))) (s : σ),
        calculate { cfg with ops := t } atomVal finalize 0 statements s
          = calculate { cfg with ops := t' } atomVal finalize 0 statements s := by
  obtain ⟨t, t', h1, h2, h3⟩ := same_table hl ha ha' hsame cfg
  exact ⟨t, t', h1, h2, fun A av fin st s => h3.calculate av fin 0 st s⟩

/-- **C38**: in particular any permutation of operators with different symbols. -/
theorem C38_permutation {layout : List (List String)} (hl : GoodLayout layout)
    {adds adds' : List (String × OpDef V σ)} (ha : Addable layout adds)
    (hd : (adds.map Prod.fst).Nodup) (hp : adds.Perm adds') (cfg : Config V σ) :
    ∃ t t', addOps layout adds [] = .ok t ∧ addOps layout adds' [] = .ok t' ∧
      ∀ (A : Type) (atomVal : A → Act σ V) (finalize : V → Act σ V)
        (statements : List (List (Node A))) (s : σ),
        calculate { cfg with ops := t } atomVal finalize 0 statements s
          = calculate { cfg with ops := t' } atomVal finalize 0 statements s := by
  have ha' : Addable layout adds' := ⟨fun e he => ha.known e (hp.mem_iff.mpr he),
    fun r hr e he e' he' => ha.direction r hr e (hp.mem_iff.mpr he) e' (hp.mem_iff.mpr he')⟩
  refine C38_order hl ha ha' ?_ cfg
  intro s
  have key : ∀ a : List (String × OpDef V σ), (a.map Prod.fst).Nodup →
      (a.filter (fun e => e.1 = s)).length ≤ 1 := by
    intro a
    induction a with
    | nil => simp
    | cons e a ih =>
      intro h
      simp only [List.map_cons, List.nodup_cons] at h
      by_cases hs : e.1 = s
      · have : a.filter (fun e => decide (e.1 = s)) = [] := by
          rw [List.filter_eq_nil_iff]
          intro x hx
          simp only [decide_eq_true_eq]
          rintro h'
          exact h.1 (hs ▸ h' ▸ List.mem_map_of_mem hx)
        simp [hs, this]
      · simpa [hs] using ih h.2
  unfold lastFor
  have hf := hp.filter (fun e => decide (e.1 = s))
  have hlen := key adds hd
  revert hf hlen
  generalize adds.filter (fun e => decide (e.1 = s)) = a
  generalize adds'.filter (fun e => decide (e.1 = s)) = a'
  intro hf hlen
  match a, hlen with
  | [], _ => rw [List.nil_perm.mp hf]
  | [x], _ => rw [List.singleton_perm.mp hf]
  | _ :: _ :: _, h => simp at h

/-- **C38**: an operator read in another direction than its row is refused, and the table stays as
it is (`add_op` raises before it changes anything). -/
theorem C38_direction_refused {layout : List (List String)} (hl : GoodLayout layout)
    {adds : List (String × OpDef V σ)} (ha : Addable layout adds) {e e' : String × OpDef V σ}
    {r : List String} (hr : r ∈ layout) (he : e ∈ adds)
    (h1 : e.1 ∈ r) (h2 : e'.1 ∈ r)
    (hne : e'.2.rtl ≠ e.2.rtl) :
    ∃ t, addOps layout adds [] = .ok t ∧ ∃ m, addOp layout e'.1 e'.2 t = .error (.calc m) := by
  obtain ⟨t, h3, h4, h5, h6⟩ := addOps_spec hl adds ha
  refine ⟨t, h3, ?_⟩
  have hall : ∀ x ∈ t.flatMap Level.entries, x.1 ∈ r → x.2.rtl = e.2.rtl := by
    intro x hx hxr
    have hx' : (t.flatMap Level.entries).lookup x.1 = some x.2 :=
      mem_lookup (by rw [syms_entries]; exact h4.nodup hl.disjoint) hx
    rw [h6] at hx'
    unfold lastFor at hx'
    obtain ⟨y, hy, hyx⟩ := List.mem_map.mp (List.mem_of_getLast? hx')
    obtain ⟨hy1, hy2⟩ := List.mem_filter.mp hy
    have hy3 : y.1 = x.1 := by simpa using hy2
    rw [← hyx]
    exact ha.direction r hr y hy1 e he (hy3 ▸ hxr) h1
  have hmem : e.1 ∈ tableSyms t := (h5 _).mpr (List.mem_map_of_mem he)
  clear h3 h5 h6 ha he
  unfold addOp
  obtain ⟨target, ht⟩ := target_some (List.mem_flatten.mpr ⟨r, hr, h2⟩)
  have htr : target = r := by
    obtain ⟨m1, m2⟩ := target_mem ht
    by_contra hn
    have : Std.Symm (@List.Disjoint String) := ⟨fun _ _ h _ h1 h2 => h h2 h1⟩
    have := hl.disjoint.forall m1 hr hn
    exact this m2 h2
  subst htr
  rw [ht]
  simp only
  have hd := hl.disjoint
  clear hl
  have hafter : ∀ s, s ∈ afterSymbols layout e'.1 ↔ s ∈ afterSymbols layout e'.1 := fun _ => Iff.rfl
  revert hafter
  generalize hA : afterSymbols layout e'.1 = after at *
  intro _
  have hA' : ∀ s ∈ after, s ∈ afterSymbols layout e'.1 := by rw [hA]; exact fun _ h => h
  clear hA hr
  induction h4 with
  | nil => simp [tableSyms] at hmem
  | @skip q rows t hf ih =>
    by_cases hq : e'.1 ∈ q
    · obtain ⟨k1, k2⟩ := target_here hq hd
      rw [ht] at k1
      obtain rfl := Option.some.inj k1
      exact absurd (hf.mem _ hmem) (disjoint_flatten hd _ h1)
    · obtain ⟨k1, k2⟩ := target_later (rows := rows) hq
      exact ih hmem (by rw [← k1]; exact ht) hall (List.Pairwise.of_cons hd)
        (by rw [← k2]; exact hA')
  | @take q rows l t hlq hf ih =>
    by_cases hq : e'.1 ∈ q
    · obtain ⟨k1, k2⟩ := target_here hq hd
      rw [ht] at k1
      obtain rfl := Option.some.inj k1
      simp only [insertOp, placeAt_row hlq]
      have : l.head.2.rtl = e.2.rtl := hall _ (by simp [Level.entries])
        (hlq.sub _ (by simp [Level.syms, Level.entries]))
      rw [if_pos (by rw [this]; exact hne)]
      exact ⟨_, rfl⟩
    · obtain ⟨k1, k2⟩ := target_later (rows := rows) hq
      have htm := target_mem (k1 ▸ ht)
      have htf : ∀ s ∈ target, s ∈ rows.flatten := fun s hs =>
        List.mem_flatten.mpr ⟨target, htm.1, hs⟩
      have hmem' : e.1 ∈ tableSyms t := by
        simp only [tableSyms, List.flatMap_cons, List.mem_append] at hmem
        rcases hmem with h | h
        · exact absurd (htf _ h1) (disjoint_flatten hd _ (hlq.sub _ h))
        · exact h
      obtain ⟨m, hm⟩ := ih hmem' (by rw [← k1]; exact ht) (fun x hx => hall x (by
          simp only [List.flatMap_cons, List.mem_append]; exact Or.inr hx))
        (List.Pairwise.of_cons hd) (by rw [← k2]; exact hA')
      have : placeAt target after l.entries = none := placeAt_none _
        (fun s hs' hr => disjoint_flatten hd s (hlq.sub s hs') (htf s hr))
        (fun s hs' hr => disjoint_flatten hd s (hlq.sub s hs')
          (after_mem (sym := e'.1) (by rw [← k2]; exact hA' s hr)))
      simp only [insertOp, this, hm]
      exact ⟨_, rfl⟩

/-- The shipped layout has no symbol twice. -/
theorem C38_shipped_layout : GoodLayout opMap := by
  constructor
  · unfold opMap List.Disjoint
    decide +kernel
  · decide +kernel

/-- All shipped operators can be added, in any order. -/
theorem C38_shipped_addable (call : String → List V → Act σ V) :
    Addable opMap ((shippedRows.flatMap (fun r => r.1 :: r.2)).map
      (fun e => (e.1, e.2.toOp (call e.1)))) := by
  constructor
  · intro e he
    obtain ⟨x, hx, rfl⟩ := List.mem_map.mp he
    have : ∀ x ∈ shippedRows.flatMap (fun r => r.1 :: r.2), ∃ r ∈ opMap, x.1 ∈ r := by
      decide +kernel
    exact this x hx
  · intro r hr e he e' he' h1 h2
    obtain ⟨x, hx, rfl⟩ := List.mem_map.mp he
    obtain ⟨y, hy, rfl⟩ := List.mem_map.mp he'
    have : ∀ r ∈ opMap, ∀ x ∈ shippedRows.flatMap (fun r => r.1 :: r.2),
        ∀ y ∈ shippedRows.flatMap (fun r => r.1 :: r.2),
        x.1 ∈ r → y.1 ∈ r → x.2.rtl = y.2.rtl := by decide +kernel
    exact this r hr x hx y hy h1 h2

/-- Three operators of two rows, in an order that is not the layout's: `-`, `=`, `+`. -/
example : ∃ t : List (Level Unit Unit), addOps opMap [("-", infixOp.toOp fun _ s => (.ok (), s)),
      ("=", infixOp.toOp fun _ s => (.ok (), s)), ("+", infixOp.toOp fun _ s => (.ok (), s))] []
      = .ok t ∧ t.map (fun l => l.entries.map Prod.fst) = [["-", "+"], ["="]] ∧
    restrict opMap ["-", "=", "+"] = [["+", "-"], ["="]] := by
  refine ⟨_, rfl, rfl, by decide +kernel⟩

/-! ## C39 -/

theorem lookup_filterMap {F : Type} (map : List String) (f : String → Option F) (p : String) :
    ((map.filterMap (fun p => (f p).map (fun r => (p, r)))).reverse.lookup p)
      = if p ∈ map then f p else none := by
  have key : ∀ l : List String, ((l.filterMap (fun p => (f p).map (fun r => (p, r)))).lookup p)
      = if p ∈ l then f p else none := by
    intro l
    induction l with
    | nil => simp
    | cons q l ih =>
      cases hq : f q with
      | none =>
        simp only [List.filterMap_cons, hq, Option.map_none, ih, List.mem_cons]
        by_cases h : p = q
        · subst h; simp [hq]
        · simp [h]
      | some r =>
        simp only [List.filterMap_cons, hq, Option.map_some, lookup_cons, ih, List.mem_cons]
        by_cases h : p = q
        · subst h; simp [hq]
        · simp [h]
  rw [← List.filterMap_reverse, key]
  simp

/-- **C39**: after any registrations of parsers, the parsers are those of the configured order that
were registered, each with the function registered last.  (Names that are not in the configured
order are dropped.) -/
theorem C39_parsers {F : Type} (map : List String) (adds : List (String × F)) :
    adds.foldl (fun ps e => addParser map e.1 e.2 ps) []
      = map.filterMap (fun p => (lastFor p adds).map (fun f => (p, f))) := by
  induction adds using List.reverseRecOn with
  | nil => simp [lastFor]
  | append_singleton adds e ih =>
    rw [List.foldl_append, ih]
    simp only [List.foldl_cons, List.foldl_nil, addParser]
    apply List.filterMap_congr
    intro p hp
    congr 1
    rw [List.reverse_append, List.reverse_singleton, List.singleton_append, lookup_cons,
      lookup_filterMap, lastFor_append, if_pos hp]

/-- **C39**: each name is there once, in the configured order. -/
theorem C39_order {F : Type} (map : List String) (hm : map.Nodup) (adds : List (String × F)) :
    let parsers := adds.foldl (fun ps e => addParser map e.1 e.2 ps) []
    (parsers.map Prod.fst).Sublist map ∧ (parsers.map Prod.fst).Nodup ∧
      (∀ n ∈ map, n ∈ parsers.map Prod.fst ↔ n ∈ adds.map Prod.fst) ∧
      ∀ n f, (n, f) ∈ parsers → lastFor n adds = some f := by
  intro parsers
  have hp : parsers = map.filterMap (fun p => (lastFor p adds).map (fun f => (p, f))) :=
    C39_parsers map adds
  have hmap : parsers.map Prod.fst = map.filter (fun p => (lastFor p adds).isSome) := by
    rw [hp]
    clear hp hm parsers
    induction map with
    | nil => rfl
    | cons q l ih =>
      simp only [List.filterMap_cons, List.filter_cons]
      cases h : lastFor q adds with
      | none => simpa using ih
      | some f => simpa using ih
  have hs : (parsers.map Prod.fst).Sublist map := by rw [hmap]; exact List.filter_sublist
  refine ⟨hs, hm.sublist hs, ?_, ?_⟩
  · intro n hn
    rw [hmap, List.mem_filter]
    simp only [hn, true_and]
    unfold lastFor
    rw [Option.isSome_iff_ne_none, Ne, List.getLast?_eq_none_iff, List.map_eq_nil_iff,
      List.filter_eq_nil_iff]
    simp only [List.mem_map, decide_eq_true_eq]
    push Not
    rfl
  · intro n f h
    rw [hp, List.mem_filterMap] at h
    obtain ⟨p, _, h⟩ := h
    cases h' : lastFor p adds with
    | none => simp [h'] at h
    | some g =>
      simp only [h', Option.map_some, Option.some.injEq, Prod.mk.injEq] at h
      rw [← h.1, ← h.2, h']

/-- The shipped parser order has each name once. -/
theorem C39_shipped : parserMap.Nodup := by decide +kernel

/-- A parser registered twice, and a name that is not in the layout. -/
example : [("var", 1), ("number", 2), ("mine", 3), ("var", 4)].foldl
    (fun ps e => addParser parserMap e.1 e.2 ps) [] = [("number", 2), ("var", 4)] := by
  decide +kernel

end MC.Props
