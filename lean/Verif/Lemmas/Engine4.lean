import Mathlib.Order.Basic
import Mathlib.Data.Nat.Find
import Verif.Lemmas.Engine3

/-! # The loop computes the value of the dictated tree -/

namespace MC
open Spec

variable {V σ : Type} {cfg : Config V σ}
variable {f : String → List V → Except String V} {P : V → Prop}

mutual
/-- The operators of a tree. -/
def Spec.Tree.syms : Tree V → List String
  | .leaf _ _ => []
  | .app _ op l r => op :: (l.syms ++ r.syms)
  | .juxt s l r => s :: (l.syms ++ r.syms)
def Spec.Left.syms : Left V → List String
  | .none => []
  | .some t => t.syms
def Spec.Rights.syms : Rights V → List String
  | .nil => []
  | .sym _ _ r => r.syms
  | .arg t r => t.syms ++ r.syms
end

mutual
theorem allOps_iff (q : String → Prop) : ∀ t : Tree V, t.AllOps q ↔ ∀ s ∈ t.syms, q s
  | .leaf _ _ => by simp [Tree.AllOps, Tree.syms]
  | .app _ op l r => by
    simp only [Tree.AllOps, Tree.syms, allOps_iff_left q l, allOps_iff_rights q r]
    simp only [List.mem_cons, List.mem_append]
    constructor
    · rintro ⟨h1, h2, h3⟩ s (rfl | h | h)
      · exact h1
      · exact h2 s h
      · exact h3 s h
    · intro h
      exact ⟨h _ (Or.inl rfl), fun s hs => h s (Or.inr (Or.inl hs)),
        fun s hs => h s (Or.inr (Or.inr hs))⟩
  | .juxt s l r => by
    simp only [Tree.AllOps, Tree.syms, allOps_iff q l, allOps_iff q r]
    simp only [List.mem_cons, List.mem_append]
    constructor
    · rintro ⟨h1, h2, h3⟩ s (rfl | h | h)
      · exact h1
      · exact h2 s h
      · exact h3 s h
    · intro h
      exact ⟨h _ (Or.inl rfl), fun s hs => h s (Or.inr (Or.inl hs)),
        fun s hs => h s (Or.inr (Or.inr hs))⟩
theorem allOps_iff_left (q : String → Prop) : ∀ l : Left V, l.AllOps q ↔ ∀ s ∈ l.syms, q s
  | .none => by simp [Left.AllOps, Left.syms]
  | .some t => by simp only [Left.AllOps, Left.syms]; exact allOps_iff q t
theorem allOps_iff_rights (q : String → Prop) : ∀ r : Rights V, r.AllOps q ↔ ∀ s ∈ r.syms, q s
  | .nil => by simp [Rights.AllOps, Rights.syms]
  | .sym _ _ r => by simp only [Rights.AllOps, Rights.syms]; exact allOps_iff_rights q r
  | .arg t r => by
    simp only [Rights.AllOps, Rights.syms, allOps_iff q t, allOps_iff_rights q r,
      List.mem_append]
    constructor
    · rintro ⟨h1, h2⟩ s (h | h)
      · exact h1 s h
      · exact h2 s h
    · intro h; exact ⟨fun s hs => h s (Or.inl hs), fun s hs => h s (Or.inr hs)⟩
end

mutual
theorem dictated_rows : ∀ t : Tree V, t.Dictated (rowOf cfg) (rtlOf cfg) →
    t.AllOps (fun s => ∃ j, rowOf cfg s = some j)
  | .leaf _ _, _ => by simp only [Tree.AllOps]
  | .app _ op l r, h => by
    simp only [Tree.Dictated] at h
    simp only [Tree.AllOps]
    obtain ⟨k, hk, hl, hr⟩ := h
    exact ⟨⟨k, hk⟩, dictated_rows_left l k hl, dictated_rows_rights r k hr⟩
  | .juxt s l r, h => by
    simp only [Tree.Dictated] at h
    simp only [Tree.AllOps]
    obtain ⟨k, hk, hl, hr, _⟩ := h
    exact ⟨⟨k, hk⟩, dictated_rows l hl, dictated_rows r hr⟩
theorem dictated_rows_left : ∀ (l : Left V) (k : ℕ), l.Dictated (rowOf cfg) (rtlOf cfg) k →
    l.AllOps (fun s => ∃ j, rowOf cfg s = some j)
  | .none, _, _ => by simp only [Left.AllOps]
  | .some t, k, h => by
    simp only [Left.Dictated] at h
    simp only [Left.AllOps]; exact dictated_rows t h.1
theorem dictated_rows_rights : ∀ (r : Rights V) (k : ℕ),
    r.Dictated (rowOf cfg) (rtlOf cfg) k → r.AllOps (fun s => ∃ j, rowOf cfg s = some j)
  | .nil, _, _ => by simp only [Rights.AllOps]
  | .sym _ _ r, k, h => by
    simp only [Rights.Dictated] at h
    simp only [Rights.AllOps]; exact dictated_rows_rights r k h
  | .arg t r, k, h => by
    simp only [Rights.Dictated] at h
    simp only [Rights.AllOps]; exact ⟨dictated_rows t h.1, dictated_rows_rights r k h.2.2⟩
end

mutual
theorem flat_plain (hu : ∀ v, P v → cfg.isUnit v = false) : ∀ t : Tree V, t.All P →
    ∀ it ∈ t.flat, plain cfg it.tok
  | .leaf i v, h, it, hit => by
    simp only [Tree.flat, List.mem_singleton] at hit; subst hit
    exact hu v h
  | .app i op l r, h, it, hit => by
    simp only [Tree.All] at h
    simp only [Tree.flat, List.mem_append, List.mem_cons] at hit
    rcases hit with hit | rfl | hit
    · exact flat_plain_left hu l h.1 it hit
    · rfl
    · exact flat_plain_rights hu r h.2 it hit
  | .juxt s l r, h, it, hit => by
    simp only [Tree.All] at h
    simp only [Tree.flat, List.mem_append] at hit
    rcases hit with hit | hit
    · exact flat_plain hu l h.1 it hit
    · exact flat_plain hu r h.2 it hit
theorem flat_plain_left (hu : ∀ v, P v → cfg.isUnit v = false) : ∀ l : Left V, l.All P →
    ∀ it ∈ l.flat, plain cfg it.tok
  | .none, _, it, hit => by simp [Left.flat] at hit
  | .some t, h, it, hit => by
    simp only [Left.All] at h
    simp only [Left.flat] at hit
    exact flat_plain hu t h it hit
theorem flat_plain_rights (hu : ∀ v, P v → cfg.isUnit v = false) : ∀ r : Rights V, r.All P →
    ∀ it ∈ r.flat, plain cfg it.tok
  | .nil, _, it, hit => by simp [Rights.flat] at hit
  | .sym i s r, h, it, hit => by
    simp only [Rights.All] at h
    simp only [Rights.flat, List.mem_cons] at hit
    rcases hit with rfl | hit
    · rfl
    · exact flat_plain_rights hu r h it hit
  | .arg t r, h, it, hit => by
    simp only [Rights.All] at h
    simp only [Rights.flat, List.mem_append] at hit
    rcases hit with hit | hit
    · exact flat_plain hu t h.1 it hit
    · exact flat_plain_rights hu r h.2 it hit
end

theorem findSome_at {α β : Type} {g : α → Option β} {l : List α} {k : ℕ} {a : α} {b : β}
    (ha : l[k]? = some a) (hb : g a = some b)
    (hlt : ∀ j < k, ∀ x, l[j]? = some x → g x = none) : l.findSome? g = some b := by
  rw [List.findSome?_eq_some_iff]
  obtain ⟨hk, rfl⟩ := List.getElem?_eq_some_iff.mp ha
  refine ⟨l.take k, l[k], l.drop (k + 1), ?_, hb, ?_⟩
  · rw [List.getElem_cons_drop, List.take_append_drop]
  · intro x hx
    obtain ⟨j, hj, rfl⟩ := List.mem_iff_getElem.mp hx
    rw [List.length_take] at hj
    apply hlt j (by omega)
    rw [List.getElem_take]
    exact List.getElem?_eq_getElem (by omega)

theorem scanLevel_eq (h : PlainTable cfg f P) {t : Tree V} (ht : t.All P) {k : ℕ}
    {prec : Level V σ} (hk : cfg.ops[k]? = some prec) :
    scanLevel cfg prec t.flat = if rtlOf cfg k then scanR0 cfg prec none t.flat
      else scanL0 cfg prec none t.flat := by
  have hf := flat_plain (cfg := cfg) h.notUnit t ht
  unfold scanLevel
  rw [opsList_head h.nodup (List.mem_of_getElem? hk)]
  simp only [rtlOf, hk, Option.any_some]
  rw [scanL_eq cfg prec t.flat none (by simp) hf, scanR_eq cfg prec t.flat none (by simp) hf]

theorem scanLevel_none (h : PlainTable cfg f P) {t : Tree V} (hg : Good cfg P t) {k : ℕ}
    {prec : Level V σ} (hk : cfg.ops[k]? = some prec)
    (hno : t.AllOps (fun s => rowOf cfg s ≠ some k)) : scanLevel cfg prec t.flat = none := by
  rw [scanLevel_eq h hg.2.2 hk]
  have hq : Quiet cfg prec none t.flat :=
    quiet_tree h.nodup h.syms h.apart hk t none hg.2.1 hno (prevOk_none cfg)
  rw [scanL0_none cfg prec _ _ hq, scanR0_none cfg prec _ _ hq]
  simp

/-- A turn of the loop on the items of a dictated tree contracts the tree. -/
theorem step_tree (h : PlainTable cfg f P) {t : Tree V} (hg : Good cfg P t) (h0 : 0 < t.ops) :
    ∃ t' act, step cfg t.flat = some act ∧ (∀ s, act s = (.ok t'.flat, s)) ∧
      t'.eval f cfg.mkErr = t.eval f cfg.mkErr ∧ Good cfg P t' ∧ t'.ops < t.ops := by
  classical
  have hrows := dictated_rows t hg.1
  have hex : ∃ k, ¬ t.AllOps (fun s => rowOf cfg s ≠ some k) := by
    cases t with
    | leaf => simp [Tree.ops] at h0
    | app i op l r =>
      simp only [Tree.AllOps] at hrows
      obtain ⟨k, hk⟩ := hrows.1
      refine ⟨k, fun hc => ?_⟩
      simp only [Tree.AllOps] at hc
      exact hc.1 hk
    | juxt s l r =>
      simp only [Tree.AllOps] at hrows
      obtain ⟨k, hk⟩ := hrows.1
      refine ⟨k, fun hc => ?_⟩
      simp only [Tree.AllOps] at hc
      exact hc.1 hk
  let k := Nat.find hex
  have hk1 : ¬ t.AllOps (fun s => rowOf cfg s ≠ some k) := Nat.find_spec hex
  have hk2 : ∀ j < k, t.AllOps (fun s => rowOf cfg s ≠ some j) := fun j hj => by
    have := Nat.find_min hex hj
    simpa using this
  have hge : t.AllOps (AtLeast cfg k) := by
    rw [allOps_iff] at hrows ⊢
    intro s hs
    obtain ⟨j, hj⟩ := hrows s hs
    refine ⟨j, hj, ?_⟩
    by_contra hlt
    have := (allOps_iff _ t).mp (hk2 j (by omega)) s hs
    exact this hj
  have hkl : ∃ prec, cfg.ops[k]? = some prec := by
    rw [allOps_iff] at hk1
    simp only [not_forall] at hk1
    obtain ⟨s, _, hs⟩ := hk1
    obtain ⟨l, hl, _⟩ := rowOf_some (of_not_not hs)
    exact ⟨l, hl⟩
  obtain ⟨prec, hprec⟩ := hkl
  obtain ⟨t', hf, hev, _, hgt, hops, _⟩ :=
    fire_tree h hprec t none hg hge hk1 (Or.inr (prevOk_none cfg))
  obtain ⟨i, sym, w, item, h1, h2, h3⟩ := hf
  refine ⟨t', execOp cfg sym t.flat i item w, ?_, ?_, hev, hgt, hops⟩
  · unfold step
    have : findRedex cfg t.flat = some (i, sym, w) := by
      unfold findRedex
      refine findSome_at hprec ?_ ?_
      · rw [scanLevel_eq h hg.2.2 hprec]; exact h1
      · intro j hj l hl
        exact scanLevel_none h hg hl (hk2 j hj)
    rw [this]
    simp only
    rw [h2]
  · intro s
    have := h3 [] [] s
    simpa using this

theorem step_leaf (h : PlainTable cfg f P) {t : Tree V} (hg : Good cfg P t) (h0 : t.ops = 0) :
    step cfg t.flat = none := by
  obtain ⟨i, v, rfl⟩ := Tree.leaf_of_ops h0
  unfold step
  have : findRedex cfg (Tree.leaf i v).flat = none := by
    unfold findRedex
    rw [List.findSome?_eq_none_iff]
    intro l hl
    obtain ⟨k, hk, rfl⟩ := List.mem_iff_getElem.mp hl
    exact scanLevel_none h hg (List.getElem?_eq_getElem hk) (by simp only [Tree.AllOps])
  rw [this]

/-- The loop on the items of a dictated tree gives its value, with as many operator
applications as the tree has operators. -/
theorem loop_tree (h : PlainTable cfg f P) : ∀ (n : ℕ) (t : Tree V), Good cfg P t → t.ops ≤ n →
    ∀ s, loop cfg n t.flat s = some (.ok (t.eval f cfg.mkErr), s)
  | n, t, hg, hn, s => by
    rcases Nat.eq_zero_or_pos t.ops with h0 | h0
    · have hs := step_leaf h hg h0
      obtain ⟨i, v, rfl⟩ := Tree.leaf_of_ops h0
      unfold loop
      rw [hs]
      simp [Tree.flat, finish, Tree.eval]
    · obtain ⟨t', act, hs, hact, hev, hgt, hops⟩ := step_tree h hg h0
      cases n with
      | zero => omega
      | succ n =>
        unfold loop
        rw [hs]
        simp only [hact s]
        rw [loop_tree h n t' hgt (by omega) s, hev]

end MC
