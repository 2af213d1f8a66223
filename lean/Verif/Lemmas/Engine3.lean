import Verif.Lemmas.Engine2

/-! # One turn of the loop contracts the tree the table dictates -/

namespace MC
open Spec

variable {V σ : Type} {cfg : Config V σ}
variable {f : String → List V → Except String V} {P : V → Prop}

/-- The operator is in row `k` or a later one. -/
def AtLeast (cfg : Config V σ) (k : ℕ) (s : String) : Prop :=
  ∃ j, rowOf cfg s = some j ∧ k ≤ j

theorem tight_leaf {k : ℕ} {t : Tree V} (h1 : t.RootIn (rowOf cfg) (fun j => j < k))
    (h2 : t.AllOps (AtLeast cfg k)) : t.ops = 0 := by
  cases t with
  | leaf => rfl
  | app i op l r =>
    simp only [Tree.RootIn] at h1; simp only [Tree.AllOps] at h2
    obtain ⟨j, e, hj⟩ := h1
    obtain ⟨j', e', hj'⟩ := h2.1
    rw [e] at e'; injection e' with e'; omega
  | juxt s l r =>
    simp only [Tree.RootIn] at h1; simp only [Tree.AllOps] at h2
    obtain ⟨j, e, hj⟩ := h1
    obtain ⟨j', e', hj'⟩ := h2.1
    rw [e] at e'; injection e' with e'; omega

theorem same_leaf {k : ℕ} {t : Tree V} (h1 : t.RootIn (rowOf cfg) (fun j => j ≤ k))
    (h2 : t.AllOps (AtLeast cfg k)) (h3 : t.AllOps (fun s => rowOf cfg s ≠ some k)) :
    t.ops = 0 := by
  apply tight_leaf (k := k) _ h2
  cases t with
  | leaf => trivial
  | app i op l r =>
    simp only [Tree.RootIn] at h1 ⊢; simp only [Tree.AllOps] at h3
    obtain ⟨j, e, hj⟩ := h1
    refine ⟨j, e, Nat.lt_of_le_of_ne hj ?_⟩
    rintro rfl; exact h3.1 e
  | juxt s l r =>
    simp only [Tree.RootIn] at h1 ⊢; simp only [Tree.AllOps] at h3
    obtain ⟨j, e, hj⟩ := h1
    refine ⟨j, e, Nat.lt_of_le_of_ne hj ?_⟩
    rintro rfl; exact h3.1 e

/-- The tree is dictated by the table, complete, and its operands are plain. -/
def Good (cfg : Config V σ) (P : V → Prop) (t : Tree V) : Prop :=
  t.Dictated (rowOf cfg) (rtlOf cfg) ∧ t.Shaped (inputsOf cfg) cfg.implicitMul ∧ t.All P

def GoodL (cfg : Config V σ) (P : V → Prop) (k : ℕ) (a : List (Option String)) (l : Left V) :
    Prop :=
  l.Dictated (rowOf cfg) (rtlOf cfg) k ∧ l.Shaped (inputsOf cfg) cfg.implicitMul a ∧ l.All P

def GoodR (cfg : Config V σ) (P : V → Prop) (k : ℕ) (b : List (Option String)) (r : Rights V) :
    Prop :=
  r.Dictated (rowOf cfg) (rtlOf cfg) k ∧ r.Shaped (inputsOf cfg) cfg.implicitMul b ∧ r.All P

/-- What contracting a tree gives. -/
def Contracts (cfg : Config V σ) (f : String → List V → Except String V) (P : V → Prop)
    (d : Bool) (prec : Level V σ) (prev : Option (Tok V)) (t t' : Tree V) : Prop :=
  Fires cfg d prec prev t.flat t'.flat ∧ t'.eval f cfg.mkErr = t.eval f cfg.mkErr ∧
    t'.pos = t.pos ∧ Good cfg P t' ∧ t'.ops < t.ops ∧
    ∀ p, t.RootIn (rowOf cfg) p → t'.RootIn (rowOf cfg) p

theorem goodApp {i : ℕ} {op : String} {l : Left V} {r : Rights V} {d : OpDef V σ} {m : ℕ}
    (hm : rowOf cfg op = some m) (hin : inputsOf cfg op = some (d.linputs, d.rinputs))
    (hl : GoodL cfg P m d.linputs l) (hr : GoodR cfg P m d.rinputs r) :
    Good cfg P (.app i op l r) := by
  refine ⟨?_, ?_, ?_⟩
  · simp only [Tree.Dictated]; exact ⟨m, hm, hl.1, hr.1⟩
  · simp only [Tree.Shaped]; exact ⟨_, _, hin, hl.2.1, hr.2.1⟩
  · simp only [Tree.All]; exact ⟨hl.2.2, hr.2.2⟩

theorem goodApp_inv {i : ℕ} {op : String} {l : Left V} {r : Rights V}
    (h : Good cfg P (.app i op l r)) :
    ∃ m d, rowOf cfg op = some m ∧ opsList cfg op = some d ∧
      inputsOf cfg op = some (d.linputs, d.rinputs) ∧
      some op ∉ [cfg.unitMul, cfg.unitDiv, cfg.implicitMul] ∧
      GoodL cfg P m d.linputs l ∧ GoodR cfg P m d.rinputs r := by
  obtain ⟨h1, h2, h3⟩ := h
  simp only [Tree.Dictated] at h1
  simp only [Tree.Shaped] at h2
  simp only [Tree.All] at h3
  obtain ⟨m, hm, h1l, h1r⟩ := h1
  obtain ⟨a, b, hin, h2l, h2r⟩ := h2
  have hin' := hin
  unfold inputsOf at hin'
  split at hin'
  · cases hin'
  · rename_i hne
    cases hd : opsList cfg op with
    | none => rw [hd] at hin'; cases hin'
    | some d =>
      rw [hd] at hin'
      simp only [Option.map_some, Option.some.injEq, Prod.mk.injEq] at hin'
      obtain ⟨rfl, rfl⟩ := hin'
      exact ⟨m, d, hm, rfl, hin, hne, ⟨h1l, h2l, h3.1⟩, ⟨h1r, h2r, h3.2⟩⟩

theorem leftLeaf {k : ℕ} {a : List (Option String)} {l : Left V} (h : GoodL cfg P k a l)
    (hge : l.AllOps (AtLeast cfg k))
    (hd : rtlOf cfg k = true ∨ l.AllOps (fun s => rowOf cfg s ≠ some k)) : l.ops = 0 := by
  cases l with
  | none => rfl
  | some t =>
    have h1 := h.1
    simp only [Left.Dictated, Tree.FitsLeft] at h1
    simp only [Left.AllOps] at hge hd
    simp only [Left.ops]
    cases hr : rtlOf cfg k with
    | true => simp only [hr, if_true] at h1; exact tight_leaf h1.2 hge
    | false =>
      simp only [hr, Bool.false_eq_true, if_false, false_or] at h1 hd
      exact same_leaf h1.2 hge hd

theorem rightsLeaf {k : ℕ} : ∀ {r : Rights V} {b : List (Option String)},
    GoodR cfg P k b r → r.AllOps (AtLeast cfg k) →
    (rtlOf cfg k = false ∨ r.AllOps (fun s => rowOf cfg s ≠ some k)) → r.ops = 0
  | .nil, _, _, _, _ => rfl
  | .sym i s r, b, h, hge, hd => by
    obtain ⟨h1, h2, h3⟩ := h
    simp only [Rights.Dictated] at h1
    simp only [Rights.Shaped] at h2
    simp only [Rights.All] at h3
    simp only [Rights.AllOps] at hge hd
    obtain ⟨b', rfl, h2⟩ := h2
    simp only [Rights.ops]
    exact rightsLeaf (b := b') ⟨h1, h2, h3⟩ hge hd
  | .arg t r, b, h, hge, hd => by
    obtain ⟨h1, h2, h3⟩ := h
    simp only [Rights.Dictated, Tree.FitsRight] at h1
    simp only [Rights.Shaped] at h2
    simp only [Rights.All] at h3
    simp only [Rights.AllOps] at hge hd
    obtain ⟨b', rfl, _, h2⟩ := h2
    have ih : r.ops = 0 := rightsLeaf (b := b') ⟨h1.2.2, h2, h3.2⟩ hge.2 (hd.imp id And.right)
    have it : t.ops = 0 := by
      cases hr : rtlOf cfg k with
      | false => simp only [hr, Bool.false_eq_true, if_false] at h1; exact tight_leaf h1.2.1 hge.1
      | true =>
        simp only [hr, Bool.true_eq_false, if_true, false_or] at h1 hd
        exact same_leaf h1.2.1 hge.1 hd.1
    simp only [Rights.ops]; omega

theorem allOps_of_ops0 {q : String → Prop} : ∀ (r : Rights V), r.ops = 0 → r.AllOps q
  | .nil, _ => by simp only [Rights.AllOps]
  | .sym _ _ r, h => by
    simp only [Rights.ops] at h
    simp only [Rights.AllOps]; exact allOps_of_ops0 r h
  | .arg t r, h => by
    simp only [Rights.ops] at h
    obtain ⟨i, v, rfl⟩ := Tree.leaf_of_ops (t := t) (by omega)
    simp only [Rights.AllOps, Tree.AllOps, true_and]; exact allOps_of_ops0 r (by omega)

theorem rule0_here {prec : Level V σ} {k : ℕ} {op : String} {prev : Option (Tok V)}
    (h : PlainTable cfg f P) (hk : cfg.ops[k]? = some prec) (hm : rowOf cfg op = some k)
    (hne : some op ∉ [cfg.unitMul, cfg.unitDiv, cfg.implicitMul]) :
    rule0 cfg prec prev (.op op) = some (op, 1) := by
  have hh : prec.has op = true := (has_row h.nodup hk).mpr hm
  simp only [rule0, hh, hne, decide_false, Bool.not_false, Bool.and_self, if_true]

theorem rule0_juxt {prec : Level V σ} {k : ℕ} {op : String} {u v : V}
    (h : PlainTable cfg f P) (hk : cfg.ops[k]? = some prec) (hm : rowOf cfg op = some k)
    (hj : cfg.implicitMul = some op) :
    rule0 cfg prec (some (.val u)) (.val v) = some (op, 0) := by
  have hh : prec.has op = true := (has_row h.nodup hk).mpr hm
  simp [rule0, hj, Option.filter, hh]

theorem op_of_row {op : String} {k : ℕ} (h : PlainTable cfg f P)
    (hm : rowOf cfg op = some k) : ∃ d, opsList cfg op = some d := by
  obtain ⟨l, hl, hs⟩ := rowOf_some hm
  obtain ⟨d, hd⟩ := (Level.has_iff _ _).mp hs
  exact ⟨d, opsList_of_mem h.nodup (List.mem_of_getElem? hl) hd⟩

/-- The redex is the operator at the root. -/
theorem contract_app (h : PlainTable cfg f P) {prec : Level V σ} {k : ℕ}
    (hk : cfg.ops[k]? = some prec) (i : ℕ) {op : String} {l : Left V} {r : Rights V}
    {prev : Option (Tok V)} (hg : Good cfg P (.app i op l r)) (hm : rowOf cfg op = some k)
    (hl0 : l.ops = 0) (hr0 : r.ops = 0)
    (hql : rtlOf cfg k = true ∨ Quiet cfg prec prev l.flat)
    (hqr : Quiet cfg prec (some (.op op)) r.flat) :
    Contracts cfg f P (rtlOf cfg k) prec prev (.app i op l r)
      (.leaf i ((Tree.app i op l r).eval f cfg.mkErr)) := by
  obtain ⟨m, d, hm', hd, hin, hne, hl, hr⟩ := goodApp_inv hg
  refine ⟨⟨l.flat.length, op, 1, ⟨.op op, i⟩, ?_, ?_, ?_⟩, ?_, rfl, ⟨trivial, trivial, ?_⟩, ?_, ?_⟩
  · cases hrt : rtlOf cfg k with
    | true =>
      simp only [if_true, Tree.flat]
      rw [scanR0_append]
      simp only [scanR0, scanR0_none cfg prec _ _ hqr, rule0_here h hk hm hne, Option.map_some]
      simp [shift]
    | false =>
      simp only [hrt, Bool.false_eq_true, false_or] at hql
      simp only [Bool.false_eq_true, if_false, Tree.flat]
      rw [scanL0_append, scanL0_none cfg prec _ _ hql]
      simp only [scanL0, rule0_here h hk hm hne, Option.map_some]
      simp [shift]
  · simp [Tree.flat]
  · intro A B s
    simp only [Tree.flat]
    exact execOp_app h i hd hl0 hr0 hl.2.1 hr.2.1 hl.2.2 hr.2.2 A B s
  · simp only [Tree.eval]
  · exact eval_P h _ hg.2.2
  · simp [Tree.ops]
  · intro p _; trivial

theorem contract_juxt (h : PlainTable cfg f P) {prec : Level V σ} {k : ℕ}
    (hk : cfg.ops[k]? = some prec) {s : String} {i j : ℕ} {u v : V}
    {prev : Option (Tok V)} (hj : cfg.implicitMul = some s) (hu : P u) (hv : P v)
    (hm : rowOf cfg s = some k) (hp : rtlOf cfg k = true ∨ prevOk cfg prec prev) :
    Contracts cfg f P (rtlOf cfg k) prec prev (.juxt s (.leaf i u) (.leaf j v))
      (.leaf j (settle cfg.mkErr j (f s [u, v]))) := by
  obtain ⟨d, hd⟩ := op_of_row h hm
  refine ⟨⟨1, s, 0, ⟨.val v, j⟩, ?_, ?_, ?_⟩, ?_, rfl, ⟨trivial, trivial, ?_⟩, ?_, ?_⟩
  · cases hrt : rtlOf cfg k with
    | true =>
      simp [Tree.flat, scanR0, rule0_juxt h hk hm hj]
    | false =>
      simp only [hrt, Bool.false_eq_true, false_or] at hp
      simp [Tree.flat, scanL0, rule0_juxt h hk hm hj, rule0_val cfg hp]
  · simp [Tree.flat]
  · intro A B st
    exact execOp_juxt h hj hd i j u v hu hv A B st
  · simp only [Tree.eval, Tree.pos]
  · apply settle_P h
    intro x hx
    simp only [List.mem_cons, List.not_mem_nil, or_false] at hx
    rcases hx with rfl | rfl
    · exact hu
    · exact hv
  · simp [Tree.ops]
  · intro p _; trivial

set_option linter.unusedSectionVars false

section main
variable (h : PlainTable cfg f P) {prec : Level V σ} {k : ℕ} (hk : cfg.ops[k]? = some prec)
include h hk

theorem juxt_prevOk {s : String} {prev : Option (Tok V)} (hj : cfg.implicitMul = some s)
    (hm : rowOf cfg s ≠ some k) : prevOk cfg prec prev := by
  right
  intro s' hs'
  rw [hj] at hs'; injection hs' with e; subst e
  exact has_false h.nodup hk hm

/- `hp`: in a left-to-right level the first operand is not joined to what precedes. -/
mutual
theorem fire_tree : ∀ (t : Tree V) (prev : Option (Tok V)), Good cfg P t →
    t.AllOps (AtLeast cfg k) → ¬ t.AllOps (fun s => rowOf cfg s ≠ some k) →
    (rtlOf cfg k = true ∨ prevOk cfg prec prev) →
    ∃ t', Contracts cfg f P (rtlOf cfg k) prec prev t t'
  | .leaf i v, prev, _, _, hnot, _ => by
    exfalso; apply hnot; simp only [Tree.AllOps]
  | .app i op l r, prev, hg, hge, hnot, hp => by
    obtain ⟨m, d, hm, hd, hin, hne, hl, hr⟩ := goodApp_inv hg
    simp only [Tree.AllOps] at hge hnot
    have hsy := fun x hx => h.syms _ _ hd x hx
    have hch := h.apart _ _ hd
    have viaL : (rtlOf cfg k = false ∨
        (rowOf cfg op ≠ some k ∧ r.AllOps (fun s => rowOf cfg s ≠ some k))) →
        ¬ l.AllOps (fun s => rowOf cfg s ≠ some k) →
        ∃ t', Contracts cfg f P (rtlOf cfg k) prec prev (.app i op l r) t' := by
      intro hq hlk
      obtain ⟨l', hf, hev, hgl, hops⟩ := fire_left l m d.linputs prev hl hge.2.1 hlk hp
      refine ⟨.app i op l' r, ?_, ?_, rfl, goodApp hm hin hgl hr, ?_, fun p hpp => hpp⟩
      · simp only [Tree.flat]
        cases hrt : rtlOf cfg k with
        | false => rw [hrt] at hf; exact firesL_left _ hf
        | true =>
          rw [hrt] at hf
          simp only [hrt, Bool.true_eq_false, false_or] at hq
          refine firesR_left _ ⟨rule0_op cfg (has_false h.nodup hk hq.1), ?_⟩ hf
          exact quiet_rights h.nodup h.syms h.apart hk r _ _ hr.2.1 hq.2 hsy hch
            (fun _ => prevOk_op cfg)
      · simp only [Tree.eval, hev]
      · simp only [Tree.ops]; omega
    have viaR : (rtlOf cfg k = true ∨
        (rowOf cfg op ≠ some k ∧ l.AllOps (fun s => rowOf cfg s ≠ some k))) →
        ¬ r.AllOps (fun s => rowOf cfg s ≠ some k) →
        ∃ t', Contracts cfg f P (rtlOf cfg k) prec prev (.app i op l r) t' := by
      intro hq hrk
      obtain ⟨r', hf, hev, hgr, hops⟩ := fire_rights r m d.rinputs (some (.op op)) hr hge.2.2
        hsy hch hrk (fun _ => Or.inr (prevOk_op cfg))
      refine ⟨.app i op l r', ?_, ?_, rfl, goodApp hm hin hl hgr, ?_, fun p hpp => hpp⟩
      · simp only [Tree.flat]
        rw [show l.flat ++ (⟨.op op, i⟩ : Item V) :: r.flat
            = (l.flat ++ [⟨.op op, i⟩]) ++ r.flat by simp,
          show l.flat ++ (⟨.op op, i⟩ : Item V) :: r'.flat
            = (l.flat ++ [⟨.op op, i⟩]) ++ r'.flat by simp]
        have hlast : lastTok prev (l.flat ++ [(⟨.op op, i⟩ : Item V)]) = some (.op op) := by
          simp [lastTok]
        cases hrt : rtlOf cfg k with
        | true =>
          rw [hrt] at hf
          apply firesR_right
          rw [hlast]; exact hf
        | false =>
          rw [hrt] at hf
          simp only [hrt, Bool.false_eq_true, false_or] at hq hp
          apply firesL_right
          · rw [quiet_append]
            refine ⟨quiet_left h.nodup h.syms h.apart hk l prev _ hl.2.1 hq.2 hp, ?_, trivial⟩
            exact rule0_op cfg (has_false h.nodup hk hq.1)
          · rw [hlast]; exact hf
      · simp only [Tree.eval, hev]
      · simp only [Tree.ops]; omega
    by_cases hop : rowOf cfg op = some k
    · have hmk : m = k := by rw [hm] at hop; injection hop
      subst hmk
      cases hrt : rtlOf cfg m with
      | true =>
        by_cases hrk : r.AllOps (fun s => rowOf cfg s ≠ some m)
        · have h0l := leftLeaf hl hge.2.1 (Or.inl hrt)
          have h0r := rightsLeaf hr hge.2.2 (Or.inr hrk)
          rw [← hrt]
          exact ⟨_, contract_app h hk i hg hm h0l h0r (Or.inl hrt)
            (quiet_rights h.nodup h.syms h.apart hk r _ _ hr.2.1 hrk hsy hch
              (fun _ => prevOk_op cfg))⟩
        · rw [← hrt]; exact viaR (Or.inl hrt) hrk
      | false =>
        have hp' : prevOk cfg prec prev := by
          rcases hp with hp | hp
          · rw [hrt] at hp; cases hp
          · exact hp
        by_cases hlk : l.AllOps (fun s => rowOf cfg s ≠ some m)
        · have h0l := leftLeaf hl hge.2.1 (Or.inr hlk)
          have h0r := rightsLeaf hr hge.2.2 (Or.inl hrt)
          rw [← hrt]
          refine ⟨_, contract_app h hk i hg hm h0l h0r
            (Or.inr (quiet_left h.nodup h.syms h.apart hk l prev _ hl.2.1 hlk hp')) ?_⟩
          refine quiet_rights h.nodup h.syms h.apart hk r _ _ hr.2.1 ?_ hsy hch
              (fun _ => prevOk_op cfg)
          exact allOps_of_ops0 r h0r
        · rw [← hrt]; exact viaL (Or.inl hrt) hlk
    · by_cases hlk : l.AllOps (fun s => rowOf cfg s ≠ some k)
      · have hrk : ¬ r.AllOps (fun s => rowOf cfg s ≠ some k) :=
          fun hrk => hnot ⟨hop, hlk, hrk⟩
        exact viaR (Or.inr ⟨hop, hlk⟩) hrk
      · by_cases hrk : r.AllOps (fun s => rowOf cfg s ≠ some k)
        · exact viaL (Or.inr ⟨hop, hrk⟩) hlk
        · cases hrt : rtlOf cfg k with
          | true => rw [← hrt]; exact viaR (Or.inl hrt) hrk
          | false => rw [← hrt]; exact viaL (Or.inl hrt) hlk
  | .juxt s l r, prev, hg, hge, hnot, hp => by
    obtain ⟨hg1, hg2, hg3⟩ := hg
    simp only [Tree.Dictated] at hg1
    simp only [Tree.Shaped] at hg2
    simp only [Tree.All] at hg3
    obtain ⟨m, hm, hl1, hr1, hlf, hrf⟩ := hg1
    obtain ⟨hj, hl2, hr2⟩ := hg2
    simp only [Tree.AllOps] at hge hnot
    have gl : Good cfg P l := ⟨hl1, hl2, hg3.1⟩
    have gr : Good cfg P r := ⟨hr1, hr2, hg3.2⟩
    have viaL : (rtlOf cfg k = false ∨
        (rowOf cfg s ≠ some k ∧ r.AllOps (fun s => rowOf cfg s ≠ some k))) →
        ¬ l.AllOps (fun s => rowOf cfg s ≠ some k) →
        ∃ t', Contracts cfg f P (rtlOf cfg k) prec prev (.juxt s l r) t' := by
      intro hq hlk
      obtain ⟨l', hf, hev, hpos, hgl, hops, hroot⟩ := fire_tree l prev gl hge.2.1 hlk hp
      refine ⟨.juxt s l' r, ?_, ?_, rfl, ⟨?_, ?_, ?_⟩, ?_, fun p hpp => hpp⟩
      · simp only [Tree.flat]
        cases hrt : rtlOf cfg k with
        | false => rw [hrt] at hf; exact firesL_left _ hf
        | true =>
          rw [hrt] at hf
          simp only [hrt, Bool.true_eq_false, false_or] at hq
          exact firesR_left _ (quiet_tree h.nodup h.syms h.apart hk r _ hr2 hq.2
            (juxt_prevOk h hk hj hq.1)) hf
      · simp only [Tree.eval, hev]
      · simp only [Tree.Dictated]; exact ⟨m, hm, hgl.1, hr1, hroot _ hlf, hrf⟩
      · simp only [Tree.Shaped]; exact ⟨hj, hgl.2.1, hr2⟩
      · simp only [Tree.All]; exact ⟨hgl.2.2, hg3.2⟩
      · simp only [Tree.ops]; omega
    have viaR : (rtlOf cfg k = true ∨
        (rowOf cfg s ≠ some k ∧ l.AllOps (fun s => rowOf cfg s ≠ some k))) →
        ¬ r.AllOps (fun s => rowOf cfg s ≠ some k) →
        ∃ t', Contracts cfg f P (rtlOf cfg k) prec prev (.juxt s l r) t' := by
      intro hq hrk
      obtain ⟨r', hf, hev, hpos, hgr, hops, hroot⟩ := fire_tree r (lastTok prev l.flat) gr hge.2.2
        hrk (hq.imp id (fun hq => juxt_prevOk h hk hj hq.1))
      refine ⟨.juxt s l r', ?_, ?_, ?_, ⟨?_, ?_, ?_⟩, ?_, fun p hpp => hpp⟩
      · simp only [Tree.flat]
        cases hrt : rtlOf cfg k with
        | true => rw [hrt] at hf; exact firesR_right _ hf
        | false =>
          rw [hrt] at hf
          simp only [hrt, Bool.false_eq_true, false_or] at hq hp
          exact firesL_right _ (quiet_tree h.nodup h.syms h.apart hk l _ hl2 hq.2 hp) hf
      · simp only [Tree.eval, hev, hpos]
      · simp only [Tree.pos, hpos]
      · simp only [Tree.Dictated]; exact ⟨m, hm, hl1, hgr.1, hlf, hroot _ hrf⟩
      · simp only [Tree.Shaped]; exact ⟨hj, hl2, hgr.2.1⟩
      · simp only [Tree.All]; exact ⟨hg3.1, hgr.2.2⟩
      · simp only [Tree.ops]; omega
    by_cases hop : rowOf cfg s = some k
    · have hmk : m = k := by rw [hm] at hop; injection hop
      subst hmk
      have here : l.ops = 0 → r.ops = 0 →
          ∃ t', Contracts cfg f P (rtlOf cfg m) prec prev (.juxt s l r) t' := by
        intro h1 h2
        obtain ⟨i, u, rfl⟩ := Tree.leaf_of_ops h1
        obtain ⟨j, v, rfl⟩ := Tree.leaf_of_ops h2
        exact ⟨_, contract_juxt h hk hj hg3.1 hg3.2 hm hp⟩
      unfold Tree.FitsLeft at hlf
      unfold Tree.FitsRight at hrf
      cases hrt : rtlOf cfg m with
      | true =>
        simp only [hrt, if_true] at hlf hrf
        by_cases hrk : r.AllOps (fun s => rowOf cfg s ≠ some m)
        · rw [← hrt]; exact here (tight_leaf hlf hge.2.1) (same_leaf hrf hge.2.2 hrk)
        · rw [← hrt]; exact viaR (Or.inl hrt) hrk
      | false =>
        simp only [hrt, Bool.false_eq_true, if_false] at hlf hrf
        by_cases hlk : l.AllOps (fun s => rowOf cfg s ≠ some m)
        · rw [← hrt]; exact here (same_leaf hlf hge.2.1 hlk) (tight_leaf hrf hge.2.2)
        · rw [← hrt]; exact viaL (Or.inl hrt) hlk
    · by_cases hlk : l.AllOps (fun s => rowOf cfg s ≠ some k)
      · have hrk : ¬ r.AllOps (fun s => rowOf cfg s ≠ some k) :=
          fun hrk => hnot ⟨hop, hlk, hrk⟩
        exact viaR (Or.inr ⟨hop, hlk⟩) hrk
      · by_cases hrk : r.AllOps (fun s => rowOf cfg s ≠ some k)
        · exact viaL (Or.inr ⟨hop, hrk⟩) hlk
        · cases hrt : rtlOf cfg k with
          | true => rw [← hrt]; exact viaR (Or.inl hrt) hrk
          | false => rw [← hrt]; exact viaL (Or.inl hrt) hlk
theorem fire_left : ∀ (l : Left V) (m : ℕ) (a : List (Option String)) (prev : Option (Tok V)),
    GoodL cfg P m a l → l.AllOps (AtLeast cfg k) →
    ¬ l.AllOps (fun s => rowOf cfg s ≠ some k) →
    (rtlOf cfg k = true ∨ prevOk cfg prec prev) →
    ∃ l' : Left V, Fires cfg (rtlOf cfg k) prec prev l.flat l'.flat ∧
      l'.evals f cfg.mkErr = l.evals f cfg.mkErr ∧ GoodL cfg P m a l' ∧ l'.ops < l.ops
  | .none, m, a, prev, _, _, hnot, _ => by
    exfalso; apply hnot; simp only [Left.AllOps]
  | .some t, m, a, prev, hg, hge, hnot, hp => by
    obtain ⟨h1, h2, h3⟩ := hg
    simp only [Left.Dictated] at h1
    simp only [Left.Shaped] at h2
    simp only [Left.All] at h3
    simp only [Left.AllOps] at hge hnot
    obtain ⟨t', hf, hev, hpos, hgt, hops, hroot⟩ :=
      fire_tree t prev ⟨h1.1, h2.2, h3⟩ hge hnot hp
    refine ⟨.some t', ?_, ?_, ⟨?_, ?_, ?_⟩, ?_⟩
    · simp only [Left.flat]; exact hf
    · simp only [Left.evals, hev]
    · simp only [Left.Dictated]; exact ⟨hgt.1, hroot _ h1.2⟩
    · simp only [Left.Shaped]; exact ⟨h2.1, hgt.2.1⟩
    · simp only [Left.All]; exact hgt.2.2
    · simp only [Left.ops]; exact hops
theorem fire_rights : ∀ (r : Rights V) (m : ℕ) (b : List (Option String))
    (prev : Option (Tok V)), GoodR cfg P m b r → r.AllOps (AtLeast cfg k) →
    (∀ x, some x ∈ b → rowOf cfg x = none) → b.IsChain (fun a b => ¬ (a = none ∧ b = none)) →
    ¬ r.AllOps (fun s => rowOf cfg s ≠ some k) →
    (b.head? = some none → rtlOf cfg k = true ∨ prevOk cfg prec prev) →
    ∃ r' : Rights V, Fires cfg (rtlOf cfg k) prec prev r.flat r'.flat ∧
      r'.evals f cfg.mkErr = r.evals f cfg.mkErr ∧ GoodR cfg P m b r' ∧ r'.ops < r.ops
  | .nil, m, b, prev, _, _, _, _, hnot, _ => by
    exfalso; apply hnot; simp only [Rights.AllOps]
  | .sym i s r, m, b, prev, hg, hge, hsy, hch, hnot, hp => by
    obtain ⟨h1, h2, h3⟩ := hg
    simp only [Rights.Dictated] at h1
    simp only [Rights.Shaped] at h2
    simp only [Rights.All] at h3
    simp only [Rights.AllOps] at hge hnot
    obtain ⟨b', rfl, h2⟩ := h2
    obtain ⟨r', hf, hev, hgr, hops⟩ := fire_rights r m b' (some (.op s)) ⟨h1, h2, h3⟩ hge
      (fun x hx => hsy x (by simp [hx])) (isChain_tail hch) hnot
      (fun _ => Or.inr (prevOk_op cfg))
    refine ⟨.sym i s r', ?_, ?_, ⟨?_, ?_, ?_⟩, ?_⟩
    · simp only [Rights.flat]
      rw [show (⟨.op s, i⟩ : Item V) :: r.flat = [⟨.op s, i⟩] ++ r.flat from rfl,
        show (⟨.op s, i⟩ : Item V) :: r'.flat = [⟨.op s, i⟩] ++ r'.flat from rfl]
      cases hrt : rtlOf cfg k with
      | true => rw [hrt] at hf; exact firesR_right _ hf
      | false =>
        rw [hrt] at hf
        refine firesL_right _ ⟨?_, trivial⟩ hf
        exact rule0_op cfg (has_false h.nodup hk (by rw [hsy s (by simp)]; simp))
    · simp only [Rights.evals, hev]
    · simp only [Rights.Dictated]; exact hgr.1
    · simp only [Rights.Shaped]; exact ⟨b', rfl, hgr.2.1⟩
    · simp only [Rights.All]; exact hgr.2.2
    · simp only [Rights.ops]; exact hops
  | .arg t r, m, b, prev, hg, hge, hsy, hch, hnot, hp => by
    obtain ⟨h1, h2, h3⟩ := hg
    simp only [Rights.Dictated] at h1
    simp only [Rights.Shaped] at h2
    simp only [Rights.All] at h3
    simp only [Rights.AllOps] at hge hnot
    obtain ⟨b', rfl, h2t, h2⟩ := h2
    have hhead : b'.head? ≠ some none := by
      intro hh
      cases b' with
      | nil => cases hh
      | cons c b'' =>
        simp only [List.head?_cons, Option.some.injEq] at hh
        subst hh
        rw [List.isChain_cons_cons] at hch
        exact hch.1 ⟨rfl, rfl⟩
    have hsy' : ∀ x, some x ∈ b' → rowOf cfg x = none := fun x hx => hsy x (by simp [hx])
    have hpt := hp rfl
    have viaT : (rtlOf cfg k = false ∨ r.AllOps (fun s => rowOf cfg s ≠ some k)) →
        ¬ t.AllOps (fun s => rowOf cfg s ≠ some k) →
        ∃ r' : Rights V, Fires cfg (rtlOf cfg k) prec prev (Rights.arg t r).flat r'.flat ∧
      r'.evals f cfg.mkErr = (Rights.arg t r).evals f cfg.mkErr ∧ GoodR cfg P m (none :: b') r' ∧
      r'.ops < (Rights.arg t r).ops := by
      intro hq htk
      obtain ⟨t', hf, hev, hpos, hgt, hops, hroot⟩ :=
        fire_tree t prev ⟨h1.1, h2t, h3.1⟩ hge.1 htk hpt
      refine ⟨.arg t' r, ?_, ?_, ⟨?_, ?_, ?_⟩, ?_⟩
      · simp only [Rights.flat]
        cases hrt : rtlOf cfg k with
        | false => rw [hrt] at hf; exact firesL_left _ hf
        | true =>
          rw [hrt] at hf
          simp only [hrt, Bool.true_eq_false, false_or] at hq
          exact firesR_left _ (quiet_rights h.nodup h.syms h.apart hk r _ b' h2 hq hsy'
            (isChain_tail hch) (fun hh => absurd hh hhead)) hf
      · simp only [Rights.evals, hev]
      · simp only [Rights.Dictated]; exact ⟨hgt.1, hroot _ h1.2.1, h1.2.2⟩
      · simp only [Rights.Shaped]; exact ⟨b', rfl, hgt.2.1, h2⟩
      · simp only [Rights.All]; exact ⟨hgt.2.2, h3.2⟩
      · simp only [Rights.ops]; omega
    have viaR : (rtlOf cfg k = true ∨ t.AllOps (fun s => rowOf cfg s ≠ some k)) →
        ¬ r.AllOps (fun s => rowOf cfg s ≠ some k) →
        ∃ r' : Rights V, Fires cfg (rtlOf cfg k) prec prev (Rights.arg t r).flat r'.flat ∧
      r'.evals f cfg.mkErr = (Rights.arg t r).evals f cfg.mkErr ∧ GoodR cfg P m (none :: b') r' ∧
      r'.ops < (Rights.arg t r).ops := by
      intro hq hrk
      obtain ⟨r', hf, hev, hgr, hops⟩ :=
        fire_rights r m b' (lastTok prev t.flat) ⟨h1.2.2, h2, h3.2⟩ hge.2 hsy'
          (isChain_tail hch) hrk (fun hh => absurd hh hhead)
      refine ⟨.arg t r', ?_, ?_, ⟨?_, ?_, ?_⟩, ?_⟩
      · simp only [Rights.flat]
        cases hrt : rtlOf cfg k with
        | true => rw [hrt] at hf; exact firesR_right _ hf
        | false =>
          rw [hrt] at hf
          simp only [hrt, Bool.false_eq_true, false_or] at hq hpt
          exact firesL_right _ (quiet_tree h.nodup h.syms h.apart hk t _ h2t hq hpt) hf
      · simp only [Rights.evals, hev]
      · simp only [Rights.Dictated]; exact ⟨h1.1, h1.2.1, hgr.1⟩
      · simp only [Rights.Shaped]; exact ⟨b', rfl, h2t, hgr.2.1⟩
      · simp only [Rights.All]; exact ⟨h3.1, hgr.2.2⟩
      · simp only [Rights.ops]; omega
    by_cases htk : t.AllOps (fun s => rowOf cfg s ≠ some k)
    · exact viaR (Or.inr htk) (fun hrk => hnot ⟨htk, hrk⟩)
    · by_cases hrk : r.AllOps (fun s => rowOf cfg s ≠ some k)
      · exact viaT (Or.inr hrk) htk
      · cases hrt : rtlOf cfg k with
        | true => rw [← hrt]; exact viaR (Or.inl hrt) hrk
        | false => rw [← hrt]; exact viaT (Or.inl hrt) htk
end
end main

end MC
