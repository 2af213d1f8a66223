import Verif.Lemmas.Engine

/-! # Contracting expression trees -/

namespace MC
open Spec

variable {V σ : Type}

mutual
/-- Every operator of the tree satisfies `q`. -/
def Spec.Tree.AllOps (q : String → Prop) : Tree V → Prop
  | .leaf _ _ => True
  | .app _ op l r => q op ∧ l.AllOps q ∧ r.AllOps q
  | .juxt s l r => q s ∧ l.AllOps q ∧ r.AllOps q
def Spec.Left.AllOps (q : String → Prop) : Left V → Prop
  | .none => True
  | .some t => t.AllOps q
def Spec.Rights.AllOps (q : String → Prop) : Rights V → Prop
  | .nil => True
  | .sym _ _ r => r.AllOps q
  | .arg t r => t.AllOps q ∧ r.AllOps q
end

variable (cfg : Config V σ)

/-- A value here is not joined to the token before it by this level. -/
def prevOk (prec : Level V σ) (prev : Option (Tok V)) : Prop :=
  (∀ v, prev ≠ some (.val v)) ∨ (∀ s, cfg.implicitMul = some s → prec.has s = false)

theorem rule0_val {prec : Level V σ} {prev : Option (Tok V)} {v : V}
    (h : prevOk cfg prec prev) : rule0 cfg prec prev (.val v) = none := by
  unfold rule0
  rcases prev with _ | (_ | w)
  · rfl
  · rfl
  · rcases h with h | h
    · exact absurd rfl (h w)
    · cases hi : cfg.implicitMul with
      | none => rfl
      | some s => simp [Option.filter, h s hi]

theorem rule0_op {prec : Level V σ} {prev : Option (Tok V)} {o : String}
    (h : prec.has o = false) : rule0 cfg prec prev (.op o) = none := by
  simp [rule0, h]

theorem prevOk_op {prec : Level V σ} {o : String} : prevOk cfg prec (some (.op o)) :=
  Or.inl (by simp)

theorem prevOk_none {prec : Level V σ} : prevOk cfg prec none := Or.inl (by simp)

theorem isChain_tail {α : Type} {R : α → α → Prop} {a : α} {l : List α}
    (h : (a :: l).IsChain R) : l.IsChain R := by
  cases l with
  | nil => simp
  | cons b l => exact (List.isChain_cons_cons.mp h).2

set_option linter.unusedSectionVars false

section quiet
variable {cfg}
variable {prec : Level V σ} {k : ℕ}
variable (hn : ((cfg.ops.flatMap Level.entries).map Prod.fst).Nodup)
variable (hsy : ∀ s d, opsList cfg s = some d → ∀ x, some x ∈ d.rinputs → rowOf cfg x = none)
variable (hap : ∀ s d, opsList cfg s = some d →
    d.rinputs.IsChain (fun a b => ¬ (a = none ∧ b = none)))
variable (hk : cfg.ops[k]? = some prec)
include hn hk

theorem has_false {s : String} (h : rowOf cfg s ≠ some k) : prec.has s = false := by
  cases hh : prec.has s with
  | false => rfl
  | true => exact absurd ((has_row hn hk).mp hh) h

theorem inputsOf_some {s : String} {a b : List (Option String)}
    (h : inputsOf cfg s = some (a, b)) :
    some s ∉ [cfg.unitMul, cfg.unitDiv, cfg.implicitMul] ∧
      ∃ d, opsList cfg s = some d ∧ d.linputs = a ∧ d.rinputs = b := by
  unfold inputsOf at h
  split at h
  · cases h
  · rename_i h1
    refine ⟨h1, ?_⟩
    cases hd : opsList cfg s with
    | none => rw [hd] at h; cases h
    | some d =>
      rw [hd] at h
      simp only [Option.map_some, Option.some.injEq, Prod.mk.injEq] at h
      exact ⟨d, rfl, h.1, h.2⟩

include hsy hap
mutual
theorem quiet_tree : ∀ (t : Tree V) (prev : Option (Tok V)),
    t.Shaped (inputsOf cfg) cfg.implicitMul → t.AllOps (fun s => rowOf cfg s ≠ some k) →
    prevOk cfg prec prev → Quiet cfg prec prev t.flat
  | .leaf i v, prev, _, _, hp => by
    simp only [Tree.flat, Quiet]
    exact ⟨rule0_val cfg hp, trivial⟩
  | .app i op l r, prev, hs, ha, hp => by
    simp only [Tree.Shaped] at hs
    obtain ⟨a, b, hin, hl, hr⟩ := hs
    obtain ⟨_, d, hd, rfl, rfl⟩ := inputsOf_some hn hk hin
    simp only [Tree.AllOps] at ha
    simp only [Tree.flat]
    rw [quiet_append]
    refine ⟨quiet_left l prev _ hl ha.2.1 hp, rule0_op cfg (has_false hn hk ha.1), ?_⟩
    exact quiet_rights r _ _ hr ha.2.2 (fun x hx => hsy _ _ hd x hx) (hap _ _ hd)
      (fun _ => prevOk_op cfg)
  | .juxt s l r, prev, hs, ha, hp => by
    simp only [Tree.Shaped] at hs
    obtain ⟨hj, hl, hr⟩ := hs
    simp only [Tree.AllOps] at ha
    simp only [Tree.flat]
    rw [quiet_append]
    refine ⟨quiet_tree l prev hl ha.2.1 hp, quiet_tree r _ hr ha.2.2 (Or.inr ?_)⟩
    intro s' hs'
    rw [hj] at hs'; injection hs' with e; subst e
    exact has_false hn hk ha.1
theorem quiet_left : ∀ (l : Left V) (prev : Option (Tok V)) (a : List (Option String)),
    l.Shaped (inputsOf cfg) cfg.implicitMul a → l.AllOps (fun s => rowOf cfg s ≠ some k) →
    prevOk cfg prec prev → Quiet cfg prec prev l.flat
  | .none, prev, a, _, _, hp => by simp [Left.flat, Quiet]
  | .some t, prev, a, hs, ha, hp => by
    simp only [Left.Shaped] at hs
    simp only [Left.AllOps] at ha
    simp only [Left.flat]
    exact quiet_tree t prev hs.2 ha hp
theorem quiet_rights : ∀ (r : Rights V) (prev : Option (Tok V)) (b : List (Option String)),
    r.Shaped (inputsOf cfg) cfg.implicitMul b → r.AllOps (fun s => rowOf cfg s ≠ some k) →
    (∀ x, some x ∈ b → rowOf cfg x = none) → b.IsChain (fun a b => ¬ (a = none ∧ b = none)) →
    (b.head? = some none → prevOk cfg prec prev) → Quiet cfg prec prev r.flat
  | .nil, prev, b, _, _, _, _, _ => by simp [Rights.flat, Quiet]
  | .sym i s r, prev, b, hs, ha, hx, hc, hp => by
    simp only [Rights.Shaped] at hs
    obtain ⟨b', rfl, hr⟩ := hs
    simp only [Rights.AllOps] at ha
    simp only [Rights.flat, Quiet]
    refine ⟨rule0_op cfg (has_false hn hk (by rw [hx s (by simp)]; simp)), ?_⟩
    exact quiet_rights r _ b' hr ha (fun x h => hx x (by simp [h])) (isChain_tail hc)
      (fun _ => prevOk_op cfg)
  | .arg t r, prev, b, hs, ha, hx, hc, hp => by
    simp only [Rights.Shaped] at hs
    obtain ⟨b', rfl, ht, hr⟩ := hs
    simp only [Rights.AllOps] at ha
    simp only [Rights.flat]
    rw [quiet_append]
    refine ⟨quiet_tree t prev ht ha.1 (hp rfl), ?_⟩
    refine quiet_rights r _ b' hr ha.2 (fun x h => hx x (by simp [h])) (isChain_tail hc) ?_
    intro hh
    cases b' with
    | nil => cases hh
    | cons c b'' =>
      simp only [List.head?_cons, Option.some.injEq] at hh
      subst hh
      rw [List.isChain_cons_cons] at hc
      exact absurd ⟨rfl, rfl⟩ hc.1
end
end quiet

/-! ## One contraction -/

/-- In this level's scan, the list `X` has one redex and contracting it gives `X'`. -/
def Fires (rtl : Bool) (prec : Level V σ) (prev : Option (Tok V)) (X X' : List (Item V)) :
    Prop :=
  ∃ i sym w item,
    (if rtl then scanR0 cfg prec prev X else scanL0 cfg prec prev X) = some (i, sym, w) ∧
    X[i]? = some item ∧
    ∀ (A B : List (Item V)) (s : σ),
      execOp cfg sym (A ++ X ++ B) (A.length + i) item w s = (.ok (A ++ X' ++ B), s)

variable {cfg}

theorem firesL_left {prec : Level V σ} {prev : Option (Tok V)} {X X' : List (Item V)}
    (Y : List (Item V)) (h : Fires cfg false prec prev X X') :
    Fires cfg false prec prev (X ++ Y) (X' ++ Y) := by
  obtain ⟨i, sym, w, item, h1, h2, h3⟩ := h
  refine ⟨i, sym, w, item, ?_, ?_, ?_⟩
  · simp only [Bool.false_eq_true, if_false] at h1 ⊢
    rw [scanL0_append, h1]
  · rw [List.getElem?_append_left (List.getElem?_eq_some_iff.mp h2).1]; exact h2
  · intro A B s
    have := h3 A (Y ++ B) s
    simpa [List.append_assoc] using this

theorem firesL_right {prec : Level V σ} {prev : Option (Tok V)} {Y Y' : List (Item V)}
    (X : List (Item V)) (hq : Quiet cfg prec prev X)
    (h : Fires cfg false prec (lastTok prev X) Y Y') :
    Fires cfg false prec prev (X ++ Y) (X ++ Y') := by
  obtain ⟨i, sym, w, item, h1, h2, h3⟩ := h
  refine ⟨X.length + i, sym, w, item, ?_, ?_, ?_⟩
  · simp only [Bool.false_eq_true, if_false] at h1 ⊢
    rw [scanL0_append, scanL0_none _ _ _ _ hq, h1]
    simp [shift, Nat.add_comm]
  · rw [List.getElem?_append_right (by omega)]
    simpa using h2
  · intro A B s
    have := h3 (A ++ X) B s
    simpa [List.append_assoc, Nat.add_assoc] using this

theorem firesR_left {prec : Level V σ} {prev : Option (Tok V)} {X X' : List (Item V)}
    (Y : List (Item V)) (hq : Quiet cfg prec (lastTok prev X) Y)
    (h : Fires cfg true prec prev X X') :
    Fires cfg true prec prev (X ++ Y) (X' ++ Y) := by
  obtain ⟨i, sym, w, item, h1, h2, h3⟩ := h
  refine ⟨i, sym, w, item, ?_, ?_, ?_⟩
  · simp only [if_true] at h1 ⊢
    rw [scanR0_append, scanR0_none _ _ _ _ hq, h1]
  · rw [List.getElem?_append_left (List.getElem?_eq_some_iff.mp h2).1]; exact h2
  · intro A B s
    have := h3 A (Y ++ B) s
    simpa [List.append_assoc] using this

theorem firesR_right {prec : Level V σ} {prev : Option (Tok V)} {Y Y' : List (Item V)}
    (X : List (Item V))
    (h : Fires cfg true prec (lastTok prev X) Y Y') :
    Fires cfg true prec prev (X ++ Y) (X ++ Y') := by
  obtain ⟨i, sym, w, item, h1, h2, h3⟩ := h
  refine ⟨X.length + i, sym, w, item, ?_, ?_, ?_⟩
  · simp only [if_true] at h1 ⊢
    rw [scanR0_append, h1]
    simp [shift, Nat.add_comm]
  · rw [List.getElem?_append_right (by omega)]
    simpa using h2
  · intro A B s
    have := h3 (A ++ X) B s
    simpa [List.append_assoc, Nat.add_assoc] using this

theorem Spec.Tree.leaf_of_ops {t : Tree V} (h : t.ops = 0) : ∃ i v, t = .leaf i v := by
  cases t with
  | leaf i v => exact ⟨i, v, rfl⟩
  | app => simp [Tree.ops] at h
  | juxt => simp [Tree.ops] at h

variable {f : String → List V → Except String V} {P : V → Prop}

theorem settle_P (h : PlainTable cfg f P) (i : ℕ) (op : String) (ins : List V)
    (hi : ∀ v ∈ ins, P v) : P (settle cfg.mkErr i (f op ins)) := by
  cases hf : f op ins with
  | ok v => exact h.closed op ins v hi hf
  | error m => exact h.err _

mutual
theorem eval_P (h : PlainTable cfg f P) : ∀ t : Tree V, t.All P → P (t.eval f cfg.mkErr)
  | .leaf _ _, ha => ha
  | .app i op l r, ha => by
    simp only [Tree.All] at ha
    simp only [Tree.eval]
    apply settle_P h
    intro v hv
    rcases List.mem_append.mp hv with hv | hv
    · exact evals_P_left h l ha.1 v hv
    · exact evals_P_rights h r ha.2 v hv
  | .juxt s l r, ha => by
    simp only [Tree.All] at ha
    simp only [Tree.eval]
    apply settle_P h
    intro v hv
    have h1 := eval_P h l ha.1
    have h2 := eval_P h r ha.2
    simp only [List.mem_cons, List.not_mem_nil, or_false] at hv
    rcases hv with rfl | rfl
    · exact h1
    · exact h2
theorem evals_P_left (h : PlainTable cfg f P) : ∀ l : Left V, l.All P →
    ∀ v ∈ l.evals f cfg.mkErr, P v
  | .none, _, v, hv => by simp [Left.evals] at hv
  | .some t, ha, v, hv => by
    simp only [Left.All] at ha
    simp only [Left.evals, List.mem_singleton] at hv
    subst hv; exact eval_P h t ha
theorem evals_P_rights (h : PlainTable cfg f P) : ∀ r : Rights V, r.All P →
    ∀ v ∈ r.evals f cfg.mkErr, P v
  | .nil, _, v, hv => by simp [Rights.evals] at hv
  | .sym _ _ r, ha, v, hv => by
    simp only [Rights.All] at ha
    simp only [Rights.evals] at hv
    exact evals_P_rights h r ha v hv
  | .arg t r, ha, v, hv => by
    simp only [Rights.All] at ha
    simp only [Rights.evals, List.mem_cons] at hv
    rcases hv with rfl | hv
    · exact eval_P h t ha.1
    · exact evals_P_rights h r ha.2 v hv
end

theorem gather_rights (sym : String) (index : ℕ) : ∀ (r : Rights V) (b : List (Option String)),
    r.ops = 0 → r.Shaped (inputsOf cfg) cfg.implicitMul b →
    gather sym index r.flat b = .ok (r.evals f cfg.mkErr) ∧ r.flat.length = b.length
  | .nil, b, _, hs => by
    simp only [Rights.Shaped] at hs; subst hs
    simp [Rights.flat, Rights.evals, gather]
  | .sym i s r, b, h0, hs => by
    simp only [Rights.Shaped] at hs
    obtain ⟨b', rfl, hr⟩ := hs
    simp only [Rights.ops] at h0
    obtain ⟨h1, h2⟩ := gather_rights sym index r b' h0 hr
    simp [Rights.flat, Rights.evals, gather, h1, h2]
  | .arg t r, b, h0, hs => by
    simp only [Rights.Shaped] at hs
    obtain ⟨b', rfl, ht, hr⟩ := hs
    simp only [Rights.ops] at h0
    obtain ⟨h1, h2⟩ := gather_rights sym index r b' (by omega) hr
    obtain ⟨i, v, rfl⟩ := Tree.leaf_of_ops (t := t) (by omega)
    simp [Rights.flat, Rights.evals, Tree.flat, Tree.eval, gather, h1, h2]

theorem gather_left (sym : String) (index : ℕ) (l : Left V) (a : List (Option String))
    (h0 : l.ops = 0) (hs : l.Shaped (inputsOf cfg) cfg.implicitMul a)
    (its : List (Item V)) (b : List (Option String)) (vs : List V)
    (hg : gather sym index its b = .ok vs) :
    gather sym index (l.flat ++ its) (a ++ b) = .ok (l.evals f cfg.mkErr ++ vs) ∧
      l.flat.length = a.length := by
  cases l with
  | none =>
    simp only [Left.Shaped] at hs; subst hs
    simp [Left.flat, Left.evals, hg]
  | some t =>
    simp only [Left.Shaped] at hs
    obtain ⟨rfl, ht⟩ := hs
    simp only [Left.ops] at h0
    obtain ⟨i, v, rfl⟩ := Tree.leaf_of_ops h0
    simp [Left.flat, Left.evals, Tree.flat, Tree.eval, gather, hg]

/-- Applying a visible operator whose operands are values. -/
theorem execOp_app (h : PlainTable cfg f P) {op : String} {d : OpDef V σ} {l : Left V}
    {r : Rights V} (i : ℕ) (hd : opsList cfg op = some d) (hl0 : l.ops = 0) (hr0 : r.ops = 0)
    (hl : l.Shaped (inputsOf cfg) cfg.implicitMul d.linputs)
    (hr : r.Shaped (inputsOf cfg) cfg.implicitMul d.rinputs)
    (hlP : l.All P) (hrP : r.All P) (A B : List (Item V)) (s : σ) :
    execOp cfg op (A ++ (l.flat ++ ⟨.op op, i⟩ :: r.flat) ++ B) (A.length + l.flat.length)
      ⟨.op op, i⟩ 1 s
    = (.ok (A ++ [⟨.val ((Tree.app i op l r).eval f cfg.mkErr), i⟩] ++ B), s) := by
  obtain ⟨g1, g2⟩ := gather_rights (f := f) op i r d.rinputs hr0 hr
  obtain ⟨g3, g4⟩ := gather_left (f := f) op i l d.linputs hl0 hl _ _ _ g1
  unfold execOp
  rw [hd]
  simp only
  rw [if_neg (by omega), if_neg (by simp; omega)]
  have e1 : A.length + l.flat.length - d.linputs.length = A.length := by omega
  have e2 : (A ++ (l.flat ++ ⟨.op op, i⟩ :: r.flat) ++ B).drop A.length
      = l.flat ++ (⟨.op op, i⟩ :: r.flat ++ B) := by
    simp [List.append_assoc]
  have e3 : (A ++ (l.flat ++ ⟨.op op, i⟩ :: r.flat) ++ B).drop (A.length + l.flat.length + 1)
      = r.flat ++ B := by
    rw [show A ++ (l.flat ++ (⟨.op op, i⟩ : Item V) :: r.flat) ++ B
      = (A ++ l.flat ++ [⟨.op op, i⟩]) ++ (r.flat ++ B) by simp]
    apply List.drop_left'
    simp; omega
  have e4 : (A ++ (l.flat ++ ⟨.op op, i⟩ :: r.flat) ++ B).drop
      (A.length + l.flat.length + d.rinputs.length + 1) = B := by
    rw [show A ++ (l.flat ++ (⟨.op op, i⟩ : Item V) :: r.flat) ++ B
      = (A ++ l.flat ++ (⟨.op op, i⟩ :: r.flat)) ++ B by simp]
    apply List.drop_left'
    simp; omega
  have e5 : (A ++ (l.flat ++ ⟨.op op, i⟩ :: r.flat) ++ B).take A.length = A := by
    simp [List.append_assoc]
  rw [e1, e2, e3, e4, e5, ← g4, ← g2, List.take_left' rfl, List.take_left' rfl, g3]
  simp only
  rw [h.sem op d hd _ s]
  · simp only [Tree.eval]
    cases hf : f op (l.evals f cfg.mkErr ++ r.evals f cfg.mkErr) with
    | ok v => simp [Except.mapError, settle]
    | error m => simp [Except.mapError, settle, Raise.msg]
  · intro v hv
    rcases List.mem_append.mp hv with hv | hv
    · exact evals_P_left h l hlP v hv
    · exact evals_P_rights h r hrP v hv

/-- Applying the invisible operator to two values. -/
theorem execOp_juxt (h : PlainTable cfg f P) {op : String} {d : OpDef V σ}
    (hj : cfg.implicitMul = some op) (hd : opsList cfg op = some d)
    (i j : ℕ) (u v : V) (hu : P u) (hv : P v) (A B : List (Item V)) (s : σ) :
    execOp cfg op (A ++ [⟨.val u, i⟩, ⟨.val v, j⟩] ++ B) (A.length + 1) ⟨.val v, j⟩ 0 s
    = (.ok (A ++ [⟨.val (settle cfg.mkErr j (f op [u, v])), j⟩] ++ B), s) := by
  obtain ⟨hl, hr⟩ := h.juxt op d hj hd
  unfold execOp
  rw [hd]
  simp only [hl, hr, List.length_singleton]
  rw [if_neg (by omega), if_neg (by simp)]
  have e2 : (A ++ [(⟨.val u, i⟩ : Item V), ⟨.val v, j⟩] ++ B).drop A.length
      = ⟨.val u, i⟩ :: ⟨.val v, j⟩ :: B := by
    simp [List.append_assoc]
  have e3 : (A ++ [(⟨.val u, i⟩ : Item V), ⟨.val v, j⟩] ++ B).drop (A.length + 1)
      = ⟨.val v, j⟩ :: B := by
    rw [show A ++ [(⟨.val u, i⟩ : Item V), ⟨.val v, j⟩] ++ B
      = (A ++ [⟨.val u, i⟩]) ++ (⟨.val v, j⟩ :: B) by simp]
    apply List.drop_left'
    simp
  have e4 : (A ++ [(⟨.val u, i⟩ : Item V), ⟨.val v, j⟩] ++ B).drop (A.length + 1 + 1) = B := by
    apply List.drop_left'
    simp
  have e5 : (A ++ [(⟨.val u, i⟩ : Item V), ⟨.val v, j⟩] ++ B).take A.length = A := by
    simp [List.append_assoc]
  rw [Nat.add_sub_cancel, Nat.add_zero, Nat.add_zero, e2, e3, e4, e5]
  simp only [List.take_succ_cons, List.take_zero, List.cons_append, List.nil_append, gather]
  rw [h.sem op d hd _ s]
  · cases hf : f op [u, v] with
    | ok v => simp [Except.mapError, settle]
    | error m => simp [Except.mapError, settle, Raise.msg]
  · intro x hx
    simp only [List.mem_cons, List.not_mem_nil, or_false] at hx
    rcases hx with rfl | rfl
    · exact hu
    · exact hv

end MC
