import Verif.Lemmas.Engine5

/-!
# An expression of two operands and an operator
-/

namespace MC

variable {V σ : Type} {cfg : Config V σ}

/-- `o` is a binary operator of the table without a special meaning. -/
structure Binary (cfg : Config V σ) (o : String) (d : OpDef V σ) : Prop where
  found : opsList cfg o = some d
  left : d.linputs = [none]
  right : d.rinputs = [none]
  plain : some o ∉ [cfg.divideOp, cfg.unitMul, cfg.unitDiv, cfg.implicitMul]
  heads : ∀ l ∈ cfg.ops, opsList cfg l.head.1 ≠ none

/-- Replacing an error of the operator by an error value (`engine.py:289-300`). -/
def settleAt (cfg : Config V σ) (i : ℕ) (out : Except Raise V × σ) : Except Raise V × σ :=
  match out with
  | (.ok v, s) => (.ok v, s)
  | (.error (.py m), s) => (.error (.py m), s)
  | (.error e, s) => (.ok (cfg.mkErr ⟨e.msg, i, false⟩), s)

theorem ruleAt_val_none {prec : Level V σ} {v : V} {next : Option (Tok V)} :
    ruleAt cfg prec none (.val v) next = none := by
  unfold ruleAt
  simp [Tok.isUnit, Tok.isOp]

theorem ruleAt_val_op {prec : Level V σ} {v : V} {o : String} {next : Option (Tok V)} :
    ruleAt cfg prec (some (.op o)) (.val v) next = none := by
  unfold ruleAt
  simp [Tok.isUnit, Tok.isOp]

theorem ruleAt_op {prec : Level V σ} {o : String} {prev next : Option (Tok V)}
    (h : some o ∉ [cfg.divideOp, cfg.unitMul, cfg.unitDiv, cfg.implicitMul]) :
    ruleAt cfg prec prev (.op o) next = if prec.has o then some (o, 1) else none := by
  simp only [List.mem_cons, List.not_mem_nil, or_false, not_or] at h
  unfold ruleAt
  simp [Tok.isUnit, Tok.isOp, h.1, h.2.1, h.2.2.1, h.2.2.2]

theorem scanLevel_single {l : Level V σ} (v : V) (i : ℕ) :
    scanLevel cfg l [⟨.val v, i⟩] = none := by
  unfold scanLevel
  split
  · split <;> simp [scanL, scanR, ruleAt_val_none]
  · rfl

theorem step_single (v : V) (i : ℕ) : step cfg [⟨.val v, i⟩] = none := by
  have : findRedex cfg [⟨.val v, i⟩] = none := by
    unfold findRedex
    rw [List.findSome?_eq_none_iff]
    intro l _
    exact scanLevel_single v i
  unfold step
  rw [this]

theorem has_of_opsList {o : String} {d : OpDef V σ} (h : opsList cfg o = some d) :
    ∃ l ∈ cfg.ops, l.has o = true := by
  unfold opsList at h
  have hm : (o, d) ∈ (cfg.ops.flatMap Level.entries).reverse := by
    generalize (cfg.ops.flatMap Level.entries).reverse = es at h
    induction es with
    | nil => simp at h
    | cons e es ih =>
      rw [List.lookup_cons] at h
      split at h
      · rename_i heq
        simp only [Option.some.injEq] at h
        have : o = e.1 := by simpa using heq
        exact List.mem_cons.mpr (Or.inl (by rw [this, ← h]))
      · exact List.mem_cons_of_mem _ (ih h)
  rw [List.mem_reverse, List.mem_flatMap] at hm
  obtain ⟨l, hl, he⟩ := hm
  refine ⟨l, hl, ?_⟩
  unfold Level.has
  rw [List.any_eq_true]
  exact ⟨_, he, by simp⟩

theorem scanLevel_binary {l : Level V σ} {o : String} {v w : V} {i j k : ℕ}
    (h : some o ∉ [cfg.divideOp, cfg.unitMul, cfg.unitDiv, cfg.implicitMul])
    (hh : opsList cfg l.head.1 ≠ none) :
    scanLevel cfg l [⟨.val v, i⟩, ⟨.op o, j⟩, ⟨.val w, k⟩]
      = if l.has o then some (1, o, 1) else none := by
  unfold scanLevel
  cases hl : opsList cfg l.head.1 with
  | none => exact absurd hl hh
  | some d =>
    simp only
    by_cases ho : l.has o = true
    · split <;> simp [scanL, scanR, ruleAt_val_none, ruleAt_val_op, ruleAt_op h, ho]
    · split <;> simp [scanL, scanR, ruleAt_val_none, ruleAt_val_op, ruleAt_op h, ho]

/-- Executing `a o b`: `a`, then `b`, then the operator on the two values. -/
theorem execute_binary {o : String} {d : OpDef V σ} (h : Binary cfg o d) {a b : Act σ V}
    {s s1 s2 : σ} {v w : V} (ha : execOperand cfg 0 a s = (.ok v, s1))
    (hb : execOperand cfg 2 b s1 = (.ok w, s2)) :
    execute cfg [.operand a, .op o, .operand b] s = settleAt cfg 1 (d.call [v, w] s2) := by
  have hops : execOperands cfg 0 [.operand a, .op o, .operand b] s
      = (.ok [⟨.val v, 0⟩, ⟨.op o, 1⟩, ⟨.val w, 2⟩], s2) := by
    simp [execOperands, ha, hb]
  have hred : findRedex cfg [⟨.val v, 0⟩, ⟨.op o, 1⟩, ⟨.val w, 2⟩] = some (1, o, 1) := by
    obtain ⟨l, hl, hlo⟩ := has_of_opsList h.found
    unfold findRedex
    have hex : ∃ x ∈ cfg.ops, (scanLevel cfg x [⟨.val v, 0⟩, ⟨.op o, 1⟩, ⟨.val w, 2⟩]).isSome := by
      refine ⟨l, hl, ?_⟩
      rw [scanLevel_binary h.plain (h.heads l hl), if_pos hlo]
      rfl
    have hsome := List.findSome?_isSome_iff.mpr hex
    obtain ⟨r, hr⟩ := Option.isSome_iff_exists.mp hsome
    obtain ⟨x, hx, hxr⟩ := List.exists_of_findSome?_eq_some hr
    rw [scanLevel_binary h.plain (h.heads x hx)] at hxr
    rw [hr]
    split at hxr
    · exact hxr.symm
    · simp at hxr
  have hstep : step cfg [⟨.val v, 0⟩, ⟨.op o, 1⟩, ⟨.val w, 2⟩]
      = some (execOp cfg o [⟨.val v, 0⟩, ⟨.op o, 1⟩, ⟨.val w, 2⟩] 1 ⟨.op o, 1⟩ 1) := by
    unfold step
    rw [hred]
    rfl
  have hexec : execOp cfg o [⟨.val v, 0⟩, ⟨.op o, 1⟩, ⟨.val w, 2⟩] 1 ⟨.op o, 1⟩ 1 s2
      = match d.call [v, w] s2 with
        | (.ok r, s') => (.ok [⟨.val r, 1⟩], s')
        | (.error (.py m), s') => (.error (.py m), s')
        | (.error e, s') => (.ok [⟨.val (cfg.mkErr ⟨e.msg, 1, false⟩), 1⟩], s') := by
    unfold execOp
    rw [h.found]
    simp [h.left, h.right, gather]
    rfl
  unfold execute executeF
  simp only [hops, List.length_cons, List.length_nil]
  rw [loop, hstep]
  simp only [hexec]
  unfold settleAt
  cases hc : d.call [v, w] s2 with
  | mk res s3 =>
    cases res with
    | ok r => simp [loop, step_single, finish]
    | error e =>
      cases e with
      | py m => simp
      | exec x => simp [loop, step_single, finish]
      | «calc» m b => simp [loop, step_single, finish]

end MC
