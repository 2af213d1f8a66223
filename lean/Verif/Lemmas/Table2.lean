import Verif.Lemmas.Table

/-! # Tables with the same rows behave the same -/

namespace MC

variable {V σ : Type}

/-- Two configurations that differ only in the table, which has the same symbols on each level,
the same definitions and the same direction of each level. -/
structure SameTable (c1 c2 : Config V σ) : Prop where
  rest : c2 = { c1 with ops := c2.ops }
  rows : List.Forall₂ (fun l1 l2 : Level V σ => l1.has = l2.has ∧
    (opsList c1 l1.head.1).map OpDef.rtl = (opsList c2 l2.head.1).map OpDef.rtl) c1.ops c2.ops
  lookup : opsList c1 = opsList c2

variable {c1 c2 : Config V σ}

theorem SameTable.ruleAt (h : SameTable c1 c2) {l1 l2 : Level V σ} (hl : l1.has = l2.has) :
    ruleAt c1 l1 = ruleAt c2 l2 := by
  rw [h.rest]
  funext prev item next
  unfold MC.ruleAt
  rw [hl]
  rfl

theorem SameTable.scanL (h : SameTable c1 c2) {l1 l2 : Level V σ} (hl : l1.has = l2.has)
    (prev : Option (Tok V)) (items : List (Item V)) :
    scanL c1 l1 prev items = scanL c2 l2 prev items := by
  induction items generalizing prev with
  | nil => rfl
  | cons it rest ih => simp only [MC.scanL, h.ruleAt hl, ih]

theorem SameTable.scanR (h : SameTable c1 c2) {l1 l2 : Level V σ} (hl : l1.has = l2.has)
    (prev : Option (Tok V)) (items : List (Item V)) :
    scanR c1 l1 prev items = scanR c2 l2 prev items := by
  induction items generalizing prev with
  | nil => rfl
  | cons it rest ih => simp only [MC.scanR, h.ruleAt hl, ih]

theorem SameTable.scanLevel (h : SameTable c1 c2) {l1 l2 : Level V σ} (hl : l1.has = l2.has)
    (hr : (opsList c1 l1.head.1).map OpDef.rtl = (opsList c2 l2.head.1).map OpDef.rtl)
    (items : List (Item V)) : scanLevel c1 l1 items = scanLevel c2 l2 items := by
  unfold MC.scanLevel
  cases h1 : opsList c1 l1.head.1 with
  | none =>
    rw [h1] at hr
    cases h2 : opsList c2 l2.head.1 with
    | none => rfl
    | some d => rw [h2] at hr; simp at hr
  | some d =>
    rw [h1] at hr
    cases h2 : opsList c2 l2.head.1 with
    | none => rw [h2] at hr; simp at hr
    | some d' =>
      rw [h2] at hr
      simp only [Option.map_some, Option.some.injEq] at hr
      simp only [hr, h.scanL hl, h.scanR hl]

theorem SameTable.findRedex (h : SameTable c1 c2) (items : List (Item V)) :
    findRedex c1 items = findRedex c2 items := by
  unfold MC.findRedex
  have := h.rows
  revert this
  generalize c1.ops = t1
  generalize c2.ops = t2
  intro this
  induction this with
  | nil => rfl
  | cons hl _ ih => simp only [List.findSome?_cons, h.scanLevel hl.1 hl.2, ih]

theorem SameTable.mkErr (h : SameTable c1 c2) : c1.mkErr = c2.mkErr := by rw [h.rest]
theorem SameTable.getErr (h : SameTable c1 c2) : c1.getErr = c2.getErr := by rw [h.rest]
theorem SameTable.funcs (h : SameTable c1 c2) : c1.funcs = c2.funcs := by rw [h.rest]

theorem SameTable.execOp (h : SameTable c1 c2) : execOp c1 = execOp c2 := by
  funext sym items i item w s
  unfold MC.execOp
  rw [h.lookup, h.mkErr]

theorem SameTable.step (h : SameTable c1 c2) (items : List (Item V)) :
    step c1 items = step c2 items := by
  unfold MC.step
  rw [h.findRedex, h.execOp]

theorem SameTable.loop (h : SameTable c1 c2) (fuel : ℕ) (items : List (Item V)) (s : σ) :
    loop c1 fuel items s = loop c2 fuel items s := by
  induction fuel generalizing items s with
  | zero => unfold MC.loop; rw [h.step]
  | succ n ih => unfold MC.loop; rw [h.step]; simp only [ih]

theorem SameTable.execOperands (h : SameTable c1 c2) (i : ℕ) (items : List (Src V σ)) (s : σ) :
    execOperands c1 i items s = execOperands c2 i items s := by
  have h1 : execOperand c1 = execOperand c2 := by
    funext i r s
    unfold MC.execOperand
    rw [h.mkErr]
  induction items generalizing i s with
  | nil => rfl
  | cons x items ih =>
    cases x with
    | op o => simp only [MC.execOperands, ih]
    | operand r => simp only [MC.execOperands, ih, h1]

theorem SameTable.execute (h : SameTable c1 c2) : execute c1 = execute c2 := by
  funext items s
  unfold MC.execute executeF
  cases items with
  | nil => rfl
  | cons x items => simp only [h.execOperands, h.loop]

theorem SameTable.argVals (h : SameTable c1 c2) (b : Bool) (runs : List (Act σ V)) (s : σ) :
    argVals c1 b runs s = argVals c2 b runs s := by
  induction runs generalizing s with
  | nil => rfl
  | cons r runs ih => simp only [MC.argVals, ih, h.getErr]

theorem SameTable.funcVal (h : SameTable c1 c2) : funcVal c1 = funcVal c2 := by
  funext name runs s
  unfold MC.funcVal
  simp only [h.funcs, h.argVals]

theorem SameTable.innerVal (h : SameTable c1 c2) : innerVal c1 = innerVal c2 := by
  funext run s
  unfold MC.innerVal
  simp only [h.getErr]

variable {A : Type} (atomVal : A → Act σ V)

set_option linter.unusedSectionVars false in
mutual
theorem SameTable.src (h : SameTable c1 c2) : ∀ n : Node A, n.src c1 atomVal = n.src c2 atomVal
  | .op s => by simp only [Node.src]
  | .skip _ => by simp only [Node.src]
  | .atom a => by simp only [Node.src]
  | .inner items => by simp only [Node.src, h.srcs items, h.innerVal, h.execute]
  | .func name args => by simp only [Node.src, h.runs args, h.funcVal]
theorem SameTable.srcs (h : SameTable c1 c2) : ∀ ns : List (Node A),
    Node.srcs c1 atomVal ns = Node.srcs c2 atomVal ns
  | [] => by simp only [Node.srcs]
  | n :: ns => by simp only [Node.srcs, h.src n, h.srcs ns]
theorem SameTable.runs (h : SameTable c1 c2) : ∀ as : List (List (Node A)),
    Node.runs c1 atomVal as = Node.runs c2 atomVal as
  | [] => by simp only [Node.runs]
  | a :: as => by simp only [Node.runs, h.srcs a, h.execute, h.runs as]
end

theorem SameTable.executeNodes (h : SameTable c1 c2) :
    executeNodes c1 atomVal = executeNodes c2 atomVal := by
  funext items
  unfold MC.executeNodes
  rw [h.srcs, h.execute]

theorem SameTable.calculate (h : SameTable c1 c2) (finalize : V → Act σ V) (i : ℕ)
    (stmts : List (List (Node A))) (s : σ) :
    calculate c1 atomVal finalize i stmts s = calculate c2 atomVal finalize i stmts s := by
  have hs : stmt c1 atomVal finalize = stmt c2 atomVal finalize := by
    funext items s
    unfold MC.stmt
    simp only [h.srcs, h.executeNodes, h.getErr]
  induction stmts generalizing i s with
  | nil => rfl
  | cons x xs ih => simp only [MC.calculate, hs, ih]

end MC
