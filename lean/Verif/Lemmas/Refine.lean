import Verif.Lemmas.UnitRun

/-!
# Two engines side by side

An engine on the values `V`, as it runs, and one on the values `W`, in which all operators are
functions.  As long as the operators of the first do what those of the second do, both take the same
steps; once one of them fails, the first ends with an error.
-/

namespace MC.Props
open MC MC.Spec

section
variable {V W σ : Type} (R : V → W → Prop)

/-- The same token, on related values. -/
inductive TokR : Tok V → Tok W → Prop
  | op (o : String) : TokR (.op o) (.op o)
  | val {v : V} {w : W} : R v w → TokR (.val v) (.val w)

/-- The same item, on related values. -/
def ItemR (a : Item V) (b : Item W) : Prop := TokR R a.tok b.tok ∧ a.index = b.index

/-- Operators as functions. -/
def pureCall (f : String → List W → Except String W) (o : String) (ins : List W) : Act Unit W :=
  fun s => ((f o ins).mapError Raise.py, s)

variable {R} {call : String → List V → Act σ V} {isUnit : V → Bool} {mkErr : ExecErr → V}
  {getErr : V → Option Raise} {funcs : String → Option (FuncDef V σ)}
  {f : String → List W → Except String W} {isUnitW : W → Bool} {mkErrW : ExecErr → W}
  {getErrW : W → Option Raise} {funcsW : String → Option (FuncDef W Unit)}

theorem TokR.isOp {a : Tok V} {b : Tok W} (h : TokR R a b) : a.isOp = b.isOp := by cases h <;> rfl

theorem TokR.unitEq (hU : ∀ v w, R v w → isUnit v = isUnitW w) {a : Tok V} {b : Tok W} (h : TokR R a b) :
    a.isUnit (shipped call isUnit mkErr getErr funcs)
      = b.isUnit (shipped (pureCall f) isUnitW mkErrW getErrW funcsW) := by
  cases h with
  | op => rfl
  | val h => exact hU _ _ h

theorem ruleAt_rel (hU : ∀ v w, R v w → isUnit v = isUnitW w) (r : (String × Fixity) × List (String × Fixity))
    {prev : Option (Tok V)} {prev' : Option (Tok W)} (hp : Option.Rel (TokR R) prev prev')
    {item : Tok V} {item' : Tok W} (hi : TokR R item item')
    {next : Option (Tok V)} {next' : Option (Tok W)} (hn : Option.Rel (TokR R) next next') :
    ruleAt (shipped call isUnit mkErr getErr funcs) (levelOf call r) prev item next
      = ruleAt (shipped (pureCall f) isUnitW mkErrW getErrW funcsW) (levelOf (pureCall f) r) prev' item' next' := by
  have hu : ∀ {t : Option (Tok V)} {t' : Option (Tok W)}, Option.Rel (TokR R) t t' →
      t.any (Tok.isUnit (shipped call isUnit mkErr getErr funcs))
      = t'.any (Tok.isUnit (shipped (pureCall f) isUnitW mkErrW getErrW funcsW)) := by
    intro t t' h
    cases h with
    | none => rfl
    | some h => exact h.unitEq hU
  have ho : ∀ {t : Option (Tok V)} {t' : Option (Tok W)}, Option.Rel (TokR R) t t' →
      t.any Tok.isOp = t'.any Tok.isOp := by
    intro t t' h
    cases h with
    | none => rfl
    | some h => exact h.isOp
  have hs : prev.isSome = prev'.isSome := by cases hp <;> rfl
  unfold ruleAt
  simp only [hu hp, hu hn, ho hp, hs, levelOf_has, hi.isOp,
    hi.unitEq (call := call) (mkErr := mkErr) (getErr := getErr) (funcs := funcs) (f := f) (mkErrW := mkErrW)
      (getErrW := getErrW) (funcsW := funcsW) hU]
  cases hi <;> rfl

theorem head_rel {items : List (Item V)} {items' : List (Item W)} (h : List.Forall₂ (ItemR R) items items') :
    Option.Rel (TokR R) (items.head?.map Item.tok) (items'.head?.map Item.tok) := by
  cases h with
  | nil => exact .none
  | cons h _ => exact .some h.1

theorem scanL_rel (hU : ∀ v w, R v w → isUnit v = isUnitW w) (r : (String × Fixity) × List (String × Fixity))
    {items : List (Item V)} {items' : List (Item W)} (h : List.Forall₂ (ItemR R) items items') :
    ∀ {prev : Option (Tok V)} {prev' : Option (Tok W)}, Option.Rel (TokR R) prev prev' →
    scanL (shipped call isUnit mkErr getErr funcs) (levelOf call r) prev items
      = scanL (shipped (pureCall f) isUnitW mkErrW getErrW funcsW) (levelOf (pureCall f) r) prev' items' := by
  induction h with
  | nil => intros; rfl
  | cons ha hr ih =>
    intro prev prev' hp
    rw [scanL, scanL, ruleAt_rel hU r hp ha.1 (head_rel hr), ih (.some ha.1)]

theorem scanR_rel (hU : ∀ v w, R v w → isUnit v = isUnitW w) (r : (String × Fixity) × List (String × Fixity))
    {items : List (Item V)} {items' : List (Item W)} (h : List.Forall₂ (ItemR R) items items') :
    ∀ {prev : Option (Tok V)} {prev' : Option (Tok W)}, Option.Rel (TokR R) prev prev' →
    scanR (shipped call isUnit mkErr getErr funcs) (levelOf call r) prev items
      = scanR (shipped (pureCall f) isUnitW mkErrW getErrW funcsW) (levelOf (pureCall f) r) prev' items' := by
  induction h with
  | nil => intros; rfl
  | cons ha hr ih =>
    intro prev prev' hp
    rw [scanR, scanR, ruleAt_rel hU r hp ha.1 (head_rel hr), ih (.some ha.1)]

theorem findRedex_rel (hU : ∀ v w, R v w → isUnit v = isUnitW w)
    {items : List (Item V)} {items' : List (Item W)} (h : List.Forall₂ (ItemR R) items items') :
    findRedex (shipped call isUnit mkErr getErr funcs) items
      = findRedex (shipped (pureCall f) isUnitW mkErrW getErrW funcsW) items' := by
  unfold findRedex
  have e1 : (shipped call isUnit mkErr getErr funcs).ops = shippedRows.map (levelOf call) := rfl
  have e2 : (shipped (pureCall f) isUnitW mkErrW getErrW funcsW).ops
      = shippedRows.map (levelOf (pureCall f)) := rfl
  rw [e1, e2, List.findSome?_map, List.findSome?_map]
  congr 1
  funext r
  simp only [Function.comp]
  unfold scanLevel
  rw [show (levelOf call r).head.1 = r.1.1 from rfl, show (levelOf (pureCall f) r).head.1 = r.1.1 from rfl,
    opsList_shipped, opsList_shipped]
  cases shippedAll.reverse.lookup r.1.1 with
  | none => rfl
  | some x =>
    simp only [Option.map_some, Fixity.toOp]
    rw [scanL_rel hU r h .none, scanR_rel hU r h .none]

theorem gather_rel (sym : String) (index : ℕ) {its : List (Item V)} {its' : List (Item W)}
    (h : List.Forall₂ (ItemR R) its its') : ∀ {es : List (Option String)} {ws : List W},
    gather sym index its' es = .ok ws → ∃ vs, gather sym index its es = .ok vs ∧ List.Forall₂ R vs ws := by
  induction h with
  | nil =>
    intro es ws hg
    cases es <;> (simp only [gather, Except.ok.injEq] at hg; subst hg; exact ⟨[], rfl, .nil⟩)
  | @cons a b as bs ha _ ih =>
    intro es ws hg
    cases es with
    | nil =>
      simp only [gather, Except.ok.injEq] at hg
      subst hg
      exact ⟨[], rfl, .nil⟩
    | cons e es =>
      obtain ⟨ta, ia⟩ := a
      obtain ⟨tb, ib⟩ := b
      obtain ⟨h1, h2⟩ := ha
      simp only at h1 h2
      subst h2
      cases h1 with
      | op o =>
        cases e with
        | none => simp [gather] at hg
        | some s =>
          simp only [gather] at hg ⊢
          split at hg
          · rename_i hs
            rw [if_pos hs]
            exact ih hg
          · cases hg
      | val hv =>
        cases e with
        | some s => simp [gather] at hg
        | none =>
          simp only [gather] at hg
          split at hg
          · rename_i ws' hg'
            simp only [Except.ok.injEq] at hg
            subst hg
            obtain ⟨vs, h1, h2⟩ := ih hg'
            refine ⟨_, ?_, .cons hv h2⟩
            simp only [gather, h1]
          · cases hg

/-! ## An error never disappears -/

/-- A value is an error, and only these operators are left. -/
def Broken (P : String → Prop) (getErr : V → Option Raise) (items : List (Item V)) : Prop :=
  (∃ it ∈ items, ∃ v, it.tok = .val v ∧ getErr v ≠ none) ∧ ∀ it ∈ items, ∀ o, it.tok = .op o → P o

/-- The operators `P` pass errors on, and `mkErr` makes errors. -/
structure PassOn (P : String → Prop) (call : String → List V → Act σ V) (mkErr : ExecErr → V)
    (getErr : V → Option Raise) : Prop where
  made : ∀ e, getErr (mkErr e) ≠ none
  hidden : ∀ o ∈ ["UNIT_ASSIGNMENT", "UNIT_MULTIPLY", "UNIT_DIVIDE", "IMPLICIT_MULTIPLY"], P o
  divide : P "/"
  passed : ∀ o, P o → ∀ ins s v s', (∃ x ∈ ins, getErr x ≠ none) → call o ins s = (.ok v, s') → getErr v ≠ none

/-- The hidden operators. -/
def hiddenOps : List String := ["UNIT_ASSIGNMENT", "UNIT_MULTIPLY", "UNIT_DIVIDE", "IMPLICIT_MULTIPLY"]

theorem ruleAt_sym {prec : Level V σ} {prev : Option (Tok V)} {item : Tok V} {next : Option (Tok V)}
    {o : String} {w : ℕ}
    (h : ruleAt (shipped call isUnit mkErr getErr funcs) prec prev item next = some (o, w)) :
    o ∈ hiddenOps ∨ item = .op o := by
  unfold ruleAt at h
  simp only at h
  split at h
  · rename_i hs
    simp only [Option.some.injEq, Prod.mk.injEq] at h
    rw [Option.filter_eq_some_iff] at hs
    have := hs.1
    simp only [shipped, Option.some.injEq] at this
    left; rw [← h.1, ← this]; decide
  split at h
  · rename_i hs
    simp only [Option.some.injEq, Prod.mk.injEq] at h
    rw [Option.filter_eq_some_iff] at hs
    have := hs.1
    simp only [shipped, Option.some.injEq] at this
    left; rw [← h.1, ← this]; decide
  split at h
  · rename_i hs
    simp only [Option.some.injEq, Prod.mk.injEq] at h
    rw [Option.filter_eq_some_iff] at hs
    have := hs.1
    simp only [shipped, Option.some.injEq] at this
    left; rw [← h.1, ← this]; decide
  split at h
  · rename_i hs
    simp only [Option.some.injEq, Prod.mk.injEq] at h
    rw [Option.filter_eq_some_iff] at hs
    have := hs.1
    simp only [shipped, Option.some.injEq] at this
    left; rw [← h.1, ← this]; decide
  cases item with
  | op o' =>
    simp only at h
    split at h
    · simp only [Option.some.injEq, Prod.mk.injEq] at h
      right; rw [h.1]
    · cases h
  | val v => cases h

theorem scanL_sym {prec : Level V σ} : ∀ {items : List (Item V)} {prev : Option (Tok V)} {i : ℕ} {o : String}
    {w : ℕ}, scanL (shipped call isUnit mkErr getErr funcs) prec prev items = some (i, o, w) →
    ∀ it, items[i]? = some it → o ∈ hiddenOps ∨ it.tok = .op o
  | [], _, _, _, _, h => by simp [scanL] at h
  | x :: rest, prev, i, s, w, h => by
    unfold scanL at h
    split at h
    · rename_i r hr
      simp only [Option.some.injEq, Prod.mk.injEq] at h
      obtain ⟨rfl, h⟩ := h
      subst h
      intro it hit
      simp only [List.getElem?_cons_zero, Option.some.injEq] at hit
      subst hit
      exact ruleAt_sym hr
    · rw [Option.map_eq_some_iff] at h
      obtain ⟨⟨j, q⟩, h1, h2⟩ := h
      simp only [Prod.mk.injEq] at h2
      obtain ⟨rfl, rfl⟩ := h2
      intro it hit
      rw [List.getElem?_cons_succ] at hit
      exact scanL_sym h1 it hit

theorem scanR_sym {prec : Level V σ} : ∀ {items : List (Item V)} {prev : Option (Tok V)} {i : ℕ} {o : String}
    {w : ℕ}, scanR (shipped call isUnit mkErr getErr funcs) prec prev items = some (i, o, w) →
    ∀ it, items[i]? = some it → o ∈ hiddenOps ∨ it.tok = .op o
  | [], _, _, _, _, h => by simp [scanR] at h
  | x :: rest, prev, i, s, w, h => by
    unfold scanR at h
    split at h
    · rename_i y hr
      simp only [Option.some.injEq, Prod.mk.injEq] at h
      obtain ⟨rfl, h⟩ := h
      intro it hit
      rw [List.getElem?_cons_succ] at hit
      obtain ⟨j, q⟩ := y
      simp only at h hit
      subst h
      exact scanR_sym hr it hit
    · rw [Option.map_eq_some_iff] at h
      obtain ⟨q, h1, h2⟩ := h
      simp only [Prod.mk.injEq] at h2
      obtain ⟨rfl, rfl⟩ := h2
      intro it hit
      simp only [List.getElem?_cons_zero, Option.some.injEq] at hit
      subst hit
      exact ruleAt_sym h1

theorem findRedex_sym {items : List (Item V)} {i : ℕ} {o : String} {w : ℕ}
    (h : findRedex (shipped call isUnit mkErr getErr funcs) items = some (i, o, w)) {it : Item V}
    (hit : items[i]? = some it) : o ∈ hiddenOps ∨ it.tok = .op o := by
  unfold findRedex at h
  obtain ⟨prec, _, hp⟩ := List.exists_of_findSome?_eq_some h
  unfold scanLevel at hp
  split at hp
  · split at hp
    · exact scanR_sym hp it hit
    · exact scanL_sym hp it hit
  · cases hp

/-- What an operator leaves of the items. -/
theorem execOp_put {cfg : Config V σ} {sym : String} {items items' : List (Item V)} {i w : ℕ} {item : Item V}
    {s s' : σ} (h : execOp cfg sym items i item w s = (.ok items', s')) :
    ∃ op ins v, opsList cfg sym = some op ∧ op.linputs.length ≤ i ∧ i + op.rinputs.length + w ≤ items.length ∧
      gather sym item.index ((items.drop (i - op.linputs.length)).take op.linputs.length
        ++ (items.drop (i + w)).take op.rinputs.length) (op.linputs ++ op.rinputs) = .ok ins ∧
      (op.call ins s = (.ok v, s') ∨ ∃ e, (∀ m, e ≠ .py m) ∧ op.call ins s = (.error e, s') ∧
        v = cfg.mkErr ⟨e.msg, item.index, false⟩) ∧
      items' = items.take (i - op.linputs.length) ++ ⟨.val v, item.index⟩
        :: items.drop (i + op.rinputs.length + w) := by
  unfold execOp at h
  cases ho : opsList cfg sym with
  | none => rw [ho] at h; simp at h
  | some d =>
    rw [ho] at h
    simp only at h
    split at h
    · simp at h
    rename_i hl
    split at h
    · simp at h
    rename_i hr'
    split at h
    · simp at h
    rename_i ins hg
    refine ⟨d, ins, ?_⟩
    split at h
    · rename_i v s1 hc
      simp only [Prod.mk.injEq, Except.ok.injEq] at h
      obtain ⟨rfl, rfl⟩ := h
      exact ⟨v, rfl, by omega, by omega, hg, .inl hc, rfl⟩
    · simp at h
    · rename_i e s1 hne hc
      simp only [Prod.mk.injEq, Except.ok.injEq] at h
      obtain ⟨rfl, rfl⟩ := h
      exact ⟨_, rfl, by omega, by omega, hg, .inr ⟨e, hne, hc, rfl⟩, rfl⟩

theorem execOp_broken {P : String → Prop} (hP : PassOn P call mkErr getErr) {items items' : List (Item V)} {i : ℕ}
    {sym : String} {w : ℕ} {item : Item V} {s s' : σ}
    (hr : findRedex (shipped call isUnit mkErr getErr funcs) items = some (i, sym, w))
    (hi : items[i]? = some item) (hm : Broken P getErr items)
    (h : execOp (shipped call isUnit mkErr getErr funcs) sym items i item w s = (.ok items', s')) :
    Broken P getErr items' := by
  obtain ⟨d, ins, v, ho, hl, hr', hg, hv, rfl⟩ := execOp_put h
  obtain ⟨x, hx, rfl⟩ := shipped_op _ _ _ _ _ ho
  obtain ⟨⟨it, hit, u, htok, hu⟩, hops⟩ := hm
  have hw := findRedex_op hr hi
  have hsym : P sym := by
    rcases findRedex_sym hr hi with h1 | h1
    · exact hP.hidden _ h1
    · exact hops item (List.mem_of_getElem? hi) _ h1
  have hlen : i < items.length := (List.getElem?_eq_some_iff.1 hi).1
  simp only [Fixity.toOp] at hl hr' hg hv ⊢
  refine ⟨?_, ?_⟩
  · have hsplit : items = items.take (i - x.linputs.length)
        ++ ((items.drop (i - x.linputs.length)).take x.linputs.length
          ++ ((items.drop i).take w ++ ((items.drop (i + w)).take x.rinputs.length
            ++ items.drop (i + x.rinputs.length + w)))) := by
      conv_lhs => rw [← List.take_append_drop (i - x.linputs.length) items]
      congr 1
      conv_lhs => rw [← List.take_append_drop x.linputs.length (items.drop (i - x.linputs.length))]
      congr 1
      rw [List.drop_drop, show i - x.linputs.length + x.linputs.length = i by omega]
      conv_lhs => rw [← List.take_append_drop w (items.drop i)]
      congr 1
      rw [List.drop_drop]
      conv_lhs => rw [← List.take_append_drop x.rinputs.length (items.drop (i + w))]
      rw [List.drop_drop, show i + w + x.rinputs.length = i + x.rinputs.length + w by omega]
    rw [hsplit] at hit
    simp only [List.mem_append] at hit
    have hlenA : ((items.drop (i - x.linputs.length)).take x.linputs.length
        ++ (items.drop (i + w)).take x.rinputs.length).length
        = (x.linputs ++ x.rinputs).length := by
      simp only [List.length_append, List.length_take, List.length_drop]
      omega
    have gone : it ∈ (items.drop (i - x.linputs.length)).take x.linputs.length
        ++ (items.drop (i + w)).take x.rinputs.length → getErr v ≠ none := by
      intro hmem
      have hin := gather_keeps hg hlenA it hmem u htok
      rcases hv with hv | ⟨e, _, _, rfl⟩
      · exact hP.passed sym hsym ins s v s' ⟨u, hin, hu⟩ hv
      · exact hP.made _
    rcases hit with hit | hit | hit | hit | hit
    · exact ⟨it, by simp [hit], u, htok, hu⟩
    · exact ⟨_, List.mem_append_right _ (List.mem_cons_self ..), v, rfl, gone (List.mem_append_left _ hit)⟩
    · exfalso
      rcases hw with rfl | ⟨rfl, hop⟩
      · simp at hit
      · have : (items.drop i).take 1 = [item] := by
          rw [List.drop_eq_getElem_cons hlen]
          rw [List.getElem?_eq_getElem hlen, Option.some.injEq] at hi
          rw [hi]; rfl
        rw [this, List.mem_singleton] at hit
        subst hit
        rw [htok] at hop
        cases hop
    · exact ⟨_, List.mem_append_right _ (List.mem_cons_self ..), v, rfl, gone (List.mem_append_right _ hit)⟩
    · exact ⟨it, by simp [hit], u, htok, hu⟩
  · intro it hit o ho
    rcases List.mem_append.1 hit with hit | hit
    · exact hops it (List.mem_of_mem_take hit) o ho
    · rcases List.mem_cons.1 hit with rfl | hit
      · cases ho
      · exact hops it (List.mem_of_mem_drop hit) o ho

/-- A run that ends with an error. -/
def Fails (getErr : V → Option Raise) (r : Except Raise V) : Prop := ∀ v, r = .ok v → getErr v ≠ none

theorem finish_broken {P : String → Prop} {items : List (Item V)} (hm : Broken P getErr items) :
    Fails getErr (finish items) := by
  intro v h
  obtain ⟨⟨it, hit, u, ht, hu⟩, _⟩ := hm
  match items, hit, h with
  | [x], hit, h =>
    rw [List.mem_singleton] at hit
    subst hit
    simp only [finish, ht, Except.ok.injEq] at h
    subst h
    exact hu
  | x :: y :: rest, _, h =>
    simp only [finish] at h
    split at h
    · split at h <;> cases h
    · cases h

theorem loop_broken {P : String → Prop} (hP : PassOn P call mkErr getErr) :
    ∀ (n : ℕ) (items : List (Item V)) (s s' : σ) (r : Except Raise V), Broken P getErr items →
    loop (shipped call isUnit mkErr getErr funcs) n items s = some (r, s') → Fails getErr r := by
  intro n
  induction n with
  | zero =>
    intro items s s' r hm h
    rw [loop] at h
    cases hs : step (shipped call isUnit mkErr getErr funcs) items with
    | some act => rw [hs] at h; cases h
    | none =>
      rw [hs] at h
      simp only [Option.some.injEq, Prod.mk.injEq] at h
      rw [← h.1]
      exact finish_broken hm
  | succ n ih =>
    intro items s s' r hm h
    rw [loop] at h
    cases hs : step (shipped call isUnit mkErr getErr funcs) items with
    | none =>
      rw [hs] at h
      simp only [Option.some.injEq, Prod.mk.injEq] at h
      rw [← h.1]
      exact finish_broken hm
    | some act =>
      rw [hs] at h
      simp only at h
      unfold step at hs
      split at hs
      · cases hs
      rename_i i sym w hr
      split at hs
      · cases hs
      rename_i item hi
      simp only [Option.some.injEq] at hs
      subst hs
      cases ha : execOp (shipped call isUnit mkErr getErr funcs) sym items i item w s with
      | mk res s1 =>
        rw [ha] at h
        cases res with
        | error e =>
          simp only [Option.some.injEq, Prod.mk.injEq] at h
          rw [← h.1]
          intro v hv
          cases hv
        | ok items' => exact ih items' s1 s' r (execOp_broken hP hr hi hm ha) h

/-! ## Related runs -/

/-- Applied to related values, the operators of the engine give related values or fail; `P` are
operators that pass errors on, and all that `f` knows are among them.  (`then` does not pass errors
on.) -/
structure Follows (R : V → W → Prop) (P : String → Prop) (call : String → List V → Act σ V)
    (f : String → List W → Except String W) : Prop where
  known : ∀ o ws w, f o ws = .ok w → P o
  noThen : ∀ ws w, f "then" ws ≠ .ok w
  result : ∀ o ws w, f o ws = .ok w → ∀ vs, List.Forall₂ R vs ws → ∀ s,
    (∃ v, call o vs s = (.ok v, s) ∧ R v w) ∨ ∃ e s', call o vs s = (.error e, s')

theorem execOp_rel {P : String → Prop} (hP : PassOn P call mkErr getErr) (hF : Follows R P call f)
    {items : List (Item V)} {items' res : List (Item W)} (hi : List.Forall₂ (ItemR R) items items')
    (hops : ∀ it ∈ items, ∀ o, it.tok = .op o → P o) {sym : String} {i w : ℕ} {item : Item V} {item' : Item W}
    (hit : ItemR R item item') (s : σ)
    (h : execOp (shipped (pureCall f) isUnitW mkErrW getErrW funcsW) sym items' i item' w () = (.ok res, ())) :
    (∃ its, execOp (shipped call isUnit mkErr getErr funcs) sym items i item w s = (.ok its, s) ∧
        List.Forall₂ (ItemR R) its res ∧ ∀ it ∈ its, ∀ o, it.tok = .op o → P o) ∨
    (∃ e s', execOp (shipped call isUnit mkErr getErr funcs) sym items i item w s = (.error e, s')) ∨
    ∃ its s', execOp (shipped call isUnit mkErr getErr funcs) sym items i item w s = (.ok its, s') ∧
      Broken P getErr its := by
  obtain ⟨d, ws, u, ho, hl, hr, hg, hv, rfl⟩ := execOp_put h
  have hfu : f sym ws = .ok u := by
    obtain ⟨x, hx, rfl⟩ := shipped_op _ _ _ _ _ ho
    simp only [Fixity.toOp, pureCall] at hv
    cases hf : f sym ws with
    | error m =>
      rw [hf] at hv
      rcases hv with hv | ⟨e, hne, hv, rfl⟩
      · cases hv
      · simp only [Except.mapError, Prod.mk.injEq, Except.error.injEq] at hv
        exact absurd hv.1.symm (hne m)
    | ok y =>
      rw [hf] at hv
      rcases hv with hv | ⟨e, _, hv, _⟩
      · simp only [Except.mapError, Prod.mk.injEq, Except.ok.injEq] at hv
        rw [hv.1]
      · cases hv
  rw [opsList_shipped, Option.map_eq_some_iff] at ho
  obtain ⟨x, hx, rfl⟩ := ho
  simp only [Fixity.toOp] at hl hr hg ⊢
  have hlen : items.length = items'.length := hi.length_eq
  have hact : List.Forall₂ (ItemR R) ((items.drop (i - x.linputs.length)).take x.linputs.length
        ++ (items.drop (i + w)).take x.rinputs.length)
      ((items'.drop (i - x.linputs.length)).take x.linputs.length
        ++ (items'.drop (i + w)).take x.rinputs.length) :=
    List.rel_append (List.forall₂_take _ (List.forall₂_drop _ hi)) (List.forall₂_take _ (List.forall₂_drop _ hi))
  obtain ⟨vs, hg', hvs⟩ := gather_rel sym item'.index hact hg
  have hunf : ∀ r : Except Raise V × σ, call sym vs s = r →
      execOp (shipped call isUnit mkErr getErr funcs) sym items i item w s =
        match r with
        | (.ok v, s') => (.ok (items.take (i - x.linputs.length) ++ ⟨.val v, item.index⟩
            :: items.drop (i + x.rinputs.length + w)), s')
        | (.error (.py m), s') => (.error (.py m), s')
        | (.error e, s') => (.ok (items.take (i - x.linputs.length) ++ ⟨.val (mkErr ⟨e.msg, item.index, false⟩),
            item.index⟩ :: items.drop (i + x.rinputs.length + w)), s') := by
    intro r hr'
    unfold execOp
    rw [opsList_shipped, hx]
    simp only [Option.map_some, Fixity.toOp]
    rw [if_neg (by omega), if_neg (by omega), hit.2, hg']
    simp only [hr']
    rfl
  have hleft : ∀ y : Item V, (∀ o, y.tok = .op o → P o) → ∀ it ∈ items.take (i - x.linputs.length) ++ y
      :: items.drop (i + x.rinputs.length + w), ∀ o, it.tok = .op o → P o := by
    intro y hy it hit o ho
    rcases List.mem_append.1 hit with hit | hit
    · exact hops it (List.mem_of_mem_take hit) o ho
    · rcases List.mem_cons.1 hit with rfl | hit
      · exact hy o ho
      · exact hops it (List.mem_of_mem_drop hit) o ho
  rcases hF.result sym ws u hfu vs hvs s with ⟨v, hc, hv'⟩ | ⟨e, s', hc⟩
  · left
    rw [hunf _ hc]
    exact ⟨_, rfl, List.rel_append (List.forall₂_take _ hi)
      (.cons ⟨.val hv', hit.2⟩ (List.forall₂_drop _ hi)), hleft _ (by intro o h; cases h)⟩
  · right
    rw [hunf _ hc]
    cases e with
    | py m => exact .inl ⟨_, _, rfl⟩
    | «calc» m wr => exact .inr ⟨_, _, rfl, ⟨_, List.mem_append_right _ (List.mem_cons_self ..), _, rfl, hP.made _⟩,
        hleft _ (by intro o h; cases h)⟩
    | exec m => exact .inr ⟨_, _, rfl, ⟨_, List.mem_append_right _ (List.mem_cons_self ..), _, rfl, hP.made _⟩,
        hleft _ (by intro o h; cases h)⟩

/-- What a run may come to: a value related to `w`, or an error. -/
def Comes (R : V → W → Prop) (getErr : V → Option Raise) (s : σ) (w : W) (r : Except Raise V × σ) : Prop :=
  (∃ v, r = (.ok v, s) ∧ R v w) ∨ Fails getErr r.1

/-- A phrase runs to a value related to its value, or fails. -/
theorem phrase_loop_rel {P : String → Prop} (hP : PassOn P call mkErr getErr) (hF : Follows R P call f)
    (hU : ∀ v w, R v w → isUnit v = isUnitW w) {k : ℕ} (hk : k ≤ 16) {x : W} (s : σ) :
    ∀ (fuel d j : ℕ) (items : List (Item V)) (items' : List (Item W)) (b e : Bool), 17 - j ≤ d →
    items.length ≤ fuel → List.Forall₂ (ItemR R) items items' → (∀ it ∈ items, ∀ o, it.tok = .op o → P o) →
    PhraseFrom isUnitW f j k b e (items'.map Item.tok) x →
    ∀ r, loop (shipped call isUnit mkErr getErr funcs) fuel items s = some r → Comes R getErr s x r := by
  intro fuel
  induction fuel with
  | zero =>
    intro d j items items' b e _ hl hi _ hp
    obtain ⟨A, y, h⟩ := phrase_last hp
    have h1 := congrArg List.length h
    have h2 := hi.length_eq
    rw [List.length_map] at h1
    simp only [List.length_append, List.length_cons, List.length_nil] at h1
    omega
  | succ fuel ihf =>
    intro d
    induction d with
    | zero =>
      intro j items items' b e hd _ _ _ hp
      have := phrase_le hp
      omega
    | succ d ihd =>
      intro j items items' b e hd hl hi hops hp
      have hjk := phrase_le hp
      have hfr := findRedex_rel (call := call) (mkErr := mkErr) (getErr := getErr) (funcs := funcs) (f := f)
        (mkErrW := fun _ => x) (getErrW := fun _ => none) (funcsW := fun _ => none) hU hi
      by_cases hj : j = k
      · obtain ⟨h1, -, -⟩ := phrase_base hp hj.symm
        obtain ⟨it, I, rfl, h2, h3⟩ := List.map_eq_cons_iff.1 h1
        obtain rfl := List.map_eq_nil_iff.1 h3
        have hs : findRedex (shipped (pureCall f) isUnitW (fun _ => x) (fun _ => none) (fun _ => none)) [it] = none := by
          unfold findRedex
          rw [List.findSome?_eq_none_iff]
          intro prec hm
          obtain ⟨i, hi⟩ := List.getElem?_of_mem hm
          have hlt : i < 17 := by
            have := (List.getElem?_eq_some_iff.1 hi).1
            have e : shippedRows.length = 17 := rfl
            simpa [shipped, e] using this
          have hstill : Still (shipped (pureCall f) isUnitW (fun _ => x) (fun _ => none) (fun _ => none)) prec none
              ([it].map Item.tok) none := by
            refine ⟨?_, trivial⟩
            rw [h2]
            exact rule_first prec (by simp) _ _
          rw [scanLevel_row ⟨hlt, hi⟩]
          split
          · exact scanR_still _ _ hstill
          · exact scanL_still _ _ hstill
        rw [hs] at hfr
        obtain ⟨a, l, ha, hl', rfl⟩ := List.forall₂_cons_right_iff.1 hi
        cases hl'
        obtain ⟨ha, _⟩ := ha
        rw [h2] at ha
        obtain ⟨ta, ia⟩ := a
        simp only at ha
        cases ha with
        | val hv =>
          intro r hr
          rw [loop] at hr
          simp only [step, hfr, finish, Option.some.injEq] at hr
          exact .inl ⟨_, hr.symm, hv⟩
      · obtain ⟨prec, hrow⟩ := row_exists (call := pureCall f) (isUnit := isUnitW) (mkErr := fun _ => x)
          (getErr := fun _ => none) (funcs := fun _ => none) (j := j) (by omega)
        have hf : ∀ o ins v, f o ins = .ok v → pureCall f o ins () = (.ok v, ()) := by
          intro o ins v h
          simp [pureCall, h, Except.mapError]
        rcases row_turn hrow hf hp (by omega) with h1 | ⟨T', b', e', ⟨i, sym, w, item, res, g1, g2, g3, g4, g5⟩, h2⟩
        · exact ihd (j + 1) items items' b e (by omega) hl hi hops h1
        · have hr : findRedex (shipped (pureCall f) isUnitW (fun _ => x) (fun _ => none) (fun _ => none)) items'
              = some (i, sym, w) := by
            unfold findRedex
            rw [← g1]
            refine findSome_at hrow.2 ?_ (by rw [g1]; rfl)
            intro i' hi' y hy
            exact row_silent ⟨by omega, hy⟩ hp hi'
          rw [hr] at hfr
          have hlt : i < items.length := by
            rw [hi.length_eq]
            exact (List.getElem?_eq_some_iff.1 g2).1
          have g2' : items[i]? = some items[i] := List.getElem?_eq_getElem hlt
          have hit : ItemR R items[i] item := by
            have := List.Forall₂.get hi hlt (by rw [← hi.length_eq]; exact hlt)
            rw [List.getElem?_eq_some_iff] at g2
            obtain ⟨_, rfl⟩ := g2
            exact this
          intro r
          rw [loop]
          simp only [step, hfr, g2']
          rcases execOp_rel (isUnit := isUnit) (funcs := funcs) hP hF hi hops hit s g3 with
            ⟨its, hx, hrel, ho⟩ | ⟨e, s', hx⟩ | ⟨its, s', hx, hb⟩
          · rw [hx]
            simp only
            subst g5
            have hlen := hrel.length_eq
            have := hi.length_eq
            exact ihf 17 j its res b' e' (by omega) (by omega) hrel ho h2 r
          · rw [hx]
            intro hr
            simp only [Option.some.injEq] at hr
            subst hr
            exact .inr (by intro v hv; cases hv)
          · rw [hx]
            intro hr
            exact .inr (loop_broken hP fuel its s' r.2 r.1 hb hr)

theorem phrase_ops {P : String → Prop} (hF : Follows R P call f) (hd : P "/") {j k : ℕ} {b e : Bool}
    {T : List (Tok W)} {x : W} (h : PhraseFrom isUnitW f j k b e T x) : ∀ o, Tok.op o ∈ T → P o := by
  induction h with
  | atom v => intro o h; simp at h
  | up _ ih => exact ih
  | left _ _ _ _ hx _ _ iht ihu =>
    intro o h
    simp only [List.mem_append, List.mem_cons, Tok.op.injEq] at h
    rcases h with h | rfl | h
    · exact iht o h
    · exact hF.known _ _ _ hx
    · exact ihu o h
  | pref _ _ _ _ hx ih =>
    intro o h
    simp only [List.mem_cons, Tok.op.injEq] at h
    rcases h with rfl | h
    · exact hF.known _ _ _ hx
    · exact ih o h
  | tern hd _ _ _ hx _ _ _ =>
    obtain ⟨rfl, rfl, rfl⟩ := ternary_row hd
    exact absurd hx (hF.noThen _ _)
  | times _ _ _ _ _ iht ihu =>
    intro o h
    rcases List.mem_append.1 h with h | h
    · exact iht o h
    · exact ihu o h
  | per _ _ _ _ _ iht ihu =>
    intro o h
    simp only [List.mem_append, List.mem_cons, Tok.op.injEq] at h
    rcases h with h | rfl | h
    · exact iht o h
    · exact hd
    · exact ihu o h
  | of _ _ _ _ _ _ iht ihu =>
    intro o h
    rcases List.mem_append.1 h with h | h
    · exact iht o h
    · exact ihu o h
  | next _ _ _ _ iht ihu =>
    intro o h
    rcases List.mem_append.1 h with h | h
    · exact iht o h
    · exact ihu o h

/-- Operands that come to values related to those of `T`. -/
inductive GivesR (R : V → W → Prop) (getErr : V → Option Raise) : List (Src V σ) → List (Tok W) → Prop
  | nil : GivesR R getErr [] []
  | op {o : String} {srcs T} : GivesR R getErr srcs T → GivesR R getErr (.op o :: srcs) (.op o :: T)
  | operand {act : Act σ V} {w : W} {srcs T} : (∀ s, Comes R getErr s w (act s)) → GivesR R getErr srcs T →
      GivesR R getErr (.operand act :: srcs) (.val w :: T)

theorem GivesR.execOperands {P : String → Prop} (hP : PassOn P call mkErr getErr)
    {srcs : List (Src V σ)} {T : List (Tok W)} (h : GivesR R getErr srcs T) (hT : ∀ o, Tok.op o ∈ T → P o) :
    ∀ (i : ℕ) (s : σ) (r : Except Raise (List (Item V))) (s1 : σ),
    MC.execOperands (shipped call isUnit mkErr getErr funcs) i srcs s = (r, s1) →
    (∀ items, r = .ok items → ∀ it ∈ items, ∀ o, it.tok = .op o → P o) ∧
    ((∃ items items', r = .ok items ∧ s1 = s ∧ List.Forall₂ (ItemR R) items items' ∧ items'.map Item.tok = T) ∨
      (∃ e, r = .error e) ∨ ∃ items, r = .ok items ∧ ∃ it ∈ items, ∃ v, it.tok = .val v ∧ getErr v ≠ none) := by
  induction h with
  | nil =>
    intro i s r s1 h
    rw [MC.execOperands] at h
    cases h
    exact ⟨by intro items h; cases h; simp, .inl ⟨[], [], rfl, rfl, .nil, rfl⟩⟩
  | @op o srcs T _ ih =>
    intro i s r s1 h
    rw [MC.execOperands] at h
    cases hx : MC.execOperands (shipped call isUnit mkErr getErr funcs) (i + 1) srcs s with
    | mk r' s' =>
      obtain ⟨h1, h2⟩ := ih (fun o ho => hT o (by simp [ho])) _ _ _ _ hx
      rw [hx] at h
      cases r' with
      | error e =>
        cases h
        exact ⟨(by intro items h; cases h), .inr (.inl ⟨_, rfl⟩)⟩
      | ok items =>
        cases h
        refine ⟨?_, ?_⟩
        · intro items' h it hit o' ho
          cases h
          rcases List.mem_cons.1 hit with rfl | hit
          · cases ho
            exact hT _ (by simp)
          · exact h1 _ rfl it hit o' ho
        · rcases h2 with ⟨its, its', h3, rfl, h4, h5⟩ | ⟨e, h3⟩ | ⟨its, h3, it, h4, v, h5⟩
          · cases h3
            exact .inl ⟨_, ⟨.op o, i⟩ :: its', rfl, rfl, .cons ⟨.op o, rfl⟩ h4, by simp [h5]⟩
          · cases h3
          · cases h3
            exact .inr (.inr ⟨_, rfl, it, List.mem_cons_of_mem _ h4, v, h5⟩)
  | @operand act w srcs T ha _ ih =>
    intro i s r s1 h
    rw [MC.execOperands] at h
    have key : (∃ v, execOperand (shipped call isUnit mkErr getErr funcs) i act s = (.ok v, s) ∧ R v w) ∨
        (∃ e s', execOperand (shipped call isUnit mkErr getErr funcs) i act s = (.error e, s')) ∨
        ∃ v s', execOperand (shipped call isUnit mkErr getErr funcs) i act s = (.ok v, s') ∧ getErr v ≠ none := by
      unfold execOperand
      rcases ha s with ⟨v, h1, h2⟩ | hf
      · rw [h1]
        exact .inl ⟨v, rfl, h2⟩
      · cases hx : act s with
        | mk r' s' =>
          rw [hx] at hf
          cases r' with
          | ok v => exact .inr (.inr ⟨v, s', rfl, hf v rfl⟩)
          | error e =>
            cases e with
            | exec e => exact .inr (.inr ⟨_, s', rfl, hP.made _⟩)
            | «calc» m wr => exact .inr (.inr ⟨_, s', rfl, hP.made _⟩)
            | py m => exact .inr (.inl ⟨_, s', rfl⟩)
    have hops : ∀ (v : V) (s0 s2 : σ) (r : Except Raise (List (Item V))),
        (match MC.execOperands (shipped call isUnit mkErr getErr funcs) (i + 1) srcs s0 with
          | (.ok items, s'') => ((.ok (⟨.val v, i⟩ :: items), s'') : Except Raise (List (Item V)) × σ)
          | (.error e, s'') => (.error e, s'')) = (r, s2) →
        ∀ items, r = .ok items → ∀ it ∈ items, ∀ o, it.tok = .op o → P o := by
      intro v s0 s2 r hm
      cases hx : MC.execOperands (shipped call isUnit mkErr getErr funcs) (i + 1) srcs s0 with
      | mk r' s' =>
        obtain ⟨h1, _⟩ := ih (fun o ho => hT o (by simp [ho])) _ _ _ _ hx
        rw [hx] at hm
        cases r' with
        | error e =>
          cases hm
          intro items h; cases h
        | ok items =>
          cases hm
          intro items' h it hit o' ho
          cases h
          rcases List.mem_cons.1 hit with rfl | hit
          · cases ho
          · exact h1 _ rfl it hit o' ho
    rcases key with ⟨v, hk, hv⟩ | ⟨e, s', hk⟩ | ⟨v, s', hk, hv⟩
    · rw [hk] at h
      refine ⟨hops v s s1 r h, ?_⟩
      simp only at h
      cases hx : MC.execOperands (shipped call isUnit mkErr getErr funcs) (i + 1) srcs s with
      | mk r' s' =>
        obtain ⟨_, h2⟩ := ih (fun o ho => hT o (by simp [ho])) _ _ _ _ hx
        rw [hx] at h
        cases r' with
        | error e =>
          cases h
          exact .inr (.inl ⟨_, rfl⟩)
        | ok items =>
          cases h
          rcases h2 with ⟨its, its', h3, rfl, h4, h5⟩ | ⟨e, h3⟩ | ⟨its, h3, it, h4, u, h5⟩
          · cases h3
            exact .inl ⟨_, ⟨.val w, i⟩ :: its', rfl, rfl, .cons ⟨.val hv, rfl⟩ h4, by simp [h5]⟩
          · cases h3
          · cases h3
            exact .inr (.inr ⟨_, rfl, it, List.mem_cons_of_mem _ h4, u, h5⟩)
    · rw [hk] at h
      cases h
      exact ⟨(by intro items h; cases h), .inr (.inl ⟨_, rfl⟩)⟩
    · rw [hk] at h
      refine ⟨hops v s' s1 r h, ?_⟩
      simp only at h
      cases hx : MC.execOperands (shipped call isUnit mkErr getErr funcs) (i + 1) srcs s' with
      | mk r' s'' =>
        rw [hx] at h
        cases r' with
        | error e =>
          cases h
          exact .inr (.inl ⟨_, rfl⟩)
        | ok items =>
          cases h
          exact .inr (.inr ⟨_, rfl, _, List.mem_cons_self .., v, rfl, hv⟩)

/-- An expression with a reading comes to a value related to that of the reading, or fails. -/
theorem execute_rel {P : String → Prop} (hP : PassOn P call mkErr getErr) (hF : Follows R P call f)
    (hU : ∀ v w, R v w → isUnit v = isUnitW w) {k : ℕ} (hk : k ≤ 16) {b e : Bool} {srcs : List (Src V σ)}
    {T : List (Tok W)} {x : W} (hg : GivesR R getErr srcs T) (h : Phrase isUnitW f k b e T x) (s : σ) :
    Comes R getErr s x (execute (shipped call isUnit mkErr getErr funcs) srcs s) := by
  have hT := phrase_ops hF hP.divide h
  have hlen : srcs.length = T.length := by
    clear h hT
    induction hg with
    | nil => rfl
    | op _ ih => simp [ih]
    | operand _ _ ih => simp [ih]
  rw [execute, executeF.eq_def]
  cases hs : srcs with
  | nil => exact .inr (by intro v hv; cases hv)
  | cons a as =>
    simp only
    rw [← hs]
    cases hx : MC.execOperands (shipped call isUnit mkErr getErr funcs) 0 srcs s with
    | mk r s1 =>
      obtain ⟨h1, h2⟩ := hg.execOperands hP hT 0 s r s1 hx
      rcases h2 with ⟨items, items', rfl, rfl, h3, h4⟩ | ⟨e, rfl⟩ | ⟨items, rfl, h3⟩
      · simp only
        cases hl : loop (shipped call isUnit mkErr getErr funcs) srcs.length items s1 with
        | none => exact .inr (by intro v hv; cases hv)
        | some r =>
          refine phrase_loop_rel hP hF hU hk s1 srcs.length 17 0 items items' b e (by omega) ?_ h3 (h1 items rfl)
            (by rw [h4]; exact h) r hl
          rw [hlen, ← h4, List.length_map, h3.length_eq]
      · exact .inr (by intro v hv; cases hv)
      · simp only
        cases hl : loop (shipped call isUnit mkErr getErr funcs) srcs.length items s1 with
        | none => exact .inr (by intro v hv; cases hv)
        | some r => exact .inr (loop_broken hP _ items s1 r.2 r.1 ⟨h3, h1 items rfl⟩ hl)

end
end MC.Props
