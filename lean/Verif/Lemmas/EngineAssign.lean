import Verif.Lemmas.EnginePure

/-!
# Assigning the value of an expression

The operators of the last row of the table come after all others: in `x = …` the expression on the
right is evaluated as if it stood alone, and the operator is applied to its value.
-/

namespace MC.Props
open MC MC.Spec

variable {V σ : Type} {call : String → List V → Act σ V} {isUnit : V → Bool} {mkErr : ExecErr → V}
  {getErr : V → Option Raise} {funcs : String → Option (FuncDef V σ)}
  {f : String → List V → Except String V}

/-- The loop on the items of an expression, wherever their numbers begin. -/
theorem loop_reads {s : σ} (hf : ∀ o ins v, f o ins = .ok v → call o ins s = (.ok v, s))
    (hcl : ∀ o ins v, (∀ x ∈ ins, isUnit x = false) → f o ins = .ok v → isUnit v = false)
    {k i : ℕ} {items : List (Item V)} {toks : List (Tok V)} {v : V}
    (hu : ∀ x, Tok.val x ∈ toks → isUnit x = false) (h2 : items.map Item.tok = toks)
    (h3 : items.map Item.index = List.range' i items.length) (h : Reads documented f k toks v) :
    ∃ n, loop (shipped call isUnit mkErr getErr funcs) n items s = some (.ok v, s) := by
  have hcl' : ∀ o ins x, (∀ y ∈ ins, (y : Option V).any isUnit = false) → liftF f o ins = .ok x →
      x.any isUnit = false := by
    intro o ins x hins hx
    simp only [liftF, Except.ok.injEq] at hx
    cases x with
    | none => rfl
    | some x =>
      cases ha : allSome ins with
      | none => rw [ha] at hx; cases hx
      | some vs =>
        rw [ha] at hx
        have e := allSome_some ha
        subst e
        simp only [Option.bind_some] at hx
        cases hfo : f o vs with
        | error m => rw [hfo] at hx; cases hx
        | ok y =>
          rw [hfo] at hx
          simp only [Except.toOption, Option.some.injEq] at hx
          subst hx
          exact hcl o vs y (fun z hz => by simpa using hins (some z) (by simpa using hz)) hfo
  obtain ⟨t, ht⟩ := reads_tree (cfg := (liftCfg isUnit f : Config (Option V) σ))
    (shipped_rows (fun o ins (st : σ) => ((liftF f o ins).mapError (fun m => Raise.calc m), st))
      (fun o => o.any isUnit) (fun _ => none) (fun _ => none) (fun _ => none))
    (P := fun o => o.any isUnit = false) (reads_lift h) (by
      intro x hx
      obtain ⟨t, ht, e⟩ := List.mem_map.1 hx
      cases t with
      | op o => cases e
      | val y =>
        simp only [liftTok, Tok.val.injEq] at e
        subst e
        simpa using hu y ht) i
  have hl := loop_tree (shipped_plain (σ := σ) (liftF f) (fun o => o.any isUnit = false)
    (fun o => o.any isUnit) (fun _ => none) (fun _ => none) (fun _ => none) hcl' (fun _ => rfl)
    (fun _ h => h)) t.ops t ⟨ht.dictated, ht.shaped, ht.all⟩ (le_refl _) s
  have e : t.flat = items.map liftItem := by
    have hlen : items.length = toks.length := by rw [← h2, List.length_map]
    have hlen' : t.flat.length = items.length := by
      rw [hlen, ← List.length_map (f := Item.tok), ht.toks, List.length_map]
    apply List.ext_getElem (by simp [hlen'])
    intro j hj1 hj2
    have a : (t.flat.map Item.tok)[j]? = (items.map (fun x => liftTok x.tok))[j]? := by
      rw [ht.toks, ← h2, List.map_map]; rfl
    have b : (t.flat.map Item.index)[j]? = (items.map Item.index)[j]? := by
      rw [ht.index, h3, hlen']
    have hj3 : j < items.length := by simpa using hj2
    simp only [List.getElem?_map, List.getElem?_eq_getElem hj1, List.getElem?_eq_getElem hj3,
      Option.map_some, Option.some.injEq] at a b
    rw [List.getElem_map]
    cases hx : t.flat[j] with
    | mk tok idx =>
      rw [hx] at a b
      simp only at a b
      rw [a, b]; rfl
  have hev : t.eval (liftF f) (liftCfg isUnit f : Config (Option V) σ).mkErr = some v := ht.eval
  refine ⟨t.ops, loop_lift (f := f) hf _ _ _ s ?_⟩
  rw [← e, ← hev]
  exact hl

/-- The last row of the table (`layout.py:38-56`). -/
def lastRow : List String := ["=", "++", "--", "+=", "-=", "*=", "/=", "^=", "%=", "\\=", "||="]

/-- Its operators with an operand on the right. -/
def assigning : List String := ["=", "+=", "-=", "*=", "/=", "^=", "%=", "\\=", "||="]

theorem ruleAt_after (cfg : Config V σ) (prec : Level V σ) (o : String) (item : Tok V)
    (next : Option (Tok V)) : ruleAt cfg prec (some (.op o)) item next = ruleAt cfg prec none item next := by
  unfold ruleAt
  simp [Tok.isOp, Tok.isUnit]

theorem scanL_after (cfg : Config V σ) (prec : Level V σ) (o : String) (items : List (Item V)) :
    scanL cfg prec (some (.op o)) items = scanL cfg prec none items := by
  cases items with
  | nil => rfl
  | cons it rest => rw [scanL, scanL, ruleAt_after]

theorem scanR_after (cfg : Config V σ) (prec : Level V σ) (o : String) (items : List (Item V)) :
    scanR cfg prec (some (.op o)) items = scanR cfg prec none items := by
  cases items with
  | nil => rfl
  | cons it rest => rw [scanR, scanR, ruleAt_after]

theorem ruleAt_first (cfg : Config V σ) (prec : Level V σ) (x : V) (next : Option (Tok V)) :
    ruleAt cfg prec none (.val x) next = none := by
  unfold ruleAt
  simp [Tok.isOp, Tok.isUnit]

theorem ruleAt_other (prec : Level V σ) {o : String}
    (ho : o ≠ "/") (hh : prec.has o = false) (prev next : Option (Tok V)) :
    ruleAt (shipped call isUnit mkErr getErr funcs) prec prev (.op o) next = none := by
  unfold ruleAt
  simp [Tok.isOp, Tok.isUnit, hh, shipped, ho]

/-- What is found in front moves. -/
def shift (r : ℕ × String × ℕ) : ℕ × String × ℕ := (r.1 + 2, r.2)

theorem scanLevel_prefix (prec : Level V σ) {o : String}
    (ho : o ≠ "/") (hh : prec.has o = false) (x : V) (a b : ℕ) (items : List (Item V)) :
    scanLevel (shipped call isUnit mkErr getErr funcs) prec (⟨.val x, a⟩ :: ⟨.op o, b⟩ :: items)
      = (scanLevel (shipped call isUnit mkErr getErr funcs) prec items).map shift := by
  unfold scanLevel
  cases opsList (shipped call isUnit mkErr getErr funcs) prec.head.1 with
  | none => rfl
  | some d =>
    simp only
    split
    · rw [scanR, scanR, scanR_after, ruleAt_other prec ho hh, ruleAt_first]
      cases scanR (shipped call isUnit mkErr getErr funcs) prec none items with
      | none => rfl
      | some y => rfl
    · rw [scanL, scanL, scanL_after, ruleAt_other prec ho hh, ruleAt_first]
      cases scanL (shipped call isUnit mkErr getErr funcs) prec none items with
      | none => rfl
      | some y => rfl

theorem findSome_map {A B C : Type} {g : A → Option C} {h : A → Option B} {k : B → C} :
    ∀ {l : List A}, (∀ x ∈ l, g x = (h x).map k) → l.findSome? g = (l.findSome? h).map k
  | [], _ => rfl
  | a :: l, hl => by
    rw [List.findSome?_cons, List.findSome?_cons, hl a (by simp)]
    cases h a with
    | some y => rfl
    | none => exact findSome_map (fun x hx => hl x (by simp [hx]))

/-- No operator of the last row. -/
def NoAssign (items : List (Item V)) : Prop := ∀ it ∈ items, ∀ o, it.tok = .op o → o ∉ lastRow

/-- The rows before the last. -/
def firstRows : List ((String × Fixity) × List (String × Fixity)) := shippedRows.take 16

theorem rows_split : shippedRows = firstRows ++ [(("=", infixOp), [("++", postfixOp), ("--", postfixOp),
    ("+=", infixOp), ("-=", infixOp), ("*=", infixOp), ("/=", infixOp), ("^=", infixOp), ("%=", infixOp),
    ("\\=", infixOp), ("||=", infixOp)])] := rfl

/-- The last row. -/
def lastLevel (call : String → List V → Act σ V) : Level V σ :=
  levelOf call (("=", infixOp), [("++", postfixOp), ("--", postfixOp),
    ("+=", infixOp), ("-=", infixOp), ("*=", infixOp), ("/=", infixOp), ("^=", infixOp), ("%=", infixOp),
    ("\\=", infixOp), ("||=", infixOp)])

theorem ops_split : (shipped call isUnit mkErr getErr funcs).ops
    = firstRows.map (levelOf call) ++ [lastLevel call] := rfl

theorem lastLevel_has (o : String) : (lastLevel call).has o = lastRow.contains o := by
  rw [lastLevel, levelOf_has]
  rw [Bool.eq_iff_iff]
  simp only [List.any_cons, List.any_nil, Bool.or_eq_true, beq_iff_eq, lastRow, List.contains_eq_mem,
    decide_eq_true_eq, List.mem_cons, List.not_mem_nil, or_false, Bool.or_false, @eq_comm _ o]

theorem firstRows_has {r} (hr : r ∈ firstRows) {o : String} (ho : o ∈ lastRow) :
    (levelOf call r).has o = false := by
  rw [levelOf_has]
  revert o
  revert r
  decide +kernel

theorem last_quiet (prev : Option (Tok V)) (item : Tok V) (next : Option (Tok V))
    (h : ∀ o, item = .op o → o ∉ lastRow) :
    ruleAt (shipped call isUnit mkErr getErr funcs) (lastLevel call) prev item next = none := by
  have h1 : (lastLevel call).has "UNIT_ASSIGNMENT" = false := by rw [lastLevel_has]; decide
  have h2 : (lastLevel call).has "UNIT_MULTIPLY" = false := by rw [lastLevel_has]; decide
  have h3 : (lastLevel call).has "UNIT_DIVIDE" = false := by rw [lastLevel_has]; decide
  have h4 : (lastLevel call).has "IMPLICIT_MULTIPLY" = false := by rw [lastLevel_has]; decide
  unfold ruleAt
  simp only [shipped, Option.filter_some, h1, h2, h3, h4, Bool.false_and, Bool.false_eq_true, if_false]
  cases item with
  | val v => rfl
  | op o =>
    have : (lastLevel call).has o = false := by
      rw [lastLevel_has]
      simpa using h o rfl
    simp only [this, Bool.false_and, Bool.false_eq_true, if_false]

theorem last_ltr : ∃ d, opsList (shipped call isUnit mkErr getErr funcs) (lastLevel call).head.1 = some d ∧
    d.rtl = false := by
  refine ⟨_, opsList_shipped call isUnit mkErr getErr funcs "=", rfl⟩

theorem last_none {items : List (Item V)} (h : NoAssign items) :
    scanLevel (shipped call isUnit mkErr getErr funcs) (lastLevel call) items = none := by
  obtain ⟨d, hd, hr⟩ := last_ltr (call := call) (isUnit := isUnit) (mkErr := mkErr) (getErr := getErr)
    (funcs := funcs)
  unfold scanLevel
  rw [hd]
  simp only [hr, Bool.false_eq_true, if_false]
  generalize (none : Option (Tok V)) = prev
  induction items generalizing prev with
  | nil => rfl
  | cons it rest ih =>
    rw [scanL, last_quiet _ _ _ (h it (by simp)), ih (fun x hx => h x (by simp [hx]))]
    rfl

theorem last_found {o : String} (ho : o ∈ assigning) (x : V) (a b : ℕ) (items : List (Item V)) :
    scanLevel (shipped call isUnit mkErr getErr funcs) (lastLevel call)
      (⟨.val x, a⟩ :: ⟨.op o, b⟩ :: items) = some (1, o, 1) := by
  obtain ⟨d, hd, hr⟩ := last_ltr (call := call) (isUnit := isUnit) (mkErr := mkErr) (getErr := getErr)
    (funcs := funcs)
  have hin : (lastLevel call).has o = true := by
    rw [lastLevel_has]
    revert o
    decide
  have hne : o ≠ "/" ∧ o ≠ "UNIT_MULTIPLY" ∧ o ≠ "UNIT_DIVIDE" ∧ o ≠ "IMPLICIT_MULTIPLY" := by
    clear hin
    revert o
    decide
  unfold scanLevel
  rw [hd]
  simp only [hr, Bool.false_eq_true, if_false]
  rw [scanL, ruleAt_first, scanL]
  have h1 : (lastLevel call).has "UNIT_ASSIGNMENT" = false := by rw [lastLevel_has]; decide
  have h2 : (lastLevel call).has "UNIT_MULTIPLY" = false := by rw [lastLevel_has]; decide
  have h3 : (lastLevel call).has "UNIT_DIVIDE" = false := by rw [lastLevel_has]; decide
  have h4 : (lastLevel call).has "IMPLICIT_MULTIPLY" = false := by rw [lastLevel_has]; decide
  have : ruleAt (shipped call isUnit mkErr getErr funcs) (lastLevel call) (some (.val x)) (.op o)
      (items.head?.map Item.tok) = some (o, 1) := by
    unfold ruleAt
    simp only [shipped, Option.filter_some, h1, h2, h3, h4, Bool.false_and, Bool.false_eq_true, if_false,
      hin, Bool.true_and]
    simp [hne]
  rw [this]
  rfl

theorem last_found' {o : String} (ho : o ∈ ["++", "--"]) (x : V) (a b : ℕ) (items : List (Item V)) :
    scanLevel (shipped call isUnit mkErr getErr funcs) (lastLevel call)
      (⟨.val x, a⟩ :: ⟨.op o, b⟩ :: items) = some (1, o, 1) := by
  obtain ⟨d, hd, hr⟩ := last_ltr (call := call) (isUnit := isUnit) (mkErr := mkErr) (getErr := getErr)
    (funcs := funcs)
  have hin : (lastLevel call).has o = true := by
    rw [lastLevel_has]
    revert o
    decide
  have hne : o ≠ "/" ∧ o ≠ "UNIT_MULTIPLY" ∧ o ≠ "UNIT_DIVIDE" ∧ o ≠ "IMPLICIT_MULTIPLY" := by
    clear hin
    revert o
    decide
  unfold scanLevel
  rw [hd]
  simp only [hr, Bool.false_eq_true, if_false]
  rw [scanL, ruleAt_first, scanL]
  have h1 : (lastLevel call).has "UNIT_ASSIGNMENT" = false := by rw [lastLevel_has]; decide
  have h2 : (lastLevel call).has "UNIT_MULTIPLY" = false := by rw [lastLevel_has]; decide
  have h3 : (lastLevel call).has "UNIT_DIVIDE" = false := by rw [lastLevel_has]; decide
  have h4 : (lastLevel call).has "IMPLICIT_MULTIPLY" = false := by rw [lastLevel_has]; decide
  have : ruleAt (shipped call isUnit mkErr getErr funcs) (lastLevel call) (some (.val x)) (.op o)
      (items.head?.map Item.tok) = some (o, 1) := by
    unfold ruleAt
    simp only [shipped, Option.filter_some, h1, h2, h3, h4, Bool.false_and, Bool.false_eq_true, if_false,
      hin, Bool.true_and]
    simp [hne]
  rw [this]
  rfl

theorem findRedex_prefix {o : String} (ho : o ∈ assigning) (x : V) (a b : ℕ) {items : List (Item V)}
    (h : NoAssign items) :
    findRedex (shipped call isUnit mkErr getErr funcs) (⟨.val x, a⟩ :: ⟨.op o, b⟩ :: items)
      = match findRedex (shipped call isUnit mkErr getErr funcs) items with
        | some r => some (shift r)
        | none => some (1, o, 1) := by
  have hl : o ∈ lastRow := by
    revert o
    decide
  have hne : o ≠ "/" := by
    revert o
    decide
  unfold findRedex
  rw [ops_split, List.findSome?_append, List.findSome?_append,
    findSome_map (h := fun prec => scanLevel (shipped call isUnit mkErr getErr funcs) prec items)
      (k := shift)]
  · rw [List.findSome?_singleton, List.findSome?_singleton, last_none h, last_found ho]
    cases List.findSome? (fun prec => scanLevel (shipped call isUnit mkErr getErr funcs) prec items)
      (firstRows.map (levelOf call)) <;> rfl
  · intro l hlm
    obtain ⟨r, hr, rfl⟩ := List.mem_map.1 hlm
    exact scanLevel_prefix _ hne (firstRows_has hr hl) x a b items

theorem execOp_prefix {cfg : Config V σ} {sym : String} {items items' : List (Item V)} {i w : ℕ}
    {item : Item V} {s s' : σ} (h : execOp cfg sym items i item w s = (.ok items', s')) (x y : Item V) :
    execOp cfg sym (x :: y :: items) (i + 2) item w s = (.ok (x :: y :: items'), s') := by
  unfold execOp at h ⊢
  cases ho : opsList cfg sym with
  | none => rw [ho] at h; simp at h
  | some d =>
    rw [ho] at h
    simp only at h ⊢
    split at h
    · simp at h
    rename_i h1
    split at h
    · simp at h
    rename_i h2
    rw [if_neg (by omega), if_neg (by simp only [List.length_cons]; omega)]
    have e1 : i + 2 - d.linputs.length = (i - d.linputs.length) + 2 := by omega
    have e2 : i + 2 + d.rinputs.length + w = (i + d.rinputs.length + w) + 2 := by omega
    have e3 : i + 2 + w = (i + w) + 2 := by omega
    rw [e1, e2, e3]
    simp only [List.drop_succ_cons, List.take_succ_cons]
    split at h
    · simp at h
    rename_i inputs hg
    cases hc : d.call inputs s with
    | mk r s1 =>
      rw [hc] at h
      cases r with
      | ok v =>
        simp only [Prod.mk.injEq, Except.ok.injEq] at h
        obtain ⟨rfl, rfl⟩ := h
        rfl
      | error e =>
        cases e with
        | py m => simp at h
        | exec e =>
          simp only [Prod.mk.injEq, Except.ok.injEq] at h
          obtain ⟨rfl, rfl⟩ := h
          rfl
        | «calc» m wr =>
          simp only [Prod.mk.injEq, Except.ok.injEq] at h
          obtain ⟨rfl, rfl⟩ := h
          rfl

theorem execOp_noAssign {cfg : Config V σ} {sym : String} {items items' : List (Item V)} {i w : ℕ}
    {item : Item V} {s s' : σ} (h : execOp cfg sym items i item w s = (.ok items', s'))
    (hn : NoAssign items) : NoAssign items' := by
  have put : ∀ (v : V) (j k : ℕ), NoAssign (items.take j ++ ⟨.val v, item.index⟩ :: items.drop k) := by
    intro v j k it hit o ho
    rcases List.mem_append.1 hit with h1 | h1
    · exact hn it (List.mem_of_mem_take h1) o ho
    · rcases List.mem_cons.1 h1 with rfl | h1
      · cases ho
      · exact hn it (List.mem_of_mem_drop h1) o ho
  unfold execOp at h
  cases ho : opsList cfg sym with
  | none => rw [ho] at h; simp at h
  | some d =>
    rw [ho] at h
    simp only at h
    split at h
    · simp at h
    split at h
    · simp at h
    split at h
    · simp at h
    rename_i inputs hg
    cases hc : d.call inputs s with
    | mk r s1 =>
      rw [hc] at h
      cases r with
      | ok v =>
        simp only [Prod.mk.injEq, Except.ok.injEq] at h
        obtain ⟨rfl, rfl⟩ := h
        exact put _ _ _
      | error e =>
        cases e with
        | py m => simp at h
        | exec e =>
          simp only [Prod.mk.injEq, Except.ok.injEq] at h
          obtain ⟨rfl, rfl⟩ := h
          exact put _ _ _
        | «calc» m wr =>
          simp only [Prod.mk.injEq, Except.ok.injEq] at h
          obtain ⟨rfl, rfl⟩ := h
          exact put _ _ _

theorem findRedex_single (v : V) (j : ℕ) :
    findRedex (shipped call isUnit mkErr getErr funcs) [⟨.val v, j⟩] = none := by
  unfold findRedex
  rw [List.findSome?_eq_none_iff]
  intro l _
  unfold scanLevel
  split
  · split <;> simp [scanR, scanL, ruleAt_first]
  · rfl

theorem loop_assign {o : String} (ho : o ∈ assigning) (x : V) (a b : ℕ) {v r : V} {s1 s2 : σ}
    (hc : call o [x, v] s1 = (.ok r, s2)) : ∀ (n : ℕ) (items : List (Item V)) (s : σ), NoAssign items →
    loop (shipped call isUnit mkErr getErr funcs) n items s = some (.ok v, s1) →
    ∃ n', loop (shipped call isUnit mkErr getErr funcs) n' (⟨.val x, a⟩ :: ⟨.op o, b⟩ :: items) s
      = some (.ok r, s2) := by
  have hop : ∃ y, opsList (shipped call isUnit mkErr getErr funcs) o = some (infixOp.toOp (call o)) ∧
      y = infixOp := by
    refine ⟨_, ?_, rfl⟩
    rw [opsList_shipped]
    have : shippedAll.reverse.lookup o = some infixOp := by
      have h : (shippedAll.reverse.lookup o).map (fun x => (x.linputs, x.rinputs, x.rtl))
          = some ([none], [none], false) := by
        clear hc
        revert o
        decide +kernel
      cases hl : shippedAll.reverse.lookup o with
      | none => rw [hl] at h; cases h
      | some y =>
        rw [hl] at h
        obtain ⟨l, r, t⟩ := y
        simp only [Option.map_some, Option.some.injEq, Prod.mk.injEq] at h
        obtain ⟨rfl, rfl, rfl⟩ := h
        rfl
    rw [this]
    rfl
  obtain ⟨_, hop, _⟩ := hop
  have stop : ∀ (items : List (Item V)) (s : σ), NoAssign items →
      step (shipped call isUnit mkErr getErr funcs) items = none →
      some (finish items, s) = some (.ok v, s1) →
      ∃ n', loop (shipped call isUnit mkErr getErr funcs) n' (⟨.val x, a⟩ :: ⟨.op o, b⟩ :: items) s
        = some (.ok r, s2) := by
    intro items s hn hs hf
    simp only [Option.some.injEq, Prod.mk.injEq] at hf
    obtain ⟨hf, rfl⟩ := hf
    have : ∃ j, items = [⟨.val v, j⟩] := by
      match items, hf with
      | [it], hf =>
        obtain ⟨tok, j⟩ := it
        cases tok with
        | op o => simp [finish] at hf
        | val w =>
          simp only [finish, Except.ok.injEq] at hf
          subst hf
          exact ⟨j, rfl⟩
      | y :: z :: rest, hf =>
        simp only [finish] at hf
        split at hf
        · split at hf <;> cases hf
        · cases hf
    obtain ⟨j, rfl⟩ := this
    refine ⟨1, ?_⟩
    have hr := findRedex_prefix (call := call) (isUnit := isUnit) (mkErr := mkErr) (getErr := getErr)
      (funcs := funcs) ho x a b hn
    rw [findRedex_single] at hr
    simp only at hr
    rw [loop, step, hr]
    simp only [List.getElem?_cons_succ, List.getElem?_cons_zero]
    rw [execOp, hop]
    simp only [Fixity.toOp, infixOp, List.length_cons, List.length_nil, List.cons_append, List.nil_append]
    simp only [Nat.zero_add, Nat.lt_irrefl, if_false, Nat.reduceAdd, Nat.sub_self, List.drop_zero,
      List.take_succ_cons, List.take_zero, List.drop_succ_cons, List.cons_append, List.nil_append, gather, hc,
      List.drop_nil]
    rw [loop, step, findRedex_single]
    rfl
  intro n
  induction n with
  | zero =>
    intro items s hn h
    rw [loop] at h
    cases hs : step (shipped call isUnit mkErr getErr funcs) items with
    | some act => rw [hs] at h; cases h
    | none => rw [hs] at h; exact stop items s hn hs h
  | succ n ih =>
    intro items s hn h
    rw [loop] at h
    cases hs : step (shipped call isUnit mkErr getErr funcs) items with
    | none => rw [hs] at h; exact stop items s hn hs h
    | some act =>
      rw [hs] at h
      simp only at h
      unfold step at hs
      cases hr : findRedex (shipped call isUnit mkErr getErr funcs) items with
      | none => rw [hr] at hs; cases hs
      | some q =>
        obtain ⟨i, sym, w⟩ := q
        rw [hr] at hs
        simp only at hs
        cases hi : items[i]? with
        | none => rw [hi] at hs; cases hs
        | some item =>
          rw [hi] at hs
          simp only [Option.some.injEq] at hs
          subst hs
          cases ha : execOp (shipped call isUnit mkErr getErr funcs) sym items i item w s with
          | mk res s' =>
            rw [ha] at h
            cases res with
            | error e => simp at h
            | ok items' =>
              obtain ⟨n', hn'⟩ := ih items' s' (execOp_noAssign ha hn) h
              refine ⟨n' + 1, ?_⟩
              have hr' := findRedex_prefix (call := call) (isUnit := isUnit) (mkErr := mkErr)
                (getErr := getErr) (funcs := funcs) ho x a b hn
              rw [hr] at hr'
              simp only [shift] at hr'
              rw [loop, step, hr']
              simp only [List.getElem?_cons_succ, hi]
              rw [execOp_prefix ha]
              exact hn'

theorem reads_ops {k : ℕ} {toks : List (Tok V)} {v : V} (h : Reads documented f k toks v) :
    ∀ o, Tok.op o ∈ toks → o ∉ lastRow := by
  have row : ∀ (k : ℕ) (r : RowKind) (o : String), documented[k]? = some r →
      (match r with
        | .infixes ops => o ∈ ops
        | .prefixes ops => o ∈ ops
        | .ternary a b => o = a ∨ o = b
        | .nextTo a => o = a
        | .other => False) → o ∉ lastRow := by
    intro k r o hk ho
    have hm : r ∈ documented := List.mem_of_getElem? hk
    have key : documented.all (fun r => (match r with
        | .infixes ops => ops
        | .prefixes ops => ops
        | .ternary a b => [a, b]
        | .nextTo a => [a]
        | .other => []).all (fun o => !lastRow.contains o)) = true := by decide
    have := List.all_eq_true.1 key r hm
    rw [List.all_eq_true] at this
    have := this o (by cases r <;> simp_all)
    simpa using this
  induction h with
  | atom => intro o ho; simp at ho
  | up _ ih => exact ih
  | left hk ho _ _ _ iht ihu =>
    intro o' ho'
    rcases List.mem_append.1 ho' with h | h
    · exact iht _ h
    · rcases List.mem_cons.1 h with h | h
      · cases h
        exact row _ _ _ hk ho
      · exact ihu _ h
  | pref hk ho _ _ ih =>
    intro o' ho'
    rcases List.mem_cons.1 ho' with h | h
    · cases h
      exact row _ _ _ hk ho
    · exact ih _ h
  | tern hk _ _ _ _ iht ihu ihr =>
    intro o' ho'
    rcases List.mem_append.1 ho' with h | h
    · exact iht _ h
    · rcases List.mem_cons.1 h with h | h
      · cases h
        exact row _ _ _ hk (.inl rfl)
      · rcases List.mem_append.1 h with h | h
        · exact ihu _ h
        · rcases List.mem_cons.1 h with h | h
          · cases h
            exact row _ _ _ hk (.inr rfl)
          · exact ihr _ h
  | next hk _ _ _ iht ihu =>
    intro o' ho'
    rcases List.mem_append.1 ho' with h | h
    · exact iht _ h
    · exact ihu _ h

/-- `x = …`: the operator is applied to `x` and the value of the expression. -/
theorem execute_assign {s s2 : σ} (hf : ∀ o ins v, f o ins = .ok v → call o ins s = (.ok v, s))
    (hcl : ∀ o ins v, (∀ x ∈ ins, isUnit x = false) → f o ins = .ok v → isUnit v = false)
    {k : ℕ} {srcs : List (Src V σ)} {toks : List (Tok V)} {v x r : V} {act : Act σ V} {o : String}
    (hu : ∀ x, Tok.val x ∈ toks → isUnit x = false) (hx : act s = (.ok x, s)) (ho : o ∈ assigning)
    (hg : Gives s srcs toks) (h : Reads documented f k toks v) (hc : call o [x, v] s = (.ok r, s2)) :
    execute (shipped call isUnit mkErr getErr funcs) (.operand act :: .op o :: srcs) s = (.ok r, s2) := by
  obtain ⟨items, h1, h2, h3⟩ := hg.execOperands (cfg := shipped call isUnit mkErr getErr funcs) 2
  obtain ⟨n, hn⟩ := loop_reads (mkErr := mkErr) (getErr := getErr) (funcs := funcs) hf hcl hu h2 h3 h
  obtain ⟨n', hn'⟩ := loop_assign (isUnit := isUnit) (mkErr := mkErr) (getErr := getErr) (funcs := funcs)
    ho x 0 1 hc n items s (by
      intro it hit o' ho'
      refine reads_ops h o' ?_
      rw [← h2, ← ho']
      exact List.mem_map_of_mem hit) hn
  have hop : execOperands (shipped call isUnit mkErr getErr funcs) 0 (.operand act :: .op o :: srcs) s
      = (.ok (⟨.val x, 0⟩ :: ⟨.op o, 1⟩ :: items), s) := by
    rw [execOperands, execOperand, hx]
    simp only
    rw [execOperands, h1]
  have hx := executeF_eq (shipped_consumes call isUnit mkErr getErr funcs) (.operand act :: .op o :: srcs) s
  unfold executeF at hx
  simp only at hx
  rw [hop] at hx
  simp only at hx
  have e1 := loop_mono (Nat.le_max_left n' (Src.operand act :: Src.op o :: srcs).length) hn'
  have e2 := loop_mono (Nat.le_max_right n' (Src.operand act :: Src.op o :: srcs).length) hx
  rw [e1] at e2
  injection e2 with e2
  exact e2.symm

/-- `x++` and `x--`: the operator is applied to `x`. -/
theorem execute_postfix {s s2 : σ} {x r : V} {act : Act σ V} {o : String} (hx : act s = (.ok x, s))
    (ho : o ∈ ["++", "--"]) (hc : call o [x] s = (.ok r, s2)) :
    execute (shipped call isUnit mkErr getErr funcs) [.operand act, .op o] s = (.ok r, s2) := by
  have hl : o ∈ lastRow := by
    clear hc
    revert o
    decide
  have hne : o ≠ "/" := by
    clear hc hl
    revert o
    decide
  have hop : opsList (shipped call isUnit mkErr getErr funcs) o = some (postfixOp.toOp (call o)) := by
    rw [opsList_shipped]
    have : shippedAll.reverse.lookup o = some postfixOp := by
      have h : (shippedAll.reverse.lookup o).map (fun x => (x.linputs, x.rinputs, x.rtl))
          = some ([none], [], false) := by
        clear hc hl hne
        revert o
        decide +kernel
      cases hl : shippedAll.reverse.lookup o with
      | none => rw [hl] at h; cases h
      | some y =>
        rw [hl] at h
        obtain ⟨l, r, t⟩ := y
        simp only [Option.map_some, Option.some.injEq, Prod.mk.injEq] at h
        obtain ⟨rfl, rfl, rfl⟩ := h
        rfl
    rw [this]
    rfl
  have hr : findRedex (shipped call isUnit mkErr getErr funcs) [⟨.val x, 0⟩, ⟨.op o, 1⟩] = some (1, o, 1) := by
    unfold findRedex
    rw [ops_split, List.findSome?_append, List.findSome?_singleton, last_found' ho]
    rw [List.findSome?_eq_none_iff.2]
    · rfl
    · intro l hlm
      obtain ⟨r, hr, rfl⟩ := List.mem_map.1 hlm
      rw [scanLevel_prefix _ hne (firstRows_has hr hl)]
      unfold scanLevel
      split
      · split <;> rfl
      · rfl
  have hlp : loop (shipped call isUnit mkErr getErr funcs) 2 [⟨.val x, 0⟩, ⟨.op o, 1⟩] s
      = some (.ok r, s2) := by
    rw [loop, step, hr]
    simp only [List.getElem?_cons_succ, List.getElem?_cons_zero]
    rw [execOp, hop]
    simp only [Fixity.toOp, postfixOp, List.length_cons, List.length_nil, List.append_nil]
    simp only [Nat.zero_add, Nat.lt_irrefl, if_false, Nat.reduceAdd, Nat.sub_self, List.drop_zero,
      List.take_succ_cons, List.take_zero, List.drop_succ_cons, List.nil_append, gather, hc,
      List.append_nil]
    rw [loop, step, findRedex_single]
    rfl
  have hop' : execOperands (shipped call isUnit mkErr getErr funcs) 0 [.operand act, .op o] s
      = (.ok [⟨.val x, 0⟩, ⟨.op o, 1⟩], s) := by
    rw [execOperands, execOperand, hx]
    rfl
  have hx := executeF_eq (shipped_consumes call isUnit mkErr getErr funcs) [.operand act, .op o] s
  unfold executeF at hx
  simp only at hx
  rw [hop'] at hx
  simp only [List.length_cons, List.length_nil] at hx
  rw [hlp] at hx
  injection hx with hx
  exact hx.symm

end MC.Props
