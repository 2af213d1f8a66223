import Verif.Props.Engine3

/-!
# An expression whose operators do their part

`C26_grammar` is about operators that are functions of their operands.  Here the operators may be
anything, as long as those applications that the reading of the expression needs give the value the
reading says and leave the state alone.  The proof runs the expression beside one on values that may
be missing: a missing value never disappears, so if there is a value at the end none was missing.
-/

namespace MC.Props
open MC MC.Spec

variable {V σ : Type}

/-- A token on values that may be missing. -/
def liftTok : Tok V → Tok (Option V)
  | .op o => .op o
  | .val v => .val (some v)

/-- An item on values that may be missing. -/
def liftItem (it : Item V) : Item (Option V) := ⟨liftTok it.tok, it.index⟩

/-- The values, if none is missing. -/
def allSome : List (Option V) → Option (List V)
  | [] => some []
  | none :: _ => none
  | some v :: vs => (allSome vs).map (v :: ·)

theorem allSome_map (vs : List V) : allSome (vs.map some) = some vs := by
  induction vs with
  | nil => rfl
  | cons v vs ih => simp [allSome, ih]

theorem allSome_none {vs : List (Option V)} (h : none ∈ vs) : allSome vs = none := by
  induction vs with
  | nil => cases h
  | cons v vs ih =>
    cases v with
    | none => rfl
    | some v =>
      rw [allSome, ih (by simpa using h)]
      rfl

theorem allSome_some {vs : List (Option V)} {ws : List V} (h : allSome vs = some ws) : vs = ws.map some := by
  induction vs generalizing ws with
  | nil => cases h; rfl
  | cons v vs ih =>
    cases v with
    | none => cases h
    | some v =>
      rw [allSome] at h
      cases hs : allSome vs with
      | none => rw [hs] at h; cases h
      | some us =>
        rw [hs] at h
        cases h
        rw [ih hs]; rfl

/-- `f` on values that may be missing. -/
def liftF (f : String → List V → Except String V) (o : String) (ins : List (Option V)) :
    Except String (Option V) :=
  .ok ((allSome ins).bind (fun vs => (f o vs).toOption))

section
variable (call : String → List V → Act σ V) (isUnit : V → Bool) (mkErr : ExecErr → V)
  (getErr : V → Option Raise) (funcs : String → Option (FuncDef V σ))
  (f : String → List V → Except String V)

/-- The engine on values that may be missing. -/
def liftCfg : Config (Option V) σ :=
  shipped (fun o ins st => ((liftF f o ins).mapError (fun m => Raise.calc m), st)) (·.any isUnit)
    (fun _ => none) (fun _ => none) (fun _ => none)

theorem opsList_shipped (o : String) : opsList (shipped call isUnit mkErr getErr funcs) o
    = (shippedAll.reverse.lookup o).map (fun x => x.toOp (call o)) := by
  have key : ∀ l : List (String × Fixity),
      (l.map (fun e => (e.1, e.2.toOp (call e.1)))).lookup o =
        (l.lookup o).map (fun x => x.toOp (call o)) := by
    intro l
    induction l with
    | nil => rfl
    | cons e l ih =>
      rw [List.map_cons, List.lookup_cons, List.lookup_cons, ih]
      by_cases h : o = e.1
      · simp [h]
      · have h' : (o == e.1) = false := by simpa using h
        rw [h']
  unfold opsList
  rw [shipped_entries, ← List.map_reverse, key]

end

/-- One row of the shipped table. -/
def levelOf (call : String → List V → Act σ V)
    (r : (String × Fixity) × List (String × Fixity)) : Level V σ :=
  ⟨(r.1.1, r.1.2.toOp (call r.1.1)), r.2.map (fun e => (e.1, e.2.toOp (call e.1)))⟩

section
variable {call : String → List V → Act σ V} {isUnit : V → Bool} {mkErr : ExecErr → V}
  {getErr : V → Option Raise} {funcs : String → Option (FuncDef V σ)}
  {f : String → List V → Except String V}

theorem levelOf_has (call : String → List V → Act σ V) (r : (String × Fixity) × List (String × Fixity))
    (o : String) : (levelOf call r).has o = (r.1 :: r.2).any (fun e => e.1 == o) := by
  simp [levelOf, Level.has, Level.entries, List.any_map, Function.comp_def]

theorem liftTok_isOp (t : Tok V) : (liftTok t).isOp = t.isOp := by cases t <;> rfl

theorem liftTok_isUnit (t : Tok V) :
    (liftTok t).isUnit (liftCfg isUnit f : Config (Option V) σ)
      = t.isUnit (shipped call isUnit mkErr getErr funcs) := by cases t <;> rfl

theorem ruleAt_lift {call' : String → List (Option V) → Act σ (Option V)}
    (r : (String × Fixity) × List (String × Fixity)) (prev : Option (Tok V)) (item : Tok V)
    (next : Option (Tok V)) :
    ruleAt (liftCfg isUnit f : Config (Option V) σ) (levelOf call' r) (prev.map liftTok)
      (liftTok item) (next.map liftTok)
      = ruleAt (shipped call isUnit mkErr getErr funcs) (levelOf call r) prev item next := by
  have hu : ∀ t : Option (Tok V), (t.map liftTok).any (Tok.isUnit (liftCfg isUnit f : Config (Option V) σ))
      = t.any (Tok.isUnit (shipped call isUnit mkErr getErr funcs)) := by
    intro t; cases t with
    | none => rfl
    | some t => exact liftTok_isUnit t
  have ho : ∀ t : Option (Tok V), (t.map liftTok).any Tok.isOp = t.any Tok.isOp := by
    intro t; cases t with
    | none => rfl
    | some t => exact liftTok_isOp t
  unfold ruleAt
  simp only [hu, ho, liftTok_isUnit (call := call) (mkErr := mkErr) (getErr := getErr) (funcs := funcs),
    liftTok_isOp, levelOf_has, Option.isSome_map]
  cases item <;> rfl

theorem scanL_lift {call' : String → List (Option V) → Act σ (Option V)}
    (r : (String × Fixity) × List (String × Fixity)) : ∀ (items : List (Item V)) (prev : Option (Tok V)),
    scanL (liftCfg isUnit f : Config (Option V) σ) (levelOf call' r) (prev.map liftTok) (items.map liftItem)
      = scanL (shipped call isUnit mkErr getErr funcs) (levelOf call r) prev items
  | [], _ => rfl
  | it :: rest, prev => by
    have hn : ((rest.map liftItem).head?.map Item.tok) = (rest.head?.map Item.tok).map liftTok := by
      cases rest <;> rfl
    have ih := scanL_lift (call' := call') r rest (some it.tok)
    rw [List.map_cons, scanL, scanL, hn]
    rw [show (liftItem it).tok = liftTok it.tok from rfl, ruleAt_lift (call := call) (mkErr := mkErr)
      (getErr := getErr) (funcs := funcs)]
    rw [show some (liftTok it.tok) = (some it.tok).map liftTok from rfl, ih]

theorem scanR_lift {call' : String → List (Option V) → Act σ (Option V)}
    (r : (String × Fixity) × List (String × Fixity)) : ∀ (items : List (Item V)) (prev : Option (Tok V)),
    scanR (liftCfg isUnit f : Config (Option V) σ) (levelOf call' r) (prev.map liftTok) (items.map liftItem)
      = scanR (shipped call isUnit mkErr getErr funcs) (levelOf call r) prev items
  | [], _ => rfl
  | it :: rest, prev => by
    have hn : ((rest.map liftItem).head?.map Item.tok) = (rest.head?.map Item.tok).map liftTok := by
      cases rest <;> rfl
    have ih := scanR_lift (call' := call') r rest (some it.tok)
    rw [List.map_cons, scanR, scanR, hn]
    rw [show (liftItem it).tok = liftTok it.tok from rfl, ruleAt_lift (call := call) (mkErr := mkErr)
      (getErr := getErr) (funcs := funcs)]
    rw [show some (liftTok it.tok) = (some it.tok).map liftTok from rfl, ih]

theorem findRedex_lift (items : List (Item V)) :
    findRedex (liftCfg isUnit f : Config (Option V) σ) (items.map liftItem)
      = findRedex (shipped call isUnit mkErr getErr funcs) items := by
  unfold findRedex
  have e1 : (liftCfg isUnit f : Config (Option V) σ).ops = shippedRows.map (levelOf
      (fun o ins st => ((liftF f o ins).mapError (fun m => Raise.calc m), st))) := rfl
  have e2 : (shipped call isUnit mkErr getErr funcs).ops = shippedRows.map (levelOf call) := rfl
  rw [e1, e2, List.findSome?_map, List.findSome?_map]
  congr 1
  funext r
  simp only [Function.comp]
  unfold scanLevel
  have hd : ∀ (c : String → List V → Act σ V), (levelOf c r).head.1 = r.1.1 := fun _ => rfl
  have hd' : ∀ (c : String → List (Option V) → Act σ (Option V)), (levelOf c r).head.1 = r.1.1 := fun _ => rfl
  rw [hd, hd', opsList_shipped]
  unfold liftCfg
  rw [opsList_shipped]
  cases shippedAll.reverse.lookup r.1.1 with
  | none => rfl
  | some x =>
    simp only [Option.map_some, Fixity.toOp]
    have a1 := scanL_lift (σ := σ) (call := call) (isUnit := isUnit) (mkErr := mkErr) (getErr := getErr)
      (funcs := funcs) (f := f)
      (call' := fun o ins st => ((liftF f o ins).mapError (fun m => Raise.calc m), st)) r items none
    have a2 := scanR_lift (σ := σ) (call := call) (isUnit := isUnit) (mkErr := mkErr) (getErr := getErr)
      (funcs := funcs) (f := f)
      (call' := fun o ins st => ((liftF f o ins).mapError (fun m => Raise.calc m), st)) r items none
    unfold liftCfg at a1 a2
    rw [Option.map_none] at a1 a2
    rw [a1, a2]

theorem gather_lift (sym : String) (index : ℕ) : ∀ (its : List (Item V)) (es : List (Option String)),
    gather sym index (its.map liftItem) es = (gather sym index its es).map (List.map some)
  | [], es => by cases es <;> rfl
  | it :: its, [] => rfl
  | it :: its, e :: es => by
    have ih := gather_lift sym index its es
    rw [List.map_cons]
    obtain ⟨tok, idx⟩ := it
    cases e with
    | none =>
      cases tok with
      | op o => rfl
      | val v =>
        simp only [liftItem, liftTok, gather, ih]
        cases gather sym index its es <;> rfl
    | some s =>
      cases tok with
      | op o =>
        simp only [liftItem, liftTok, gather, ih]
        split <;> rfl
      | val v => rfl

end

/-! ### Where an operator is found -/

section
variable {cfg : Config V σ}

theorem ruleAt_op {prec : Level V σ} {prev : Option (Tok V)} {item : Tok V} {next : Option (Tok V)}
    {s : String} {w : ℕ} (h : ruleAt cfg prec prev item next = some (s, w)) :
    w = 0 ∨ (w = 1 ∧ item.isOp = true) := by
  unfold ruleAt at h
  simp only at h
  split at h
  · simp only [Option.some.injEq, Prod.mk.injEq] at h; exact .inl h.2.symm
  split at h
  · simp only [Option.some.injEq, Prod.mk.injEq] at h; exact .inl h.2.symm
  split at h
  · rename_i hs
    simp only [Option.some.injEq, Prod.mk.injEq] at h
    rw [Option.filter_eq_some_iff] at hs
    have h3 := hs.2
    cases item with
    | op o => exact .inr ⟨h.2.symm, rfl⟩
    | val v => simp at h3
  split at h
  · simp only [Option.some.injEq, Prod.mk.injEq] at h; exact .inl h.2.symm
  cases item with
  | op o =>
    simp only at h
    split at h
    · simp only [Option.some.injEq, Prod.mk.injEq] at h; exact .inr ⟨h.2.symm, rfl⟩
    · cases h
  | val v => cases h

theorem scanL_op {prec : Level V σ} : ∀ {items : List (Item V)} {prev : Option (Tok V)} {i : ℕ} {s : String}
    {w : ℕ}, scanL cfg prec prev items = some (i, s, w) → ∀ it, items[i]? = some it →
    w = 0 ∨ (w = 1 ∧ it.tok.isOp = true)
  | [], _, _, _, _, h => by simp [scanL] at h
  | x :: rest, prev, i, s, w, h => by
    unfold scanL at h
    split at h
    · rename_i r hr
      simp only [Option.some.injEq, Prod.mk.injEq] at h
      obtain ⟨rfl, h⟩ := h
      subst h
      intro it hit
      simp only [List.getElem?_cons_zero, Option.some.injEq] at hit
      subst hit
      exact ruleAt_op hr
    · rw [Option.map_eq_some_iff] at h
      obtain ⟨⟨j, q⟩, h1, h2⟩ := h
      simp only [Prod.mk.injEq] at h2
      obtain ⟨rfl, rfl⟩ := h2
      intro it hit
      rw [List.getElem?_cons_succ] at hit
      exact scanL_op h1 it hit

theorem scanR_op {prec : Level V σ} : ∀ {items : List (Item V)} {prev : Option (Tok V)} {i : ℕ} {s : String}
    {w : ℕ}, scanR cfg prec prev items = some (i, s, w) → ∀ it, items[i]? = some it →
    w = 0 ∨ (w = 1 ∧ it.tok.isOp = true)
  | [], _, _, _, _, h => by simp [scanR] at h
  | x :: rest, prev, i, s, w, h => by
    unfold scanR at h
    split at h
    · rename_i y hr
      simp only [Option.some.injEq, Prod.mk.injEq] at h
      obtain ⟨rfl, h⟩ := h
      intro it hit
      rw [List.getElem?_cons_succ] at hit
      obtain ⟨j, q⟩ := y
      simp only at h hit
      subst h
      exact scanR_op hr it hit
    · rw [Option.map_eq_some_iff] at h
      obtain ⟨q, h1, h2⟩ := h
      simp only [Prod.mk.injEq] at h2
      obtain ⟨rfl, rfl⟩ := h2
      intro it hit
      simp only [List.getElem?_cons_zero, Option.some.injEq] at hit
      subst hit
      exact ruleAt_op h1

theorem findRedex_op {items : List (Item V)} {i : ℕ} {s : String} {w : ℕ}
    (h : findRedex cfg items = some (i, s, w)) {it : Item V} (hit : items[i]? = some it) :
    w = 0 ∨ (w = 1 ∧ it.tok.isOp = true) := by
  unfold findRedex at h
  obtain ⟨prec, _, hp⟩ := List.exists_of_findSome?_eq_some h
  unfold scanLevel at hp
  split at hp
  · split at hp
    · exact scanR_op hp it hit
    · exact scanL_op hp it hit
  · cases hp

/-- Operands are not lost. -/
theorem gather_keeps {sym : String} {index : ℕ} : ∀ {its : List (Item V)} {es : List (Option String)}
    {vs : List V}, gather sym index its es = .ok vs → its.length = es.length →
    ∀ it ∈ its, ∀ v, it.tok = .val v → v ∈ vs
  | [], _, _, _, _, it, hit => by cases hit
  | x :: its, [], _, _, hl, _, _ => by simp at hl
  | x :: its, e :: es, vs, h, hl, it, hit => by
    intro v hv
    have hl' : its.length = es.length := by simpa using hl
    obtain ⟨tok, idx⟩ := x
    cases e with
    | none =>
      cases tok with
      | op o => simp [gather] at h
      | val v' =>
        simp only [gather] at h
        split at h
        · rename_i ws hg
          simp only [Except.ok.injEq] at h
          subst h
          rcases List.mem_cons.1 hit with rfl | hit
          · simp only [Tok.val.injEq] at hv
            subst hv
            exact List.mem_cons_self ..
          · exact List.mem_cons_of_mem _ (gather_keeps hg hl' it hit v hv)
        · cases h
    | some s =>
      cases tok with
      | op o =>
        simp only [gather] at h
        split at h
        · rcases List.mem_cons.1 hit with rfl | hit
          · cases hv
          · exact gather_keeps h hl' it hit v hv
        · cases h
      | val v' => simp [gather] at h

end

/-! ### A missing value never disappears -/

section
variable {call : String → List V → Act σ V} {isUnit : V → Bool} {mkErr : ExecErr → V}
  {getErr : V → Option Raise} {funcs : String → Option (FuncDef V σ)}
  {f : String → List V → Except String V}

/-- A value is missing. -/
def Missing (items : List (Item (Option V))) : Prop := ∃ it ∈ items, it.tok = .val none

theorem execOp_missing {items items' : List (Item (Option V))} {i : ℕ} {sym : String} {w : ℕ}
    {item : Item (Option V)} {s s' : σ}
    (hr : findRedex (liftCfg isUnit f : Config (Option V) σ) items = some (i, sym, w))
    (hi : items[i]? = some item) (hm : Missing items)
    (h : execOp (liftCfg isUnit f : Config (Option V) σ) sym items i item w s = (.ok items', s')) :
    Missing items' := by
  unfold execOp at h
  cases ho : opsList (liftCfg isUnit f : Config (Option V) σ) sym with
  | none => rw [ho] at h; simp at h
  | some d =>
    rw [ho] at h
    simp only at h
    split at h
    · simp at h
    rename_i hl
    split at h
    · simp at h
    rename_i hr'
    split at h
    · simp at h
    rename_i inputs hg
    obtain ⟨x, _, rfl⟩ := shipped_op _ _ _ _ _ ho
    simp only [Fixity.toOp] at h hl hr' hg
    have hcall : ((liftF f sym inputs).mapError (fun m => Raise.calc m) : Except Raise (Option V))
        = .ok ((allSome inputs).bind (fun vs => (f sym vs).toOption)) := rfl
    rw [hcall] at h
    simp only [Prod.mk.injEq, Except.ok.injEq] at h
    obtain ⟨rfl, rfl⟩ := h
    obtain ⟨it, hit, htok⟩ := hm
    have hw := findRedex_op hr hi
    have hlen : i < items.length := by
      rw [List.getElem?_eq_some_iff] at hi
      exact hi.1
    have hsplit : items = items.take (i - x.linputs.length)
        ++ ((items.drop (i - x.linputs.length)).take x.linputs.length
          ++ ((items.drop i).take w ++ ((items.drop (i + w)).take x.rinputs.length
            ++ items.drop (i + x.rinputs.length + w)))) := by
      conv_lhs => rw [← List.take_append_drop (i - x.linputs.length) items]
      congr 1
      conv_lhs => rw [← List.take_append_drop x.linputs.length (items.drop (i - x.linputs.length))]
      congr 1
      rw [List.drop_drop, show i - x.linputs.length + x.linputs.length = i by omega]
      conv_lhs => rw [← List.take_append_drop w (items.drop i)]
      congr 1
      rw [List.drop_drop]
      conv_lhs => rw [← List.take_append_drop x.rinputs.length (items.drop (i + w))]
      rw [List.drop_drop, show i + w + x.rinputs.length = i + x.rinputs.length + w by omega]
    rw [hsplit] at hit
    simp only [List.mem_append] at hit
    have hlenA : ((items.drop (i - x.linputs.length)).take x.linputs.length
        ++ (items.drop (i + w)).take x.rinputs.length).length
        = (x.linputs ++ x.rinputs).length := by
      simp only [List.length_append, List.length_take, List.length_drop]
      omega
    have gone : it ∈ (items.drop (i - x.linputs.length)).take x.linputs.length
        ++ (items.drop (i + w)).take x.rinputs.length →
        (allSome inputs).bind (fun vs => (f sym vs).toOption) = none := by
      intro hmem
      have := gather_keeps hg hlenA it hmem none htok
      rw [allSome_none this]
      rfl
    rcases hit with hit | hit | hit | hit | hit
    · exact ⟨it, by simp [hit], htok⟩
    · refine ⟨_, List.mem_append_right _ (List.mem_cons_self ..), ?_⟩
      simp only
      rw [gone (List.mem_append_left _ hit)]
    · exfalso
      rcases hw with rfl | ⟨rfl, hop⟩
      · simp at hit
      · have : (items.drop i).take 1 = [item] := by
          rw [List.drop_eq_getElem_cons hlen]
          rw [List.getElem?_eq_getElem hlen, Option.some.injEq] at hi
          rw [hi]; rfl
        rw [this, List.mem_singleton] at hit
        subst hit
        rw [htok] at hop
        cases hop
    · refine ⟨_, List.mem_append_right _ (List.mem_cons_self ..), ?_⟩
      simp only
      rw [gone (List.mem_append_right _ hit)]
    · exact ⟨it, by simp [hit], htok⟩

theorem loop_missing : ∀ (n : ℕ) (items : List (Item (Option V))) (s s' : σ) (v : Option V), Missing items →
    loop (liftCfg isUnit f : Config (Option V) σ) n items s = some (.ok v, s') → v = none := by
  intro n
  induction n with
  | zero =>
    intro items s s' v hm h
    rw [loop] at h
    cases hs : step (liftCfg isUnit f : Config (Option V) σ) items with
    | some act => rw [hs] at h; cases h
    | none =>
      rw [hs] at h
      simp only [Option.some.injEq, Prod.mk.injEq] at h
      exact finish_missing hm h.1
  | succ n ih =>
    intro items s s' v hm h
    rw [loop] at h
    cases hs : step (liftCfg isUnit f : Config (Option V) σ) items with
    | none =>
      rw [hs] at h
      simp only [Option.some.injEq, Prod.mk.injEq] at h
      exact finish_missing hm h.1
    | some act =>
      rw [hs] at h
      simp only at h
      unfold step at hs
      split at hs
      · cases hs
      rename_i i sym w hr
      split at hs
      · cases hs
      rename_i item hi
      simp only [Option.some.injEq] at hs
      subst hs
      cases ha : execOp (liftCfg isUnit f : Config (Option V) σ) sym items i item w s with
      | mk res s1 =>
        rw [ha] at h
        cases res with
        | error e => simp at h
        | ok items' => exact ih items' s1 s' v (execOp_missing hr hi hm ha) h
where
  finish_missing {items : List (Item (Option V))} {v : Option V} (hm : Missing items)
      (h : finish items = .ok v) : v = none := by
    obtain ⟨it, hit, ht⟩ := hm
    match items, hit, h with
    | [x], hit, h =>
      rw [List.mem_singleton] at hit
      subst hit
      simp only [finish, ht, Except.ok.injEq] at h
      exact h.symm
    | x :: y :: rest, _, h =>
      simp only [finish] at h
      split at h
      · split at h <;> cases h
      · cases h

/-! ### The two runs side by side -/

theorem finish_lift (items : List (Item V)) :
    finish (items.map liftItem) = (finish items).map some := by
  match items with
  | [] => rfl
  | [it] =>
    obtain ⟨tok, idx⟩ := it
    cases tok <;> rfl
  | x :: y :: rest =>
    have : ∀ l : List (Item V), (l.map liftItem).find? (fun it => it.tok.isOp)
        = (l.find? (fun it => it.tok.isOp)).map liftItem := by
      intro l
      rw [List.find?_map]
      congr 1
      congr 1
      funext it
      exact liftTok_isOp it.tok
    have h2 := this (x :: y :: rest)
    simp only [List.map_cons] at h2 ⊢
    simp only [finish, h2]
    cases List.find? (fun it => it.tok.isOp) (x :: y :: rest) with
    | none => rfl
    | some it =>
      obtain ⟨tok, idx⟩ := it
      cases tok <;> rfl

theorem loop_lift {s : σ} (hf : ∀ o ins v, f o ins = .ok v → call o ins s = (.ok v, s)) :
    ∀ (n : ℕ) (items : List (Item V)) (v : V) (s1 : σ),
    loop (liftCfg isUnit f : Config (Option V) σ) n (items.map liftItem) s = some (.ok (some v), s1) →
    loop (shipped call isUnit mkErr getErr funcs) n items s = some (.ok v, s) := by
  intro n
  have done : ∀ (items : List (Item V)) (v : V) (s1 : σ),
      some (finish (items.map liftItem), s) = some (.ok (some v), s1) →
      some (finish items, s) = some (.ok v, s) := by
    intro items v s1 h
    rw [finish_lift] at h
    simp only [Option.some.injEq, Prod.mk.injEq] at h
    cases hfin : finish items with
    | error e => rw [hfin] at h; cases h.1
    | ok w =>
      rw [hfin] at h
      have := h.1
      simp only [Except.map, Except.ok.injEq, Option.some.injEq] at this
      rw [this]
  have stepEq : ∀ items : List (Item V),
      (step (liftCfg isUnit f : Config (Option V) σ) (items.map liftItem) = none ∧
        step (shipped call isUnit mkErr getErr funcs) items = none) ∨
      ∃ i sym w item, findRedex (shipped call isUnit mkErr getErr funcs) items = some (i, sym, w) ∧
        items[i]? = some item ∧
        step (liftCfg isUnit f : Config (Option V) σ) (items.map liftItem)
          = some (execOp (liftCfg isUnit f) sym (items.map liftItem) i (liftItem item) w) ∧
        step (shipped call isUnit mkErr getErr funcs) items
          = some (execOp (shipped call isUnit mkErr getErr funcs) sym items i item w) := by
    intro items
    unfold step
    rw [findRedex_lift (call := call) (mkErr := mkErr) (getErr := getErr) (funcs := funcs)]
    cases hr : findRedex (shipped call isUnit mkErr getErr funcs) items with
    | none => exact .inl ⟨rfl, rfl⟩
    | some r =>
      obtain ⟨i, sym, w⟩ := r
      simp only [List.getElem?_map]
      cases hi : items[i]? with
      | none => exact .inl ⟨rfl, rfl⟩
      | some item => exact .inr ⟨i, sym, w, item, rfl, hi, rfl, rfl⟩
  induction n with
  | zero =>
    intro items v s1 h
    rw [loop] at h ⊢
    rcases stepEq items with ⟨h1, h2⟩ | ⟨_, _, _, _, _, _, h1, _⟩
    · rw [h1] at h; rw [h2]
      exact done items v s1 h
    · rw [h1] at h; cases h
  | succ n ih =>
    intro items v s1 h
    rw [loop] at h ⊢
    rcases stepEq items with ⟨h1, h2⟩ | ⟨i, sym, w, item, hr, hi, h1, h2⟩
    · rw [h1] at h; rw [h2]
      exact done items v s1 h
    · rw [h1] at h; rw [h2]
      simp only at h ⊢
      have hi' : (items.map liftItem)[i]? = some (liftItem item) := by
        rw [List.getElem?_map, hi]; rfl
      cases ha : execOp (liftCfg isUnit f : Config (Option V) σ) sym (items.map liftItem) i
          (liftItem item) w s with
      | mk res s2 =>
        rw [ha] at h
        cases res with
        | error e => simp at h
        | ok items' =>
          simp only at h
          have key : (∃ w', execOp (shipped call isUnit mkErr getErr funcs) sym items i item w s
              = (.ok w', s) ∧ items' = w'.map liftItem ∧ s2 = s) ∨ Missing items' := by
            unfold execOp at ha ⊢
            have e1 : opsList (liftCfg isUnit f : Config (Option V) σ) sym = _ :=
              opsList_shipped _ _ _ _ _ sym
            rw [e1] at ha
            rw [opsList_shipped]
            cases hx : shippedAll.reverse.lookup sym with
            | none => rw [hx] at ha; simp at ha
            | some x =>
              rw [hx] at ha
              simp only [Option.map_some, Fixity.toOp, List.length_map] at ha ⊢
              split at ha
              · simp at ha
              rename_i hl
              rw [if_neg hl]
              split at ha
              · simp at ha
              rename_i hr'
              rw [if_neg hr']
              rw [← List.map_drop, ← List.map_drop, ← List.map_take, ← List.map_take, ← List.map_append,
                show (liftItem item).index = item.index from rfl, gather_lift] at ha
              cases hg : gather sym item.index
                  ((items.drop (i - x.linputs.length)).take x.linputs.length
                    ++ (items.drop (i + w)).take x.rinputs.length) (x.linputs ++ x.rinputs) with
              | error e => rw [hg] at ha; simp [Except.map] at ha
              | ok inputs =>
                rw [hg] at ha
                simp only [Except.map, liftF, Except.mapError, allSome_map, Option.bind_some,
                  Prod.mk.injEq, Except.ok.injEq] at ha
                obtain ⟨rfl, rfl⟩ := ha
                cases hfo : f sym inputs with
                | error m =>
                  right
                  exact ⟨_, List.mem_append_right _ (List.mem_cons_self ..), rfl⟩
                | ok u =>
                  left
                  simp only [hf sym inputs u hfo]
                  refine ⟨items.take (i - x.linputs.length) ++ ⟨.val u, item.index⟩
                    :: items.drop (i + x.rinputs.length + w), by simp, ?_, by simp⟩
                  simp [liftItem, liftTok, Except.toOption]
          rcases key with ⟨items2, hreal, rfl, rfl⟩ | hmiss
          · rw [hreal]
            exact ih items2 v s1 h
          · have := loop_missing n items' s2 s1 (some v) hmiss h
            cases this

/-- Operands that have values. -/
inductive Gives (s : σ) : List (Src V σ) → List (Tok V) → Prop
  | nil : Gives s [] []
  | op {o : String} {srcs toks} : Gives s srcs toks → Gives s (.op o :: srcs) (.op o :: toks)
  | operand {act : Act σ V} {v : V} {srcs toks} : act s = (.ok v, s) → Gives s srcs toks →
      Gives s (.operand act :: srcs) (.val v :: toks)

theorem Gives.execOperands {cfg : Config V σ} {s : σ} {srcs : List (Src V σ)} {toks : List (Tok V)}
    (h : Gives s srcs toks) : ∀ i, ∃ items, execOperands cfg i srcs s = (.ok items, s) ∧
      items.map Item.tok = toks ∧ items.map Item.index = List.range' i items.length := by
  induction h with
  | nil => exact fun i => ⟨[], rfl, rfl, rfl⟩
  | @op o _ _ _ ih =>
    intro i
    obtain ⟨items, h1, h2, h3⟩ := ih (i + 1)
    refine ⟨⟨.op o, i⟩ :: items, ?_, by simp [h2], by simp [h3, List.range'_succ]⟩
    rw [MC.execOperands, h1]
  | @operand _ v _ _ ha _ ih =>
    intro i
    obtain ⟨items, h1, h2, h3⟩ := ih (i + 1)
    refine ⟨⟨.val v, i⟩ :: items, ?_, by simp [h2], by simp [h3, List.range'_succ]⟩
    rw [MC.execOperands, execOperand, ha]
    simp only [h1]

theorem reads_lift {rows : List RowKind} {k : ℕ} {toks : List (Tok V)} {v : V}
    (h : Reads rows f k toks v) : Reads rows (liftF f) k (toks.map liftTok) (some v) := by
  have hf : ∀ o ins x, f o ins = .ok x → liftF f o (ins.map some) = .ok (some x) := by
    intro o ins x h
    simp [liftF, allSome_map, h, Except.toOption]
  induction h with
  | atom v => exact .atom _
  | up _ ih => exact .up ih
  | left hk ho _ _ hx iht ihu =>
    rw [List.map_append, List.map_cons]
    exact .left hk ho iht ihu (hf _ [_, _] _ hx)
  | pref hk ho _ hx ih =>
    rw [List.map_cons]
    exact .pref hk ho ih (hf _ [_] _ hx)
  | tern hk _ _ _ hx iht ihu ihr =>
    rw [List.map_append, List.map_cons, List.map_append, List.map_cons]
    exact .tern hk iht ihu ihr (hf _ [_, _, _] _ hx)
  | next hk _ _ hx iht ihu =>
    rw [List.map_append]
    exact .next hk iht ihu (hf _ [_, _] _ hx)

/-- An expression whose operands have values and whose operators do what the reading needs
evaluates to the value of the reading. -/
theorem execute_reads {s : σ} (hf : ∀ o ins v, f o ins = .ok v → call o ins s = (.ok v, s))
    (hcl : ∀ o ins v, (∀ x ∈ ins, isUnit x = false) → f o ins = .ok v → isUnit v = false)
    {k : ℕ} {srcs : List (Src V σ)} {toks : List (Tok V)} {v : V}
    (hu : ∀ x, Tok.val x ∈ toks → isUnit x = false) (hg : Gives s srcs toks)
    (h : Reads documented f k toks v) :
    execute (shipped call isUnit mkErr getErr funcs) srcs s = (.ok v, s) := by
  have hl := C26_grammar (σ := σ) (liftF f) (fun _ => none) (fun _ => none) (fun _ => none)
    (fun o => o.any isUnit) (by
      intro o ins x hins hx
      simp only [liftF, Except.ok.injEq] at hx
      cases x with
      | none => rfl
      | some x =>
        cases ha : allSome ins with
        | none => rw [ha] at hx; cases hx
        | some vs =>
          rw [ha] at hx
          have e := allSome_some ha
          subst e
          simp only [Option.bind_some] at hx
          cases hfo : f o vs with
          | error m => rw [hfo] at hx; cases hx
          | ok y =>
            rw [hfo] at hx
            simp only [Except.toOption, Option.some.injEq] at hx
            subst hx
            exact hcl o vs y (fun z hz => by simpa using hins (some z) (by simpa using hz)) hfo)
    (fun _ => rfl) (by
      intro x hx
      obtain ⟨t, ht, e⟩ := List.mem_map.1 hx
      cases t with
      | op o => cases e
      | val y =>
        simp only [liftTok, Tok.val.injEq] at e
        subst e
        simpa using hu y ht) (reads_lift h) s
  obtain ⟨items, h1, h2, h3⟩ := hg.execOperands (cfg := shipped call isUnit mkErr getErr funcs) 0
  have hg' : Gives s ((toks.map liftTok).map (asSrc (σ := σ))) (toks.map liftTok) := by
    generalize toks.map liftTok = l
    induction l with
    | nil => exact .nil
    | cons t l ih =>
      cases t with
      | op o => exact .op ih
      | val v => exact .operand rfl ih
  obtain ⟨items', h1', h2', h3'⟩ := hg'.execOperands (cfg := (liftCfg isUnit f : Config (Option V) σ)) 0
  have hlen : items.length = toks.length := by rw [← h2, List.length_map]
  have e : items' = items.map liftItem := by
    have hlen' : items'.length = items.length := by
      rw [hlen, ← List.length_map (f := Item.tok), h2', List.length_map]
    apply List.ext_getElem (by simp [hlen'])
    intro j hj1 hj2
    have a : (items'.map Item.tok)[j]? = (items.map (fun x => liftTok x.tok))[j]? := by
      rw [h2', ← h2, List.map_map]; rfl
    have b : (items'.map Item.index)[j]? = (items.map Item.index)[j]? := by
      rw [h3', h3, hlen']
    have hj3 : j < items.length := by simpa using hj2
    simp only [List.getElem?_map, List.getElem?_eq_getElem hj1, List.getElem?_eq_getElem hj3,
      Option.map_some, Option.some.injEq] at a b
    rw [List.getElem_map]
    cases hx : items'[j] with
    | mk tok idx =>
      rw [hx] at a b
      simp only at a b
      rw [a, b]; rfl
  subst e
  have hne : srcs ≠ [] := by
    rintro rfl
    cases hg
    exact reads_ne h rfl
  have hlenS : srcs.length = toks.length := by
    clear hl h1 h1' hne h hu h2 hlen h2' hg'
    induction hg with
    | nil => rfl
    | op _ ih => simp [ih]
    | operand _ _ ih => simp [ih]
  have hne' : (toks.map liftTok).map (asSrc (σ := σ)) ≠ [] := by
    intro h0
    have : toks = [] := by simpa using h0
    exact reads_ne h this
  have red : ∀ {W : Type} (cfg : Config W σ) (l : List (Src W σ)) (its : List (Item W)), l ≠ [] →
      execOperands cfg 0 l s = (.ok its, s) →
      execute cfg l s = (loop cfg l.length its s).getD (.error (.py "out of fuel"), s) := by
    intro W cfg l its hne he
    unfold execute executeF
    cases l with
    | nil => exact absurd rfl hne
    | cons a b =>
      simp only
      rw [he]
  have hl2 : execute (liftCfg isUnit f : Config (Option V) σ) ((toks.map liftTok).map asSrc) s
      = (.ok (some v), s) := hl
  rw [red _ _ _ hne' h1'] at hl2
  rw [red _ _ _ hne h1]
  simp only [List.length_map] at hl2
  rw [hlenS]
  cases hloop : loop (liftCfg isUnit f : Config (Option V) σ) toks.length (items.map liftItem) s with
  | none => rw [hloop] at hl2; simp at hl2
  | some r =>
    rw [hloop] at hl2
    simp only [Option.getD_some] at hl2
    subst hl2
    rw [loop_lift hf _ _ _ _ hloop]
    rfl
where
  reads_ne {k : ℕ} {toks : List (Tok V)} {v : V} (h : Reads documented f k toks v) : toks ≠ [] := by
    induction h with
    | atom => simp
    | up _ ih => exact ih
    | left => simp
    | pref => simp
    | tern => simp
    | next _ _ _ _ iht _ => simp [iht]

theorem reads_notUnit
    (hcl : ∀ o ins v, (∀ x ∈ ins, isUnit x = false) → f o ins = .ok v → isUnit v = false)
    {k : ℕ} {toks : List (Tok V)} {v : V} (h : Reads documented f k toks v)
    (hu : ∀ x, Tok.val x ∈ toks → isUnit x = false) : isUnit v = false := by
  induction h with
  | atom v => exact hu v (by simp)
  | up _ ih => exact ih hu
  | left _ _ _ _ hx iht ihu =>
    refine hcl _ _ _ ?_ hx
    have a := iht (fun y hy => hu y (by simp [hy]))
    have b := ihu (fun y hy => hu y (by simp [hy]))
    simp [a, b]
  | pref _ _ _ hx ih =>
    refine hcl _ _ _ ?_ hx
    have b := ih (fun y hy => hu y (by simp [hy]))
    simp [b]
  | tern _ _ _ _ hx iht ihu ihr =>
    refine hcl _ _ _ ?_ hx
    have a := iht (fun y hy => hu y (by simp [hy]))
    have b := ihu (fun y hy => hu y (by simp [hy]))
    have c := ihr (fun y hy => hu y (by simp [hy]))
    simp [a, b, c]
  | next _ _ _ hx iht ihu =>
    refine hcl _ _ _ ?_ hx
    have a := iht (fun y hy => hu y (by simp [hy]))
    have b := ihu (fun y hy => hu y (by simp [hy]))
    simp [a, b]

end
end MC.Props
