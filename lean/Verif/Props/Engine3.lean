import Verif.Props.Engine2
import Verif.Props.Engine
import Verif.Spec.Grammar

/-!
# C26 for the grammar of the shipped table; operands; answers
-/

namespace MC.Props
open MC MC.Spec

variable {V σ : Type} {cfg : Config V σ} {f : String → List V → Except String V} {P : V → Prop}

/-- A table has the rows `rows`. -/
structure HasRows (cfg : Config V σ) (rows : List RowKind) : Prop where
  infixes : ∀ k ops o, rows[k]? = some (.infixes ops) → o ∈ ops →
    rowOf cfg o = some k ∧ rtlOf cfg k = false ∧ inputsOf cfg o = some ([none], [none])
  prefixes : ∀ k ops o, rows[k]? = some (.prefixes ops) → o ∈ ops →
    rowOf cfg o = some k ∧ rtlOf cfg k = true ∧ inputsOf cfg o = some ([], [none])
  ternary : ∀ k o s, rows[k]? = some (.ternary o s) →
    rowOf cfg o = some k ∧ rtlOf cfg k = false ∧ inputsOf cfg o = some ([none], [none, some s, none])
  nextTo : ∀ k o, rows[k]? = some (.nextTo o) →
    rowOf cfg o = some k ∧ rtlOf cfg k = false ∧ cfg.implicitMul = some o

/-- A literal or an operator as the engine receives it. -/
def asSrc : Tok V → Src V σ
  | .op o => .op o
  | .val v => .operand (fun s => (.ok v, s))

/-- A tree for the phrase. -/
structure TreeFor (cfg : Config V σ) (f : String → List V → Except String V) (P : V → Prop) (k n : ℕ)
    (toks : List (Tok V)) (v : V) (t : Tree V) : Prop where
  toks : t.flat.map Item.tok = toks
  index : t.flat.map Item.index = List.range' n t.flat.length
  eval : t.eval f cfg.mkErr = v
  dictated : t.Dictated (rowOf cfg) (rtlOf cfg)
  shaped : t.Shaped (inputsOf cfg) cfg.implicitMul
  all : t.All P
  root : t.RootIn (rowOf cfg) (· < k)

theorem RootIn.mono {row : String → Option ℕ} {p q : ℕ → Prop} (h : ∀ j, p j → q j) :
    ∀ {t : Tree V}, t.RootIn row p → t.RootIn row q
  | .leaf _ _, _ => trivial
  | .app _ _ _ _, ⟨j, h1, h2⟩ => ⟨j, h1, h j h2⟩
  | .juxt _ _ _, ⟨j, h1, h2⟩ => ⟨j, h1, h j h2⟩

theorem reads_tree {rows : List RowKind} (hr : HasRows cfg rows) {k : ℕ} {toks : List (Tok V)} {v : V}
    (h : Reads rows f k toks v) (hP : ∀ x, Tok.val x ∈ toks → P x) :
    ∀ n, ∃ t, TreeFor cfg f P k n toks v t := by
  induction h with
  | atom v =>
    intro n
    exact ⟨.leaf n v, ⟨by simp [Tree.flat], by simp [Tree.flat], by simp [Tree.eval],
      by simp [Tree.Dictated], by simp [Tree.Shaped], by simpa [Tree.All] using hP v (by simp),
      by simp [Tree.RootIn]⟩⟩
  | up _ ih =>
    intro n
    obtain ⟨t, ht⟩ := ih hP n
    exact ⟨t, { ht with root := RootIn.mono (fun j hj => Nat.lt_succ_of_lt hj) ht.root }⟩
  | @left k ops o t u v w x hk ho _ _ hf iht ihu =>
    intro n
    obtain ⟨a, ha⟩ := iht (fun y hy => hP y (by simp [hy])) n
    obtain ⟨b, hb⟩ := ihu (fun y hy => hP y (by simp [hy])) (n + a.flat.length + 1)
    obtain ⟨h1, h2, h3⟩ := hr.infixes k ops o hk ho
    refine ⟨.app (n + a.flat.length) o (.some a) (.arg b .nil), ⟨?_, ?_, ?_, ?_, ?_, ?_, ?_⟩⟩
    · simp [Tree.flat, Left.flat, Rights.flat, ha.toks, hb.toks]
    · simp only [Tree.flat, Left.flat, Rights.flat, List.append_nil, List.map_append, List.map_cons,
        ha.index, hb.index, List.length_append, List.length_cons, ← List.range'_append_1,
        List.range'_succ]
    · simp [Tree.eval, Left.evals, Rights.evals, ha.eval, hb.eval, hf, settle]
    · simp only [Tree.Dictated, Left.Dictated, Rights.Dictated, Tree.FitsLeft, Tree.FitsRight, h2]
      exact ⟨k, h1, ⟨ha.dictated, RootIn.mono (fun j hj => by simp only [h2, Bool.false_eq_true, if_false, if_true]; omega) ha.root⟩, hb.dictated,
        RootIn.mono (fun j hj => by simp only [h2, Bool.false_eq_true, if_false, if_true]; omega) hb.root, trivial⟩
    · simp only [Tree.Shaped, Left.Shaped, Rights.Shaped]
      exact ⟨_, _, h3, ⟨rfl, ha.shaped⟩, _, rfl, hb.shaped, rfl⟩
    · simp only [Tree.All, Left.All, Rights.All]; exact ⟨ha.all, hb.all, trivial⟩
    · simp only [Tree.RootIn]; exact ⟨k, h1, by omega⟩
  | @pref k ops o u w x hk ho _ hf ihu =>
    intro n
    obtain ⟨b, hb⟩ := ihu (fun y hy => hP y (by simp [hy])) (n + 1)
    obtain ⟨h1, h2, h3⟩ := hr.prefixes k ops o hk ho
    refine ⟨.app n o .none (.arg b .nil), ⟨?_, ?_, ?_, ?_, ?_, ?_, ?_⟩⟩
    · simp [Tree.flat, Left.flat, Rights.flat, hb.toks]
    · simp only [Tree.flat, Left.flat, Rights.flat, List.append_nil, List.nil_append, List.map_cons,
        hb.index, List.length_cons, List.range'_succ]
    · simp [Tree.eval, Left.evals, Rights.evals, hb.eval, hf, settle]
    · simp only [Tree.Dictated, Left.Dictated, Rights.Dictated, Tree.FitsRight, h2]
      exact ⟨k, h1, trivial, hb.dictated, RootIn.mono (fun j hj => by simp only [h2, Bool.false_eq_true, if_false, if_true]; omega) hb.root, trivial⟩
    · simp only [Tree.Shaped, Left.Shaped, Rights.Shaped]
      exact ⟨_, _, h3, rfl, _, rfl, hb.shaped, rfl⟩
    · simp only [Tree.All, Left.All, Rights.All]; exact ⟨trivial, hb.all, trivial⟩
    · simp only [Tree.RootIn]; exact ⟨k, h1, by omega⟩
  | @tern k o s t u r v w y x hk _ _ _ hf iht ihu ihr =>
    intro n
    obtain ⟨a, ha⟩ := iht (fun y hy => hP y (by simp [hy])) n
    obtain ⟨b, hb⟩ := ihu (fun y hy => hP y (by simp [hy])) (n + a.flat.length + 1)
    obtain ⟨d, hd⟩ := ihr (fun y hy => hP y (by simp [hy])) (n + a.flat.length + 1 + b.flat.length + 1)
    obtain ⟨h1, h2, h3⟩ := hr.ternary k o s hk
    refine ⟨.app (n + a.flat.length) o (.some a)
      (.arg b (.sym (n + a.flat.length + 1 + b.flat.length) s (.arg d .nil))), ⟨?_, ?_, ?_, ?_, ?_, ?_, ?_⟩⟩
    · simp [Tree.flat, Left.flat, Rights.flat, ha.toks, hb.toks, hd.toks]
    · simp only [Tree.flat, Left.flat, Rights.flat, List.append_nil, List.map_append, List.map_cons,
        ha.index, hb.index, hd.index, List.length_append, List.length_cons, ← List.range'_append_1,
        List.range'_succ]
    · simp [Tree.eval, Left.evals, Rights.evals, ha.eval, hb.eval, hd.eval, hf, settle]
    · simp only [Tree.Dictated, Left.Dictated, Rights.Dictated, Tree.FitsLeft, Tree.FitsRight, h2]
      exact ⟨k, h1, ⟨ha.dictated, RootIn.mono (fun j hj => by simp only [h2, Bool.false_eq_true, if_false, if_true]; omega) ha.root⟩, hb.dictated,
        RootIn.mono (fun j hj => by simp only [h2, Bool.false_eq_true, if_false, if_true]; omega) hb.root, hd.dictated, RootIn.mono (fun j hj => by simp only [h2, Bool.false_eq_true, if_false, if_true]; omega) hd.root, trivial⟩
    · simp only [Tree.Shaped, Left.Shaped, Rights.Shaped]
      exact ⟨_, _, h3, ⟨rfl, ha.shaped⟩, _, rfl, hb.shaped, _, rfl, _, rfl, hd.shaped, rfl⟩
    · simp only [Tree.All, Left.All, Rights.All]; exact ⟨ha.all, hb.all, hd.all, trivial⟩
    · simp only [Tree.RootIn]; exact ⟨k, h1, by omega⟩
  | @next k o t u v w x hk _ _ hf iht ihu =>
    intro n
    obtain ⟨a, ha⟩ := iht (fun y hy => hP y (by simp [hy])) n
    obtain ⟨b, hb⟩ := ihu (fun y hy => hP y (by simp [hy])) (n + a.flat.length)
    obtain ⟨h1, h2, h3⟩ := hr.nextTo k o hk
    refine ⟨.juxt o a b, ⟨?_, ?_, ?_, ?_, ?_, ?_, ?_⟩⟩
    · simp [Tree.flat, ha.toks, hb.toks]
    · simp only [Tree.flat, List.map_append, ha.index, hb.index, List.length_append,
        ← List.range'_append_1]
    · simp [Tree.eval, ha.eval, hb.eval, hf, settle]
    · simp only [Tree.Dictated, Tree.FitsLeft, Tree.FitsRight, h2]
      exact ⟨k, h1, ha.dictated, hb.dictated, RootIn.mono (fun j hj => by simp only [h2, Bool.false_eq_true, if_false, if_true]; omega) ha.root,
        RootIn.mono (fun j hj => by simp only [h2, Bool.false_eq_true, if_false, if_true]; omega) hb.root⟩
    · simp only [Tree.Shaped]
      exact ⟨h3, ha.shaped, hb.shaped⟩
    · simp only [Tree.All]; exact ⟨ha.all, hb.all⟩
    · simp only [Tree.RootIn]; exact ⟨k, h1, by omega⟩

/-- Row, direction and inputs in `shippedRows`. -/
def rowS (o : String) : Option ℕ := shippedRows.findIdx? (fun r => (r.1 :: r.2).any (fun e => e.1 == o))
def rtlS (k : ℕ) : Bool := (shippedRows[k]?).any (fun r => r.1.2.rtl)
def inputsS (o : String) : Option (List (Option String) × List (Option String)) :=
  if o ∈ ["UNIT_MULTIPLY", "UNIT_DIVIDE", "IMPLICIT_MULTIPLY"] then none
  else (shippedAll.reverse.lookup o).map (fun e => (e.linputs, e.rinputs))

section
variable (call : String → List V → Act σ V) (isUnit : V → Bool)
    (mkErr : ExecErr → V) (getErr : V → Option Raise) (funcs : String → Option (FuncDef V σ))

theorem rowOf_shipped (o : String) : rowOf (shipped call isUnit mkErr getErr funcs) o = rowS o := by
  unfold rowOf rowS shipped
  simp only [List.findIdx?_map]
  congr 1
  funext r
  simp [Level.has, Level.entries, List.any_map, Function.comp_def]

theorem rtlOf_shipped (k : ℕ) : rtlOf (shipped call isUnit mkErr getErr funcs) k = rtlS k := by
  unfold rtlOf rtlS shipped
  rw [List.getElem?_map]
  cases shippedRows[k]? <;> rfl

theorem inputsOf_shipped (o : String) :
    inputsOf (shipped call isUnit mkErr getErr funcs) o = inputsS o := by
  have key : ∀ l : List (String × Fixity),
      (l.map (fun e => (e.1, e.2.toOp (call e.1)))).lookup o =
        (l.lookup o).map (fun x => x.toOp (call o)) := by
    intro l
    induction l with
    | nil => rfl
    | cons e l ih =>
      rw [List.map_cons, List.lookup_cons, List.lookup_cons, ih]
      by_cases h : o = e.1
      · simp [h]
      · have h' : (o == e.1) = false := by simpa using h
        rw [h']
  unfold inputsOf inputsS opsList
  rw [shipped_entries, ← List.map_reverse, key]
  simp only [shipped, Option.map_map, List.mem_cons, Option.some.injEq, List.not_mem_nil, or_false]
  rfl

/-- The documented row `k` is in `shippedRows`. -/
def rowChecks (k : ℕ) : Bool :=
  match documented[k]? with
  | some (.infixes ops) => ops.all (fun o => rowS o == some k && rtlS k == false &&
      inputsS o == some ([none], [none]))
  | some (.prefixes ops) => ops.all (fun o => rowS o == some k && rtlS k == true &&
      inputsS o == some ([], [none]))
  | some (.ternary o s) => rowS o == some k && rtlS k == false &&
      inputsS o == some ([none], [none, some s, none])
  | some (.nextTo o) => rowS o == some k && rtlS k == false && o == "IMPLICIT_MULTIPLY"
  | _ => true

theorem rows_check : ∀ k < 16, rowChecks k = true := by decide +kernel

theorem row_check {k : ℕ} {r : RowKind} (h : documented[k]? = some r) : rowChecks k = true := by
  have := (List.getElem?_eq_some_iff.mp h).1
  exact rows_check k this

/-- The shipped table has the documented rows. -/
theorem shipped_rows : HasRows (shipped call isUnit mkErr getErr funcs) documented where
  infixes := by
    intro k ops o h ho
    have := row_check h
    simp only [rowChecks, h, List.all_eq_true, Bool.and_eq_true, beq_iff_eq] at this
    rw [rowOf_shipped, rtlOf_shipped, inputsOf_shipped]
    exact ⟨(this o ho).1.1, (this o ho).1.2, (this o ho).2⟩
  prefixes := by
    intro k ops o h ho
    have := row_check h
    simp only [rowChecks, h, List.all_eq_true, Bool.and_eq_true, beq_iff_eq] at this
    rw [rowOf_shipped, rtlOf_shipped, inputsOf_shipped]
    exact ⟨(this o ho).1.1, (this o ho).1.2, (this o ho).2⟩
  ternary := by
    intro k o s h
    have := row_check h
    simp only [rowChecks, h, Bool.and_eq_true, beq_iff_eq] at this
    rw [rowOf_shipped, rtlOf_shipped, inputsOf_shipped]
    exact ⟨this.1.1, this.1.2, this.2⟩
  nextTo := by
    intro k o h
    have := row_check h
    simp only [rowChecks, h, Bool.and_eq_true, beq_iff_eq] at this
    rw [rowOf_shipped, rtlOf_shipped]
    exact ⟨this.1.1, this.1.2, by rw [this.2]; rfl⟩
end

/-- **C26**, for the shipped table: a sequence of operands and operators that is a phrase of the
documented grammar evaluates to the value of the phrase. -/
theorem C26_grammar (f : String → List V → Except String V) (mkErr : ExecErr → V)
    (getErr : V → Option Raise) (funcs : String → Option (FuncDef V σ)) (isUnit : V → Bool)
    (hcl : ∀ s ins v, (∀ x ∈ ins, isUnit x = false) → f s ins = .ok v → isUnit v = false)
    (he : ∀ e, isUnit (mkErr e) = false) {k : ℕ} {toks : List (Tok V)} {v : V}
    (hu : ∀ x, Tok.val x ∈ toks → isUnit x = false) (h : Reads documented f k toks v) (s : σ) :
    execute (shipped (fun o ins st => ((f o ins).mapError (fun m => Raise.calc m), st)) isUnit
      mkErr getErr funcs) (toks.map asSrc) s = (.ok v, s) := by
  obtain ⟨t, ht⟩ := reads_tree (shipped_rows (fun o ins (st : σ) =>
    ((f o ins).mapError (fun m => Raise.calc m), st)) isUnit mkErr getErr funcs)
    (P := fun v => isUnit v = false) h hu 0
  have := C26_shipped (σ := σ) f mkErr getErr funcs isUnit hcl he t ht.dictated ht.shaped ht.all
    (by rw [ht.index, List.range_eq_range']) s
  have e : (src t : List (Src V σ)) = toks.map asSrc := by
    rw [← ht.toks, List.map_map]
    unfold src
    apply List.map_congr_left
    rintro ⟨_ | _, _⟩ _ <;> rfl
  rw [← e, this]
  have := ht.eval
  simp only [shipped] at this
  rw [this]

/-- **C32**: a statement's answer is the value of its items, never an error value: it is what
`finalize` makes of it. -/
theorem C32_answer {A : Type} (atomVal : A → Act σ V) (finalize : V → Act σ V) {items : List (Node A)}
    {s s' : σ} {w : V} :
    stmt cfg atomVal finalize items s = (.ok (some w), s') ↔
      Node.srcs cfg atomVal items ≠ [] ∧ ∃ v s1, executeNodes cfg atomVal items s = (.ok v, s1) ∧
        cfg.getErr v = none ∧ finalize v s1 = (.ok w, s') := by
  unfold stmt
  cases Node.srcs cfg atomVal items with
  | nil => simp
  | cons a l =>
    simp only [ne_eq, reduceCtorEq, not_false_eq_true, true_and]
    rcases executeNodes cfg atomVal items s with ⟨e | v, s1⟩
    · simp
    · dsimp only
      cases hg : cfg.getErr v with
      | some e =>
        simp only [Prod.mk.injEq, reduceCtorEq, false_and, false_iff]
        rintro ⟨v', s1', ⟨h1, rfl⟩, h2, -⟩
        injection h1 with h1
        subst h1
        rw [hg] at h2; cases h2
      | none =>
        dsimp only
        constructor
        · intro h
          refine ⟨v, s1, rfl, hg, ?_⟩
          generalize finalize v s1 = q at h ⊢
          rcases q with ⟨e | x, s2⟩ <;> simp_all
        · rintro ⟨v', s1', h1, h2, h3⟩
          simp only [Prod.mk.injEq, Except.ok.injEq] at h1
          obtain ⟨rfl, rfl⟩ := h1
          rw [h3]

/-- **C32**: a statement whose value is an error value is reported as that error. -/
theorem C32_error_value {A : Type} (atomVal : A → Act σ V) (finalize : V → Act σ V)
    {items : List (Node A)} {s s1 : σ} {v : V} {e : Raise} (hne : Node.srcs cfg atomVal items ≠ [])
    (h : executeNodes cfg atomVal items s = (.ok v, s1)) (he : cfg.getErr v = some e) :
    stmt cfg atomVal finalize items s = (.error e, s1) := by
  unfold stmt
  cases hs : Node.srcs cfg atomVal items with
  | nil => exact absurd hs hne
  | cons a l => simp only [h, he]

/-- What an operator asks for at a position: an operand, or a symbol. -/
def Meets : Item V → Option String → Prop
  | ⟨.val _, _⟩, none => True
  | ⟨.op o, _⟩, some s => o = s
  | _, _ => False

theorem gather_ok {sym : String} {index : ℕ} : ∀ {its : List (Item V)} {es : List (Option String)}
    {vs : List V}, its.length = es.length → gather sym index its es = .ok vs →
    List.Forall₂ Meets its es
  | [], [], _, _, _ => .nil
  | [], _ :: _, _, h, _ => by simp at h
  | _ :: _, [], _, h, _ => by simp at h
  | ⟨.val v, i⟩ :: its, none :: es, vs, hl, h => by
    simp only [gather] at h
    cases hg : gather sym index its es with
    | error e => rw [hg] at h; cases h
    | ok l => exact .cons trivial (gather_ok (by simpa using hl) hg)
  | ⟨.val v, i⟩ :: its, some s :: es, vs, hl, h => by simp [gather] at h
  | ⟨.op o, i⟩ :: its, none :: es, vs, hl, h => by simp [gather] at h
  | ⟨.op o, i⟩ :: its, some s :: es, vs, hl, h => by
    simp only [gather] at h
    split at h
    · rename_i ho
      exact .cons ho (gather_ok (by simpa using hl) h)
    · cases h

/-- **C26**: when an operator is applied, the items before and after it are exactly what it asks
for: operands where it wants operands and its own symbols (such as `else`) where it wants
those.  `w` is 1, or 0 for an invisible operator. -/
theorem C26_operands {sym : String} {items items' : List (Item V)} {i : ℕ} {item : Item V} {w : ℕ}
    {s s' : σ} (h : execOp cfg sym items i item w s = (.ok items', s')) :
    ∃ d, opsList cfg sym = some d ∧ d.linputs.length ≤ i ∧ i + d.rinputs.length + w ≤ items.length ∧
      List.Forall₂ Meets ((items.drop (i - d.linputs.length)).take d.linputs.length) d.linputs ∧
      List.Forall₂ Meets ((items.drop (i + w)).take d.rinputs.length) d.rinputs := by
  unfold execOp at h
  cases hd : opsList cfg sym with
  | none => rw [hd] at h; cases h
  | some d =>
    rw [hd] at h
    dsimp only at h
    split at h
    · cases h
    · rename_i h1
      split at h
      · cases h
      · rename_i h2
        refine ⟨d, rfl, by omega, by omega, ?_⟩
        generalize hg : gather sym item.index _ _ = g at h
        cases g with
        | error e => cases h
        | ok vs =>
          have l1 : ((items.drop (i - d.linputs.length)).take d.linputs.length).length = d.linputs.length := by
            simp; omega
          have l2 : ((items.drop (i + w)).take d.rinputs.length).length = d.rinputs.length := by
            simp; omega
          have := gather_ok (by simp only [List.length_append, l1, l2]) hg
          rw [List.forall₂_iff_zip] at this
          obtain ⟨-, hz⟩ := this
          rw [List.zip_append l1] at hz
          constructor
          · rw [List.forall₂_iff_zip]
            exact ⟨l1, fun {a b} hab => hz (List.mem_append_left _ hab)⟩
          · rw [List.forall₂_iff_zip]
            exact ⟨l2, fun {a b} hab => hz (List.mem_append_right _ hab)⟩

/-! Non-vacuity: `2 + 3 * 4 ^ 2` is a phrase of level 8 and has the value 50. -/

theorem reads_up {rows : List RowKind} {k : ℕ} {t : List (Tok V)} {v : V} (h : Reads rows f k t v) :
    ∀ j, Reads rows f (k + j) t v
  | 0 => h
  | j + 1 => .up (reads_up h j)

example : execute demo ([.val 2, .op "+", .val 3, .op "*", .val 4, .op "^", .val 2].map asSrc) () =
    (.ok 50, ()) := by
  refine C26_grammar (k := 8) demoF (fun _ => -1) (fun _ => none) (fun _ => none) (fun _ => false)
    (fun _ _ _ _ _ => rfl) (fun _ => rfl) (fun _ _ => rfl) ?_ ()
  have a : ∀ (k : ℕ) (z : ℤ), Reads documented demoF k [.val z] z := by
    intro k z
    have := reads_up (.atom z : Reads documented demoF 0 [.val z] z) k
    rwa [Nat.zero_add] at this
  have p : Reads documented demoF 1 ([.val 4] ++ .op "^" :: [.val 2]) 16 :=
    .left (k := 0) rfl (by simp) (a 1 4) (a 0 2) rfl
  have m : Reads documented demoF 7 ([.val 3] ++ .op "*" :: ([.val 4] ++ .op "^" :: [.val 2])) 48 :=
    .left (k := 6) rfl (by simp) (a 7 3) (reads_up p 5) rfl
  exact .left (k := 7) rfl (by simp) (a 8 2) m rfl

/-- `1 + 2`: the operator finds its operands. -/
example : ∃ items' s', execOp demo "+" [⟨.val 1, 0⟩, ⟨.op "+", 1⟩, ⟨.val 2, 2⟩] 1 ⟨.op "+", 1⟩ 1 () =
    (.ok items', s') := ⟨_, _, rfl⟩

/-- `1 then 2 + 3`, where the symbol after `2` is not `else`. -/
example : (execOp demo "then" [⟨.val 1, 0⟩, ⟨.op "then", 1⟩, ⟨.val 2, 2⟩, ⟨.op "+", 3⟩, ⟨.val 3, 4⟩] 1
    ⟨.op "then", 1⟩ 1 ()).1 = .error (.exec ⟨"Invalid symbol '+' for operator then", 3, false⟩) := rfl

end MC.Props
