import Verif.Lemmas.Engine5

/-!
# C26, C27: precedence and termination of evaluation
-/

namespace MC.Props
open MC MC.Spec

variable {V σ : Type} {cfg : Config V σ}
variable {f : String → List V → Except String V} {P : V → Prop}

/-- The items a tree is written as, before evaluation: its operands are literals. -/
def src (t : Tree V) : List (Src V σ) :=
  t.flat.map (fun it => match it.tok with
    | .op o => .op o
    | .val v => .operand (fun s => (.ok v, s)))

theorem execOperands_literals : ∀ (items : List (Item V)) (i : ℕ) (s : σ),
    items.map Item.index = List.range' i items.length →
    execOperands cfg i (items.map (fun it => match it.tok with
      | .op o => Src.op o
      | .val v => .operand (fun s => (.ok v, s)))) s = (.ok items, s)
  | [], i, s, _ => rfl
  | ⟨.op o, j⟩ :: rest, i, s, h => by
    simp only [List.map_cons, List.length_cons, List.range'_succ, List.cons.injEq] at h
    obtain ⟨rfl, h⟩ := h
    simp only [List.map_cons, execOperands, execOperands_literals rest _ s h]
  | ⟨.val v, j⟩ :: rest, i, s, h => by
    simp only [List.map_cons, List.length_cons, List.range'_succ, List.cons.injEq] at h
    obtain ⟨rfl, h⟩ := h
    simp only [List.map_cons, execOperands, execOperand, execOperands_literals rest _ s h]

/-- **C26.**  For every table and every expression tree that the table dictates (higher rows
bind tighter, operators of a row associate to the left, or to the right in right-to-left
rows), executing the items the tree is written as gives the value of the tree, or the error
value its operators produce with the position of the failing operator; the state is not
touched. -/
theorem C26_precedence (h : PlainTable cfg f P) (hc : Consumes cfg) (t : Tree V)
    (hd : t.Dictated (rowOf cfg) (rtlOf cfg)) (hs : t.Shaped (inputsOf cfg) cfg.implicitMul)
    (ha : t.All P) (hpos : t.flat.map Item.index = List.range t.flat.length) (s : σ) :
    execute cfg (src t) s = (.ok (t.eval f cfg.mkErr), s) := by
  have hx := executeF_eq hc (src t) s
  have hn : (src t : List (Src V σ)).length = t.flat.length := by simp [src]
  have hl1 := loop_tree h t.ops t ⟨hd, hs, ha⟩ (le_refl _) s
  obtain ⟨r, hl2⟩ := loop_ends hc t.flat.length t.flat s (le_refl _)
  have e1 := loop_mono (Nat.le_max_left t.ops t.flat.length) hl1
  have e2 := loop_mono (Nat.le_max_right t.ops t.flat.length) hl2
  rw [e1] at e2; injection e2 with e2; subst e2
  have he : execOperands cfg 0 (src t) s = (.ok t.flat, s) :=
    execOperands_literals t.flat 0 s (by rw [hpos, List.range_eq_range'])
  have hne : (src t : List (Src V σ)) ≠ [] := by
    intro h0
    rw [h0] at hn
    have : t.flat.length ≠ 0 := by
      have hcon : ∀ t : Tree V, t.flat.length ≠ 0 := by
        intro t
        induction t using Tree.rec (motive_2 := fun _ => True) (motive_3 := fun _ => True) with
        | leaf => simp [Tree.flat]
        | app => simp [Tree.flat]
        | juxt s l r h1 h2 => simp only [Tree.flat, List.length_append]; omega
        | _ => trivial
      exact hcon t
    simp at hn; simp [hn] at this
  have : executeF cfg (src t : List (Src V σ)).length (src t) s
      = some (.ok (t.eval f cfg.mkErr), s) := by
    unfold executeF
    split
    · rename_i h0; exact absurd h0 hne
    · rw [he]; simp only; rw [hn]; exact hl2
  rw [this] at hx; injection hx with hx; exact hx.symm

/-! ### Every alternating sequence has a dictated tree -/

/-- `a₀ op₁ a₁ op₂ a₂ …`, with positions. -/
def chain (i : ℕ) (v : V) : List ((ℕ × String) × (ℕ × V)) → List (Item V)
  | [] => [⟨.val v, i⟩]
  | ((j, o), (k, w)) :: rest => ⟨.val v, i⟩ :: ⟨.op o, j⟩ :: chain k w rest

/-- An operator written between two operands. -/
def IsInfix (cfg : Config V σ) (o : String) : Prop :=
  inputsOf cfg o = some ([none], [none]) ∧ ∃ k, rowOf cfg o = some k

/-- The tree of a chain read so far, extended by an operator and an operand on its right. -/
noncomputable def insertRight (cfg : Config V σ) (j : ℕ) (o : String) (leafNew : Tree V) :
    Tree V → Tree V
  | .app i op l (.arg r .nil) =>
    open Classical in
    if ∃ k, rowOf cfg o = some k ∧
        (Tree.app i op l (.arg r .nil)).FitsLeft (rowOf cfg) (rtlOf cfg) k
    then .app j o (.some (.app i op l (.arg r .nil))) (.arg leafNew .nil)
    else .app i op l (.arg (insertRight cfg j o leafNew r) .nil)
  | t => .app j o (.some t) (.arg leafNew .nil)

/-- Infix trees. -/
def InfixTree (cfg : Config V σ) : Tree V → Prop
  | .leaf _ _ => True
  | .app _ op (.some l) (.arg r .nil) => IsInfix cfg op ∧ InfixTree cfg l ∧ InfixTree cfg r
  | _ => False

theorem insertRight_flat (j : ℕ) (o : String) (k : ℕ) (w : V) : ∀ t : Tree V,
    (insertRight cfg j o (.leaf k w) t).flat = t.flat ++ [⟨.op o, j⟩, ⟨.val w, k⟩]
  | .leaf _ _ => by simp [insertRight, Tree.flat, Left.flat, Rights.flat]
  | .juxt _ _ _ => by simp [insertRight, Tree.flat, Left.flat, Rights.flat]
  | .app i op l .nil => by simp [insertRight, Tree.flat, Left.flat, Rights.flat]
  | .app i op l (.sym _ _ _) => by simp [insertRight, Tree.flat, Left.flat, Rights.flat]
  | .app i op l (.arg _ (.arg _ _)) => by
    simp [insertRight, Tree.flat, Left.flat, Rights.flat]
  | .app i op l (.arg _ (.sym _ _ _)) => by
    simp [insertRight, Tree.flat, Left.flat, Rights.flat]
  | .app i op l (.arg r .nil) => by
    unfold insertRight
    split
    · simp [Tree.flat, Left.flat, Rights.flat]
    · simp [Tree.flat, Rights.flat, insertRight_flat j o k w r]

theorem infixTree_shaped : ∀ t : Tree V, InfixTree cfg t →
    t.Shaped (inputsOf cfg) cfg.implicitMul
  | .leaf _ _, _ => by simp [Tree.Shaped]
  | .juxt _ _ _, h => by simp [InfixTree] at h
  | .app _ _ .none _, h => by simp [InfixTree] at h
  | .app _ _ (.some _) .nil, h => by simp [InfixTree] at h
  | .app _ _ (.some _) (.sym _ _ _), h => by simp [InfixTree] at h
  | .app _ _ (.some _) (.arg _ (.arg _ _)), h => by simp [InfixTree] at h
  | .app _ _ (.some _) (.arg _ (.sym _ _ _)), h => by simp [InfixTree] at h
  | .app _ op (.some l) (.arg r .nil), h => by
    simp only [InfixTree] at h
    simp only [Tree.Shaped, Left.Shaped, Rights.Shaped]
    exact ⟨[none], [none], h.1.1, ⟨rfl, infixTree_shaped l h.2.1⟩, [], rfl,
      infixTree_shaped r h.2.2, rfl⟩

theorem insertRight_good (j : ℕ) {o : String} (k : ℕ) (w : V) (ho : IsInfix cfg o) :
    ∀ t : Tree V, InfixTree cfg t → t.Dictated (rowOf cfg) (rtlOf cfg) →
    InfixTree cfg (insertRight cfg j o (.leaf k w) t) ∧
    (insertRight cfg j o (.leaf k w) t).Dictated (rowOf cfg) (rtlOf cfg) ∧
    (∀ p, t.RootIn (rowOf cfg) p → (∀ m, rowOf cfg o = some m → p m) →
      (insertRight cfg j o (.leaf k w) t).RootIn (rowOf cfg) p)
  | .leaf i v, _, _ => by
    obtain ⟨m, hm⟩ := ho.2
    refine ⟨?_, ?_, ?_⟩
    · simp only [insertRight, InfixTree]; exact ⟨ho, trivial, trivial⟩
    · simp only [insertRight, Tree.Dictated, Left.Dictated, Rights.Dictated, Tree.FitsLeft,
        Tree.FitsRight, Tree.RootIn]
      exact ⟨m, hm, ⟨trivial, trivial⟩, trivial, trivial, trivial⟩
    · intro p _ hp; simp only [insertRight, Tree.RootIn]; exact ⟨m, hm, hp m hm⟩
  | .juxt _ _ _, h, _ => by simp [InfixTree] at h
  | .app _ _ .none _, h, _ => by simp [InfixTree] at h
  | .app _ _ (.some _) .nil, h, _ => by simp [InfixTree] at h
  | .app _ _ (.some _) (.sym _ _ _), h, _ => by simp [InfixTree] at h
  | .app _ _ (.some _) (.arg _ (.arg _ _)), h, _ => by simp [InfixTree] at h
  | .app _ _ (.some _) (.arg _ (.sym _ _ _)), h, _ => by simp [InfixTree] at h
  | .app i op (.some l) (.arg r .nil), h, hd => by
    obtain ⟨m, hm⟩ := ho.2
    unfold insertRight
    split
    · rename_i hfit
      obtain ⟨m', hm', hfit⟩ := hfit
      rw [hm] at hm'; injection hm' with e; subst e
      refine ⟨?_, ?_, ?_⟩
      · simp only [InfixTree] at h ⊢; exact ⟨ho, h, trivial⟩
      · rw [Tree.Dictated]
        refine ⟨m, hm, ?_, ?_⟩
        · simp only [Left.Dictated]; exact ⟨hd, hfit⟩
        · simp only [Rights.Dictated, Tree.Dictated, Tree.FitsRight, Tree.RootIn]
          exact ⟨trivial, trivial, trivial⟩
      · intro p _ hp; simp only [Tree.RootIn]; exact ⟨m, hm, hp m hm⟩
    · rename_i hfit
      simp only [InfixTree] at h
      simp only [Tree.Dictated, Left.Dictated, Rights.Dictated] at hd
      obtain ⟨q, hq, hl, hr, hrf, _⟩ := hd
      obtain ⟨h1, h2, h3⟩ := insertRight_good j k w ho r h.2.2 hr
      refine ⟨?_, ?_, ?_⟩
      · simp only [InfixTree]; exact ⟨h.1, h.2.1, h1⟩
      · simp only [Tree.Dictated, Left.Dictated, Rights.Dictated]
        refine ⟨q, hq, hl, h2, h3 _ hrf ?_, trivial⟩
        intro m' hm'
        rw [hm] at hm'; injection hm' with e; subst e
        -- the new operator does not fit above `op`, so it binds tighter than `op`
        have hno : ¬ (if rtlOf cfg m then q < m else q ≤ m) := by
          intro hh
          exact hfit ⟨m, hm, by unfold Tree.FitsLeft Tree.RootIn; exact ⟨q, hq, hh⟩⟩
        by_cases e : q = m
        · subst e
          cases hr : rtlOf cfg q <;> simp [hr] at hno ⊢
        · split at hno <;> split <;> omega
      · intro p hp _; simpa only [Tree.RootIn] using hp

/-- Trees for chains, extending a tree already built. -/
theorem chain_tree_aux : ∀ (rest : List ((ℕ × String) × (ℕ × V))) (t : Tree V),
    InfixTree cfg t → t.Dictated (rowOf cfg) (rtlOf cfg) →
    (∀ e ∈ rest, IsInfix cfg e.1.2) →
    ∃ t' : Tree V, InfixTree cfg t' ∧ t'.Dictated (rowOf cfg) (rtlOf cfg) ∧
      t'.flat = t.flat ++ rest.flatMap (fun e => [⟨.op e.1.2, e.1.1⟩, ⟨.val e.2.2, e.2.1⟩])
  | [], t, h1, h2, _ => ⟨t, h1, h2, by simp⟩
  | ((j, o), (k, w)) :: rest, t, h1, h2, hi => by
    have ho : IsInfix cfg o := hi _ (List.mem_cons_self ..)
    obtain ⟨g1, g2, _⟩ := insertRight_good j k w ho t h1 h2
    obtain ⟨t', a, b, c⟩ := chain_tree_aux rest _ g1 g2
      (fun e he => hi e (List.mem_cons_of_mem _ he))
    refine ⟨t', a, b, ?_⟩
    rw [c, insertRight_flat]
    simp

theorem chain_eq (i : ℕ) (v : V) : ∀ rest : List ((ℕ × String) × (ℕ × V)),
    chain i v rest = [⟨.val v, i⟩] ++
      rest.flatMap (fun e => [⟨.op e.1.2, e.1.1⟩, ⟨.val e.2.2, e.2.1⟩])
  | [] => rfl
  | ((j, o), (k, w)) :: rest => by
    simp only [chain, chain_eq k w rest, List.flatMap_cons]; rfl

/-- **C26**, existence: every sequence of operands with infix operators of the table between
them is the written form of a tree that the table dictates, whatever the rows and their
directions; so `C26_precedence` says what every such sequence evaluates to. -/
theorem C26_tree_exists (i : ℕ) (v : V) (rest : List ((ℕ × String) × (ℕ × V)))
    (hi : ∀ e ∈ rest, IsInfix cfg e.1.2) :
    ∃ t : Tree V, t.flat = chain i v rest ∧ t.Dictated (rowOf cfg) (rtlOf cfg) ∧
      t.Shaped (inputsOf cfg) cfg.implicitMul := by
  obtain ⟨t, h1, h2, h3⟩ := chain_tree_aux (cfg := cfg) rest (.leaf i v)
    (by simp [InfixTree]) (by simp [Tree.Dictated]) hi
  refine ⟨t, ?_, h2, infixTree_shaped t h1⟩
  rw [h3, chain_eq]; rfl

/-- **C26**, uniqueness: two trees that the table dictates and that are written the same way
have the same value. -/
theorem C26_unambiguous (h : PlainTable cfg f P) (t u : Tree V)
    (hd : t.Dictated (rowOf cfg) (rtlOf cfg)) (hs : t.Shaped (inputsOf cfg) cfg.implicitMul)
    (ha : t.All P) (hd' : u.Dictated (rowOf cfg) (rtlOf cfg))
    (hs' : u.Shaped (inputsOf cfg) cfg.implicitMul) (ha' : u.All P) (he : t.flat = u.flat)
    [Nonempty σ] : t.eval f cfg.mkErr = u.eval f cfg.mkErr := by
  obtain ⟨s⟩ := ‹Nonempty σ›
  have e1 := loop_mono (Nat.le_max_left t.ops u.ops)
    (loop_tree h t.ops t ⟨hd, hs, ha⟩ (le_refl _) s)
  have e2 := loop_mono (Nat.le_max_right t.ops u.ops)
    (loop_tree h u.ops u ⟨hd', hs', ha'⟩ (le_refl _) s)
  rw [he, e2] at e1
  simp only [Option.some.injEq, Prod.mk.injEq, Except.ok.injEq] at e1
  exact e1.1.symm

/-! ### The shipped table -/

/-- All entries of the shipped table. -/
def shippedAll : List (String × Fixity) := shippedRows.flatMap (fun r => r.1 :: r.2)

theorem lookup_mem {α : Type} {s : String} {d : α} : ∀ {l : List (String × α)},
    l.lookup s = some d → (s, d) ∈ l
  | [], h => by cases h
  | (a, b) :: l, h => by
    rw [List.lookup_cons] at h
    split at h
    · rename_i he
      injection h with h; subst h
      rw [beq_iff_eq.mp he]; exact List.mem_cons_self ..
    · exact List.mem_cons_of_mem _ (lookup_mem h)

theorem shipped_entries (call : String → List V → Act σ V) (isUnit : V → Bool)
    (mkErr : ExecErr → V) (getErr : V → Option Raise)
    (funcs : String → Option (FuncDef V σ)) :
    (shipped call isUnit mkErr getErr funcs).ops.flatMap Level.entries
      = shippedAll.map (fun e => (e.1, e.2.toOp (call e.1))) := by
  simp only [shipped, shippedAll, List.flatMap_map, List.map_flatMap]
  rfl

theorem shipped_op (call : String → List V → Act σ V) (isUnit : V → Bool)
    (mkErr : ExecErr → V) (getErr : V → Option Raise)
    (funcs : String → Option (FuncDef V σ)) {s : String} {d : OpDef V σ}
    (h : opsList (shipped call isUnit mkErr getErr funcs) s = some d) :
    ∃ x, (s, x) ∈ shippedAll ∧ d = x.toOp (call s) := by
  unfold opsList at h
  have := lookup_mem h
  rw [List.mem_reverse, shipped_entries] at this
  obtain ⟨⟨a, x⟩, hm, he⟩ := List.mem_map.mp this
  simp only [Prod.mk.injEq] at he
  obtain ⟨rfl, rfl⟩ := he
  exact ⟨x, hm, rfl⟩

theorem shippedAll_inputs : ∀ e ∈ shippedAll,
    (e.2.rinputs = [none] ∧ e.2.linputs = [none]) ∨ (e.2.rinputs = [none] ∧ e.2.linputs = [])
    ∨ (e.2.rinputs = [] ∧ e.2.linputs = [none])
    ∨ (e.1 = "then" ∧ e.2.rinputs = [none, some "else", none] ∧ e.2.linputs = [none]) := by
  decide +kernel

theorem shippedAll_nodup : (shippedAll.map Prod.fst).Nodup := by decide +kernel

theorem shippedAll_hidden : ∀ e ∈ shippedAll,
    e.1 ∈ ["IMPLICIT_MULTIPLY", "UNIT_ASSIGNMENT", "UNIT_MULTIPLY", "UNIT_DIVIDE"] →
    e.2.rinputs = [none] ∧ e.2.linputs = [none] := by decide +kernel

/-- The shipped table meets the hypotheses of `C26_precedence`, whatever its operators
compute. -/
theorem shipped_plain (f : String → List V → Except String V) (P : V → Prop)
    (isUnit : V → Bool) (mkErr : ExecErr → V) (getErr : V → Option Raise)
    (funcs : String → Option (FuncDef V σ))
    (hcl : ∀ s ins v, (∀ x ∈ ins, P x) → f s ins = .ok v → P v) (he : ∀ e, P (mkErr e))
    (hu : ∀ v, P v → isUnit v = false) :
    PlainTable (shipped (fun s ins st => ((f s ins).mapError (fun m => Raise.calc m), st)) isUnit mkErr
      getErr funcs) f P where
  nodup := by
    rw [shipped_entries, List.map_map]
    exact shippedAll_nodup
  sem := by
    intro s d hd ins st _
    obtain ⟨x, _, rfl⟩ := shipped_op _ _ _ _ _ hd
    rfl
  closed := hcl
  err := he
  notUnit := hu
  syms := by
    intro s d hd y hy
    obtain ⟨x, hx, rfl⟩ := shipped_op _ _ _ _ _ hd
    have : y = "else" := by
      rcases shippedAll_inputs _ hx with h | h | h | h <;> simp only at h <;>
        simp [Fixity.toOp, h] at hy
      exact hy
    subst this
    unfold rowOf
    rw [List.findIdx?_eq_none_iff]
    intro l hl
    cases hh : l.has "else" with
    | false => rfl
    | true =>
      exfalso
      obtain ⟨d, hd⟩ := (Level.has_iff _ _).mp hh
      have : ("else", d) ∈ ((shipped (fun s ins st => ((f s ins).mapError (fun m => Raise.calc m), st)) isUnit
        mkErr getErr funcs : Config V σ).ops.flatMap Level.entries) :=
        List.mem_flatMap.mpr ⟨l, hl, hd⟩
      rw [shipped_entries] at this
      obtain ⟨⟨a, x⟩, hm, he⟩ := List.mem_map.mp this
      simp only [Prod.mk.injEq] at he
      have : a ≠ "else" := by
        have : ∀ e ∈ shippedAll, e.1 ≠ "else" := by decide +kernel
        exact this _ hm
      exact this he.1
  apart := by
    intro s d hd
    obtain ⟨x, hx, rfl⟩ := shipped_op _ _ _ _ _ hd
    rcases shippedAll_inputs _ hx with h | h | h | h <;> simp only at h <;>
      simp [Fixity.toOp, h]
  juxt := by
    intro s d hj hd
    obtain ⟨x, hx, rfl⟩ := shipped_op _ _ _ _ _ hd
    have : s = "IMPLICIT_MULTIPLY" := by simpa [shipped] using hj.symm
    subst this
    have := shippedAll_hidden _ hx (by simp)
    exact ⟨this.2, this.1⟩

theorem shipped_consumes (call : String → List V → Act σ V)
    (isUnit : V → Bool) (mkErr : ExecErr → V) (getErr : V → Option Raise)
    (funcs : String → Option (FuncDef V σ)) :
    Consumes (shipped call isUnit mkErr getErr funcs) := by
  constructor
  · intro s d hd
    obtain ⟨x, hx, rfl⟩ := shipped_op _ _ _ _ _ hd
    rcases shippedAll_inputs _ hx with h | h | h | h <;> simp only at h <;>
      simp [Fixity.toOp, h]
  · intro s d hs hd
    obtain ⟨x, hx, rfl⟩ := shipped_op _ _ _ _ _ hd
    have : s ∈ ["IMPLICIT_MULTIPLY", "UNIT_ASSIGNMENT", "UNIT_MULTIPLY", "UNIT_DIVIDE"] := by
      simp only [shipped, List.mem_cons, Option.some.injEq, List.not_mem_nil, or_false] at hs ⊢
      tauto
    have := shippedAll_hidden _ hx this
    simp only at this
    simp [Fixity.toOp, this.1, this.2]

/-- **C26** for the shipped table: no table hypotheses are left. -/
theorem C26_shipped (f : String → List V → Except String V) (mkErr : ExecErr → V)
    (getErr : V → Option Raise) (funcs : String → Option (FuncDef V σ)) (isUnit : V → Bool)
    (hcl : ∀ s ins v, (∀ x ∈ ins, isUnit x = false) → f s ins = .ok v → isUnit v = false)
    (he : ∀ e, isUnit (mkErr e) = false) (t : Tree V) :
    let cfg : Config V σ := shipped (fun s ins st => ((f s ins).mapError (fun m => Raise.calc m), st)) isUnit
      mkErr getErr funcs
    t.Dictated (rowOf cfg) (rtlOf cfg) → t.Shaped (inputsOf cfg) (some "IMPLICIT_MULTIPLY") →
    t.All (fun v => isUnit v = false) →
    t.flat.map Item.index = List.range t.flat.length →
    ∀ s, execute cfg (src t) s = (.ok (t.eval f mkErr), s) := by
  intro cfg hd hs ha hpos s
  exact C26_precedence (shipped_plain f _ isUnit mkErr getErr funcs hcl he (fun _ h => h))
    (shipped_consumes _ _ _ _ _) t hd hs ha hpos s

/-! Non-vacuity: `2 + 3 * 4 ^ 2 2` with the shipped table. -/

/-- Integers with a few operators. -/
def demoF (s : String) (ins : List ℤ) : Except String ℤ :=
  match s, ins with
  | "+", [a, b] => .ok (a + b)
  | "*", [a, b] => .ok (a * b)
  | "IMPLICIT_MULTIPLY", [a, b] => .ok (a * b)
  | "^", [a, b] => if 0 ≤ b then .ok (a ^ b.toNat) else .error "negative power"
  | _, _ => .error "no such operator"

def demo : Config ℤ Unit :=
  shipped (fun s ins st => ((demoF s ins).mapError (fun m => Raise.calc m), st)) (fun _ => false)
    (fun _ => -1) (fun _ => none) (fun _ => none)

def demoTree : Tree ℤ :=
  .app 1 "+" (.some (.leaf 0 2)) (.arg
    (.app 3 "*" (.some (.leaf 2 3)) (.arg
      (.juxt "IMPLICIT_MULTIPLY"
        (.app 5 "^" (.some (.leaf 4 4)) (.arg (.leaf 6 2) .nil)) (.leaf 7 2)) .nil)) .nil)

example : execute demo (src demoTree) () = (.ok 98, ()) := by
  refine C26_shipped demoF (fun _ => -1) (fun _ => none) (fun _ => none) (fun _ => false)
    (fun _ _ _ _ _ => rfl) (fun _ => rfl) demoTree ?_ ?_ ?_ ?_ ()
  · simp only [demoTree, Tree.Dictated, Left.Dictated, Rights.Dictated, Tree.FitsLeft,
      Tree.FitsRight, Tree.RootIn]
    exact ⟨7, by decide +kernel, ⟨trivial, trivial⟩,
      ⟨6, by decide +kernel, ⟨trivial, trivial⟩,
        ⟨5, by decide +kernel, ⟨0, by decide +kernel, ⟨trivial, trivial⟩, trivial, trivial,
            trivial⟩, trivial, ⟨0, by decide +kernel, by decide +kernel⟩, trivial⟩,
        ⟨5, by decide +kernel, by decide +kernel⟩, trivial⟩,
      ⟨6, by decide +kernel, by decide +kernel⟩, trivial⟩
  · simp only [demoTree, Tree.Shaped, Left.Shaped, Rights.Shaped]
    exact ⟨[none], [none], by decide +kernel, ⟨rfl, trivial⟩, [], rfl,
      ⟨[none], [none], by decide +kernel, ⟨rfl, trivial⟩, [], rfl,
        ⟨trivial, ⟨[none], [none], by decide +kernel, ⟨rfl, trivial⟩, [], rfl, trivial, rfl⟩,
          trivial⟩, rfl⟩, rfl⟩
  · simp [demoTree, Tree.All, Left.All, Rights.All]
  · decide +kernel

example : IsInfix demo "*" := ⟨by decide +kernel, 6, by decide +kernel⟩

/-! ## C27 -/

/-- `n` turns of the loop, none of which raises. -/
inductive Turns (cfg : Config V σ) : ℕ → List (Item V) → σ → List (Item V) → σ → Prop
  | zero (items : List (Item V)) (s : σ) : Turns cfg 0 items s items s
  | succ {n : ℕ} {items items' items'' : List (Item V)} {s s' s'' : σ}
      {act : Act σ (List (Item V))} (h : step cfg items = some act)
      (ha : act s = (.ok items', s')) (ht : Turns cfg n items' s' items'' s'') :
      Turns cfg (n + 1) items s items'' s''

/-- **C27.**  The number of operator applications plus the number of items left never exceeds
the number of items at the start. -/
theorem C27_bound (hc : Consumes cfg) {n : ℕ} {items items' : List (Item V)} {s s' : σ}
    (h : Turns cfg n items s items' s') : n + items'.length ≤ items.length := by
  induction h with
  | zero => omega
  | succ h ha ht ih =>
    have := (step_shorter hc h ha).1
    omega

/-- **C27.**  Evaluation of any list of items, in any state, ends: the loop needs no more
operator applications than there are items, and allowing more changes nothing. -/
theorem C27_finishes (hc : Consumes cfg) (items : List (Src V σ)) (s : σ) (fuel : ℕ)
    (hf : items.length ≤ fuel) :
    executeF cfg fuel items s = some (execute cfg items s) := by
  have h := executeF_eq hc items s
  unfold executeF at h ⊢
  split
  · exact h
  · rename_i hne
    simp only at h
    cases he : execOperands cfg 0 items s with
    | mk res s' =>
      rw [he] at h
      cases res with
      | error e => exact h
      | ok its => exact loop_mono hf h

theorem loop_one : ∀ {n : ℕ} {items : List (Item V)} {s s' : σ} {v : V},
    loop cfg n items s = some (.ok v, s') →
    ∃ m i, m ≤ n ∧ Turns cfg m items s [⟨.val v, i⟩] s'
      ∧ step cfg [(⟨.val v, i⟩ : Item V)] = none
  | n, items, s, s', v, h => by
    unfold loop at h
    cases hs : step cfg items with
    | none =>
      rw [hs] at h
      simp only [Option.some.injEq, Prod.mk.injEq] at h
      obtain ⟨h1, rfl⟩ := h
      unfold finish at h1
      split at h1
      · cases h1
      · rename_i it
        obtain ⟨tok, i⟩ := it
        simp only at h1
        split at h1
        · cases h1
        · injection h1 with h1; subst h1
          exact ⟨0, i, Nat.zero_le _, Turns.zero _ _, hs⟩
      · split at h1
        · split at h1 <;> cases h1
        · cases h1
    | some act =>
      rw [hs] at h
      cases n with
      | zero => cases h
      | succ n =>
        simp only at h
        cases ha : act s with
        | mk res s1 =>
          rw [ha] at h
          cases res with
          | error e => simp at h
          | ok its =>
            obtain ⟨m, i, hm, ht, hz⟩ := loop_one h
            exact ⟨m + 1, i, by omega, Turns.succ hs ha ht, hz⟩

/-- **C27.**  When evaluation gives a value, the loop stopped with exactly that one item
left, after fewer operator applications than there were items. -/
theorem C27_one_result (hc : Consumes cfg) {items : List (Src V σ)} {s s' : σ} {v : V}
    (h : execute cfg items s = (.ok v, s')) :
    ∃ its s1 n i, execOperands cfg 0 items s = (.ok its, s1) ∧
      Turns cfg n its s1 [⟨.val v, i⟩] s' ∧ step cfg [(⟨.val v, i⟩ : Item V)] = none ∧
      n < items.length := by
  have hx := executeF_eq hc items s
  rw [h] at hx
  unfold executeF at hx
  split at hx
  · cases hx
  · cases he : execOperands cfg 0 items s with
    | mk res s1 =>
      rw [he] at hx
      cases res with
      | error e => simp at hx
      | ok its =>
        obtain ⟨n, i, _, ht, hz⟩ := loop_one hx
        have hb := C27_bound hc ht
        have hl := execOperands_length items 0 s s1 its he
        exact ⟨its, s1, n, i, rfl, ht, hz, by simp at hb; omega⟩

example : Consumes demo := shipped_consumes _ _ _ _ _

/-- Without the hypothesis the loop need not end: an invisible operator that consumes one
item only. -/
def stuck : Config Unit Unit where
  ops := [⟨("J", ⟨[none], [], false, fun _ s => (.ok (), s)⟩), []⟩]
  divideOp := none
  implicitMul := some "J"
  unitAssign := none
  unitMul := none
  unitDiv := none
  isUnit := fun _ => false
  mkErr := fun _ => ()
  getErr := fun _ => none
  funcs := fun _ => none

example : ¬ Consumes stuck := fun h => by
  have := h.1
  have := h.2 "J" ⟨[none], [], false, fun _ s => (.ok (), s)⟩ (by simp [stuck]) rfl
  simp at this

end MC.Props
