import Verif.Lemmas.Escape
import Verif.Lemmas.Operation
import Mathlib.Tactic.IntervalCases

/-! # C58: which errors leave `calculate`; C31: functions and failed arguments -/

namespace MC.Props
open MC.Escape MC.Spec
set_option linter.unusedSectionVars false

section
variable {V σ : Type} (call : String → List V → Act σ V) (isUnit : V → Bool) (mkErr : ExecErr → V)
  (getErr : V → Option Raise) (funcs : String → Option (FuncDef V σ))

theorem shippedAll_then : ∀ e ∈ shippedAll, e.2.rinputs.length = 3 → e.1 = "then" := by
  decide +kernel

theorem shipped_joins : Joins (shipped call isUnit mkErr getErr funcs) "/" "UNIT_ASSIGNMENT"
    "UNIT_MULTIPLY" "UNIT_DIVIDE" "IMPLICIT_MULTIPLY" where
  units := C67_shipped call isUnit mkErr getErr funcs
  hasAssign := ⟨_, List.mem_of_getElem? (i := 4) rfl, rfl⟩
  hasMul := ⟨_, List.mem_of_getElem? (i := 3) rfl, rfl⟩
  hasJuxt := ⟨_, List.mem_of_getElem? (i := 5) rfl, rfl⟩
  symbols := by
    intro pre l post sym d h hsym hd
    obtain ⟨x, hx, rfl⟩ := shipped_op _ _ _ _ _ hd
    have hin := shippedAll_inputs _ hx
    by_cases h3 : x.rinputs.length = 3
    · right
      have hthen := shippedAll_then _ hx h3
      simp only at hthen
      subst hthen
      have hl : (shipped call isUnit mkErr getErr funcs).ops[pre.length]? = some l := by
        rw [h]; simp
      have hp : pre = (shipped call isUnit mkErr getErr funcs).ops.take pre.length := by
        rw [h]; simp
      have hlt : pre.length < 17 := by
        have : pre.length < (shipped call isUnit mkErr getErr funcs).ops.length := by rw [h]; simp
        exact this
      have h14 : pre.length = 14 := by
        generalize pre.length = k at hl hlt
        interval_cases k <;> first
          | rfl
          | (exfalso
             have := Option.some.inj hl
             subst this
             simp [Level.has, Level.entries] at hsym)
      rw [h14] at hp
      subst hp
      refine ⟨?_, ⟨_, List.mem_of_getElem? (i := 4) rfl, rfl⟩, ⟨_, List.mem_of_getElem? (i := 3) rfl, rfl⟩,
        ⟨_, List.mem_of_getElem? (i := 5) rfl, rfl⟩⟩
      rcases hin with hin | hin | hin | ⟨_, hin⟩
      · rw [hin.1] at h3; simp at h3
      · rw [hin.1] at h3; simp at h3
      · rw [hin.1] at h3; simp at h3
      · exact ⟨"else", hin.2, hin.1⟩
    · left
      simp only at hin
      rcases hin with hin | hin | hin | ⟨_, hin⟩
      · simp [Fixity.toOp, hin.1, hin.2]
      · simp [Fixity.toOp, hin.1, hin.2]
      · simp [Fixity.toOp, hin.1, hin.2]
      · rw [hin.1] at h3; simp at h3
end

section
variable {V σ A : Type} (cfg : Config V σ)

mutual
/-- The functions that are called exist: the parser makes a function call only from a known name
(`functions.py:45`). -/
def Known : Node A → Prop
  | .func name args => (cfg.funcs name).isSome ∧ KnownArgs args
  | .inner items => KnownAll items
  | .op _ => True
  | .skip _ => True
  | .atom _ => True
/-- In all the items. -/
def KnownAll : List (Node A) → Prop
  | [] => True
  | n :: ns => Known n ∧ KnownAll ns
/-- In all the arguments. -/
def KnownArgs : List (List (Node A)) → Prop
  | [] => True
  | a :: as => KnownAll a ∧ KnownArgs as
end

variable {cfg} {P : V → Prop} {Q : String → Prop} {divide assign mul div juxt : String}
  {atomVal : A → Act σ V}

section nodes
variable (hc : Consumes cfg) (hj : Joins cfg divide assign mul div juxt)
  (hmk : ∀ e, P (cfg.mkErr e)) (he : Errs cfg P Q)
  (hops : ∀ o d, opsList cfg o = some d → ∀ ins, (∀ v ∈ ins, P v) → Safe P Q (d.call ins))
  (hfuncs : ∀ n f, cfg.funcs n = some f → ∀ ins, (∀ v ∈ ins, P v) → Safe P Q (f.call ins))
  (hatoms : ∀ a, Safe P Q (atomVal a))
include hc hj hmk he hops hfuncs hatoms

mutual
theorem src_safe : ∀ (n : Node A) (r : Act σ V), Known cfg n →
    n.src cfg atomVal = some (.operand r) → Safe P Q r
  | .op s, r, _, h => by simp [Node.src] at h
  | .skip _, r, _, h => by simp [Node.src] at h
  | .atom a, r, _, h => by
    simp only [Node.src, Option.some.injEq, Src.operand.injEq] at h
    subst h; exact hatoms a
  | .inner items, r, hk, h => by
    simp only [Node.src, Option.some.injEq, Src.operand.injEq] at h
    subst h
    exact innerVal_safe he (execute_safe hc hj hmk hops (srcs_safe items hk))
  | .func name args, r, hk, h => by
    simp only [Node.src, Option.some.injEq, Src.operand.injEq] at h
    subst h
    obtain ⟨f, hf⟩ := Option.isSome_iff_exists.mp hk.1
    exact funcVal_safe he hf (hfuncs name f hf) (runs_safe args hk.2)
theorem srcs_safe : ∀ (ns : List (Node A)), KnownAll cfg ns → ∀ (r : Act σ V),
    Src.operand r ∈ Node.srcs cfg atomVal ns → Safe P Q r
  | [], _, r, h => by simp [Node.srcs] at h
  | n :: ns, hk, r, h => by
    rw [Node.srcs] at h
    cases hn : n.src cfg atomVal with
    | none => rw [hn] at h; exact srcs_safe ns hk.2 r h
    | some x =>
      rw [hn] at h
      rcases List.mem_cons.mp h with h | h
      · exact src_safe n r hk.1 (by rw [hn, h])
      · exact srcs_safe ns hk.2 r h
theorem runs_safe : ∀ (as : List (List (Node A))), KnownArgs cfg as → ∀ (r : Act σ V),
    r ∈ Node.runs cfg atomVal as → Safe P Q r
  | [], _, r, h => by simp [Node.runs] at h
  | a :: as, hk, r, h => by
    rw [Node.runs] at h
    rcases List.mem_cons.mp h with h | h
    · subst h; exact execute_safe hc hj hmk hops (srcs_safe a hk.1)
    · exact runs_safe as hk.2 r h
end

theorem calculate_safe {finalize : V → Act σ V} (hfin : ∀ v, P v → Safe P Q (finalize v)) :
    ∀ (sts : List (List (Node A))) (i : ℕ) (s : σ) (m : String), (∀ st ∈ sts, KnownAll cfg st) →
      (calculate cfg atomVal finalize i sts s).2.1 = .escaped m → Q m
  | [], i, s, m, _, h => by simp [calculate] at h
  | items :: rest, i, s, m, hk, h => by
    have hst : ∀ m, (stmt cfg atomVal finalize items s).1 = .error (.py m) → Q m := by
      intro m hm
      unfold stmt at hm
      split at hm
      · cases hm
      · have hs := execute_safe hc hj hmk hops
          (srcs_safe hc hj hmk he hops hfuncs hatoms items (hk items (by simp))) s
        unfold executeNodes at hm
        cases hr : execute cfg (Node.srcs cfg atomVal items) s with
        | mk res s' =>
          rw [hr] at hm hs
          cases res with
          | error e => cases hm; exact hs.2 _ rfl
          | ok v =>
            dsimp only at hm
            split at hm
            · rename_i e hg
              rcases he v e (hs.1 v rfl) hg with ⟨x, rfl⟩ | ⟨⟨a, b, rfl⟩, _⟩ <;> cases hm
            · have hf := hfin v (hs.1 v rfl) s'
              cases hr2 : finalize v s' with
              | mk res2 s'' =>
                rw [hr2] at hm hf
                cases res2 with
                | ok w => cases hm
                | error e => cases hm; exact hf.2 _ rfl
    rw [calculate] at h
    split at h
    · exact calculate_safe hfin rest _ _ m (fun st hst => hk st (by simp [hst])) h
    · cases h
    · cases h
    · rename_i m' s' hs
      cases h
      exact hst m (by rw [hs])
end nodes
end

section
variable {V σ A : Type} (call : String → List V → Act σ V) (isUnit : V → Bool) (mkErr : ExecErr → V)
  (getErr : V → Option Raise) (funcs : String → Option (FuncDef V σ)) (atomVal : A → Act σ V)
  (finalize : V → Act σ V)

/-- The action raises no exception of Python. -/
def Quiet (act : Act σ V) : Prop := ∀ s m, (act s).1 ≠ .error (.py m)

/-- **C58** (part: the engine): with the shipped operators, if literals, variables, operators,
functions and the final formatting raise only errors of the calculator, then so does `calculate`,
with one exception: a function argument whose value is an exception that is not an
`ExecuteException`. -/
theorem C58_engine_partial
    (hops : ∀ o ins, Quiet (call o ins)) (hatoms : ∀ a, Quiet (atomVal a))
    (hfuncs : ∀ n f, funcs n = some f → ∀ ins, Quiet (f.call ins))
    (hfin : ∀ v, Quiet (finalize v)) (hvals : ∀ v m, getErr v ≠ some (.py m))
    (sts : List (List (Node A)))
    (hk : ∀ st ∈ sts, KnownAll (shipped call isUnit mkErr getErr funcs) st) (s : σ) {m : String}
    (h : (calculate (shipped call isUnit mkErr getErr funcs) atomVal finalize 0 sts s).2.1
      = .escaped m) : m = "AttributeError: items" := by
  have safe : ∀ act : Act σ V, Quiet act →
      Safe (fun _ => True) (fun m => m = "AttributeError: items") act :=
    fun act hq s => ⟨fun _ _ => trivial, fun m hm => (hq s m hm).elim⟩
  refine calculate_safe (P := fun _ => True) (Q := fun m => m = "AttributeError: items")
    (shipped_consumes call isUnit mkErr getErr funcs) (shipped_joins call isUnit mkErr getErr funcs)
    (fun _ => trivial) ?_ ?_ ?_ (fun a => safe _ (hatoms a)) (fun v _ => safe _ (hfin v)) sts 0 s m hk h
  · intro v e _ hg
    cases e with
    | exec x => exact Or.inl ⟨x, rfl⟩
    | «calc» a b => exact Or.inr ⟨⟨a, b, rfl⟩, rfl⟩
    | py m => exact (hvals v m hg).elim
  · intro o d hd ins _
    obtain ⟨x, hx, rfl⟩ := shipped_op _ _ _ _ _ hd
    exact safe _ (hops o ins)
  · intro n f hf ins _
    exact safe _ (hfuncs n f hf ins)

/-- **C58** (part: the engine): if moreover every value that is an exception is an
`ExecuteException` (`Plain` is any property of values that says so and that operators, functions and
literals keep), then no exception of Python leaves `calculate`. -/
theorem C58_engine_plain_partial (Plain : V → Prop)
    (hplain : ∀ v e, Plain v → getErr v = some e → ∃ x, e = .exec x)
    (hmk : ∀ e, Plain (mkErr e))
    (hops : ∀ o ins, (∀ v ∈ ins, Plain v) → Quiet (call o ins) ∧
      ∀ s v s', call o ins s = (.ok v, s') → Plain v)
    (hfuncs : ∀ n f, funcs n = some f → ∀ ins, (∀ v ∈ ins, Plain v) → Quiet (f.call ins) ∧
      ∀ s v s', f.call ins s = (.ok v, s') → Plain v)
    (hatoms : ∀ a, Quiet (atomVal a) ∧ ∀ s v s', atomVal a s = (.ok v, s') → Plain v)
    (hfin : ∀ v, Plain v → Quiet (finalize v) ∧ ∀ s w s', finalize v s = (.ok w, s') → Plain w)
    (sts : List (List (Node A)))
    (hk : ∀ st ∈ sts, KnownAll (shipped call isUnit mkErr getErr funcs) st) (s : σ) (m : String) :
    (calculate (shipped call isUnit mkErr getErr funcs) atomVal finalize 0 sts s).2.1
      ≠ .escaped m := by
  have safe : ∀ act : Act σ V, (Quiet act ∧ ∀ s v s', act s = (.ok v, s') → Plain v) →
      Safe Plain (fun _ => False) act :=
    fun act hq s => ⟨fun v hv => hq.2 s v (act s).2 (by rw [← hv]), fun m hm => hq.1 s m hm⟩
  intro h
  refine calculate_safe (P := Plain) (Q := fun _ => False)
    (shipped_consumes call isUnit mkErr getErr funcs) (shipped_joins call isUnit mkErr getErr funcs)
    hmk ?_ ?_ ?_ (fun a => safe _ (hatoms a)) (fun v hv => safe _ (hfin v hv)) sts 0 s m hk h
  · intro v e hv hg
    exact Or.inl (hplain v e hv hg)
  · intro o d hd ins hins
    obtain ⟨x, hx, rfl⟩ := shipped_op _ _ _ _ _ hd
    exact safe _ (hops o ins hins)
  · intro n f hf ins hins
    exact safe _ (hfuncs n f hf ins hins)
end

/-! ## Operations -/

section
variable {S U R K σ : Type} {c : Calc S U R K} {op : Operation S U R σ}

/-- Every value can be written in a message. -/
def Shows (c : Calc S U R K) : Prop := ∀ x, ∃ t, c.toString x = .ok t

theorem showAll_ok (h : Shows c) : ∀ xs : List (Opd S U R), ∃ ts, showAll c xs = .ok ts
  | [] => ⟨[], rfl⟩
  | x :: xs => by
    obtain ⟨t, ht⟩ := h x
    obtain ⟨ts, hts⟩ := showAll_ok h xs
    exact ⟨t :: ts, by simp [showAll, ht, hts]⟩

theorem wrap_calc (h : Shows c) (xs : List (Opd S U R)) (e : Raise) :
    ∃ m b, wrap c op xs e = .calc m b := by
  obtain ⟨ts, hts⟩ := showAll_ok h xs
  unfold wrap wrap.named
  split
  · exact ⟨_, _, rfl⟩
  · rw [hts]; exact ⟨_, _, rfl⟩
  · rw [hts]; exact ⟨_, _, rfl⟩
  · rw [hts]; exact ⟨_, _, rfl⟩

theorem callScalar_calc (h : Shows c) (xs : List (Opd S U R)) (s : σ) {e : Raise}
    (he : (callScalar c op xs s).1 = .error e) : ∃ m b, e = .calc m b := by
  unfold callScalar at he
  split at he
  · cases he
  · split at he
    · cases he
    · cases he
      exact wrap_calc h xs _

theorem eachRow_calc {f : List (Opd S U R) → Act σ (Opd S U R)} (mk : ℕ → List (Opd S U R)) :
    ∀ (ks : List ℕ) (s : σ) (e : Raise),
      (∀ k ∈ ks, ∀ s e, (f (mk k) s).1 = .error e → ∃ m b, e = .calc m b) →
      (eachRow f mk ks s).1 = .error e → False
  | [], s, e, _, h => by simp [eachRow] at h
  | k :: ks, s, e, hf, h => by
    rw [eachRow] at h
    have h1 := hf k (by simp) s
    have hf' : ∀ j ∈ ks, ∀ s e, (f (mk j) s).1 = .error e → ∃ m b, e = .calc m b :=
      fun j hj => hf j (by simp [hj])
    split at h
    · rename_i m s' hr
      rw [hr] at h1
      obtain ⟨a, b, hh⟩ := h1 _ rfl
      cases hh
    · split at h
      · cases h
      · rename_i e' s'' hr
        exact eachRow_calc mk ks _ e' hf' (by rw [hr])
    · split at h
      · cases h
      · rename_i e' s'' hr
        exact eachRow_calc mk ks _ e' hf' (by rw [hr])

theorem eachCollected_calc {f : List (Opd S U R) → Act σ (Opd S U R)}
    (hf : ∀ xs s e, (f xs s).1 = .error e → ∃ m b, e = .calc m b) (mk : ℕ → List (Opd S U R)) :
    ∀ (ks : List ℕ) (s : σ) (e : Raise), (eachCollected f mk ks s).1 = .error e →
      ∃ m b, e = .calc m b
  | [], s, e, h => by simp [eachCollected] at h
  | k :: ks, s, e, h => by
    rw [eachCollected] at h
    have h1 := hf [Opd.pure (.arr (mk k))] s
    split at h
    · rename_i e' s' hr
      rw [hr] at h1
      cases h
      exact h1 _ rfl
    · split at h
      · cases h
        exact ⟨_, _, rfl⟩
      · split at h
        · cases h
        · rename_i e' s'' hr
          cases h
          exact eachCollected_calc hf mk ks _ _ (by rw [hr])

/-- What `call` does without fuel. -/
theorem callF_calc (h : Shows c) : ∀ (n : ℕ) (xs : List (Opd S U R)) (s : σ) (e : Raise),
    spreadDepth op 0 xs ≤ n → (callF c op n xs s).1 = .error e → ∃ m b, e = .calc m b
  | n, xs, s, e, hn, he => by
    rw [callF] at he
    cases hs : spreads op 0 xs with
    | cons l ls =>
      rw [hs] at he
      have hpos := spreadDepth_pos op xs 0 (by simp [hs])
      cases hl : sameLength (l :: ls) with
      | false =>
        simp only [hl, Bool.false_eq_true, if_false, Except.error.injEq] at he
        exact ⟨_, _, he.symm⟩
      | true =>
        obtain ⟨n, rfl⟩ : ∃ f', n = f' + 1 := ⟨n - 1, by omega⟩
        simp only [hl, if_true] at he
        split at he
        · cases he
        · rename_i e' s' hr
          refine (eachRow_calc (f := callF c op n) (fun k => row op k 0 xs) (List.range l.length) s e' ?_
            (by rw [hr])).elim
          intro k hk s e h1
          have hk' : ∀ m ∈ spreads op 0 xs, k < m.length := by
            intro m hm
            rw [hs] at hm
            rw [(sameLength_iff l ls).mp hl m hm]
            exact List.mem_range.mp hk
          have := spreadDepth_row op k xs 0 hk'
          exact callF_calc h n _ s e (by omega) h1
    | nil =>
      rw [hs] at he
      dsimp only at he
      split at he
      · split at he
        · split at he
          · exact callScalar_calc h _ s he
          · split at he
            · cases he
            · rename_i e' s' hr
              cases he
              exact eachCollected_calc (fun xs s e => callScalar_calc h xs s) _ _ s _ (by rw [hr])
        · cases he
          exact ⟨_, _, rfl⟩
      · exact callScalar_calc h _ s he

/-- **C58** (part: operations): whatever its implementation raises, an operator or a function
raises an error of the calculator, provided its inputs can be written in the message. -/
theorem C58_operation_partial (h : Shows c) (xs : List (Opd S U R)) (s : σ) {e : Raise}
    (he : (call c op xs s).1 = .error e) : ∃ m b, e = .calc m b :=
  callF_calc h _ xs s e (spreadDepth_le op xs 0) he
end

/-! ## C31: functions and failed arguments -/

section
variable {V σ : Type} {cfg : Config V σ}

/-- Evaluating the arguments from left to right gives these values and this state. -/
inductive Evaluates : List (Act σ V) → σ → List V → σ → Prop
  | nil (s : σ) : Evaluates [] s [] s
  | cons {run : Act σ V} {rest : List (Act σ V)} {s s' s'' : σ} {v : V} {vs : List V}
      (h : run s = (.ok v, s')) (t : Evaluates rest s' vs s'') :
      Evaluates (run :: rest) s (v :: vs) s''

theorem argVals_evaluates {b : Bool} {runs : List (Act σ V)} {s s' : σ} {vs : List V}
    (h : Evaluates runs s vs s') (hg : b = false → ∀ v ∈ vs, cfg.getErr v = none)
    (rest : List (Act σ V)) :
    argVals cfg b (runs ++ rest) s = match argVals cfg b rest s' with
      | (.ok ws, s'') => (.ok (vs ++ ws), s'')
      | (.error e, s'') => (.error e, s'') := by
  induction h with
  | nil s =>
    simp only [List.nil_append]
    rcases argVals cfg b rest s with ⟨_ | _, _⟩ <;> rfl
  | cons h t ih =>
    rename_i run rest' s s1 s2 v vs
    rw [List.cons_append, argVals, h]
    have hv : (if b then none else cfg.getErr v) = none := by
      cases b with
      | true => rfl
      | false => exact hg rfl v (by simp)
    simp only [hv]
    rw [ih (fun hb w hw => hg hb w (by simp [hw]))]
    rcases argVals cfg b rest s2 with ⟨_ | _, _⟩ <;> rfl

/-- **C31**: a function gets the values of its arguments, evaluated from left to right.  A function
that is not declared to take exceptions is not called when an argument is one: the error is
reported as the function's own, and later arguments are not evaluated. -/
theorem C31_arguments {name : String} {f : FuncDef V σ} (hf : cfg.funcs name = some f)
    {runs : List (Act σ V)} {s s' : σ} {vs : List V} (h : Evaluates runs s vs s') :
    (f.canBeExc = true ∨ (∀ v ∈ vs, cfg.getErr v = none) →
      funcVal cfg name runs s = f.call vs s') ∧
    (f.canBeExc = false → (∀ v ∈ vs, cfg.getErr v = none) →
      ∀ (run : Act σ V) (after : List (Act σ V)) (v : V) (e : Raise) (s'' : σ),
        run s' = (.ok v, s'') → cfg.getErr v = some e →
        ∃ e', funcVal cfg name (runs ++ run :: after) s = (.error e', s'') ∧
          ∀ x, e = .exec x → e' = .exec ⟨x.msg, 1, true⟩) := by
  constructor
  · intro hg
    have := argVals_evaluates (cfg := cfg) (b := f.canBeExc) h (fun hb => by
      rcases hg with hg | hg
      · rw [hg] at hb; cases hb
      · exact hg) []
    rw [List.append_nil] at this
    simp only [funcVal, hf, this, argVals, List.append_nil]
  · intro hb hg run after v e s'' hr he
    have := argVals_evaluates (cfg := cfg) (b := f.canBeExc) h (fun _ => hg) (run :: after)
    rw [argVals, hr] at this
    simp only [hb, Bool.false_eq_true, if_false, he] at this
    cases e with
    | exec x =>
      refine ⟨.exec ⟨x.msg, 1, true⟩, ?_, fun y hy => by cases hy; rfl⟩
      simp only [funcVal, hf, hb, this, rewrap]
    | «calc» a b =>
      refine ⟨.py "AttributeError: items", ?_, fun y hy => by cases hy⟩
      simp only [funcVal, hf, hb, this]
    | py m =>
      refine ⟨.py "AttributeError: items", ?_, fun y hy => by cases hy⟩
      simp only [funcVal, hf, hb, this]
end
end MC.Props
