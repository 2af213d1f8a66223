import Verif.Model.Pointer
import Verif.Spec.Functions
import Verif.Props.Program

/-! # C82: functions written in a program compute what they say -/

namespace MC.Props
open MC MC.Spec MC.Numerical MC.Numeric MC.Arrays MC.Boolean MC.Number MC.State
open MC.Strings (Texts HasStrings ReadsAs IsString IsInt)
open MC.Parse (Kind Text Cache shippedCfg)
open MC.Parse.Spec (IsVar IsName)
set_option linter.unusedSectionVars false

section
variable {V σ : Type} {atomVal : Parse.Item → Act σ V}

/-- Items that do nothing are skipped. -/
theorem srcs_filter (cfg : Config V σ) : ∀ its : List Parse.Item,
    Node.srcs cfg atomVal (toNodes its) = Node.srcs cfg atomVal (toNodes (its.filter Parse.Item.functional))
  | [] => rfl
  | it :: its => by
    rw [List.filter_cons]
    split
    · rw [toNodes, toNodes, Node.srcs, Node.srcs, srcs_filter cfg its]
    · rename_i h
      have : toNode it = .skip (String.ofList it.text) := by
        cases it with
        | nest k t its => simp [Parse.Item.functional] at h
        | leaf k t => cases k <;> first
          | (simp [toNode, Parse.Item.functional, Parse.Item.text]; done)
          | (simp [Parse.Item.functional] at h)
      rw [toNodes, this, Node.srcs, Node.src]
      exact srcs_filter cfg its

theorem executeNodes_filter (cfg : Config V σ) {a b : List Parse.Item}
    (h : a.filter Parse.Item.functional = b.filter Parse.Item.functional) :
    executeNodes cfg atomVal (toNodes a) = executeNodes cfg atomVal (toNodes b) := by
  unfold executeNodes
  rw [srcs_filter cfg a, srcs_filter cfg b, h]

theorem any_functional {a b : List Parse.Item}
    (h : a.filter Parse.Item.functional = b.filter Parse.Item.functional) :
    a.any Parse.Item.functional = b.any Parse.Item.functional := by
  have key : ∀ l : List Parse.Item, l.any Parse.Item.functional = !(l.filter Parse.Item.functional).isEmpty := by
    intro l
    induction l with
    | nil => rfl
    | cons x l ih =>
      rw [List.any_cons, List.filter_cons, ih]
      cases x.functional <;> simp
  rw [key, key, h]

/-- The statements of a body are its lines, with the braces. -/
def SameLine (a b : List Parse.Item) : Prop := a.filter Parse.Item.functional = b.filter Parse.Item.functional

theorem split_noTerm {its : List Parse.Item} (h : ∀ t, Parse.Item.leaf .terminator t ∉ its) :
    (splitStatements its = [its]) ∧ ∀ t rest, splitStatements (its ++ .leaf .terminator t :: rest)
      = its :: splitStatements rest := by
  induction its with
  | nil => exact ⟨rfl, fun t rest => by simp [splitStatements, isTerminator]⟩
  | cons it its ih =>
    obtain ⟨h1, h2⟩ := ih (fun t ht => h t (by simp [ht]))
    have hn : isTerminator it = false := by
      cases it with
      | nest => rfl
      | leaf k t =>
        cases k <;> first
          | rfl
          | exact absurd (List.mem_cons_self ..) (h t)
    refine ⟨by rw [splitStatements, hn, h1]; rfl, fun t rest => ?_⟩
    rw [List.cons_append, splitStatements, hn, h2]
    rfl

theorem splits_end {body : List Parse.Item} {lines : List (List Parse.Item)} (h : Splits body lines) :
    List.Forall₂ SameLine (splitStatements (body ++ [.leaf .inlineEnd ['}']])) lines := by
  induction h with
  | @last its h =>
    have := (split_noTerm (its := its ++ [.leaf .inlineEnd ['}']]) (by
      intro t ht
      rcases List.mem_append.1 ht with ht | ht
      · exact h t ht
      · simp at ht)).1
    rw [this]
    refine .cons ?_ .nil
    simp [SameLine, Parse.Item.functional]
  | @more its t rest lines h _ ih =>
    rw [List.append_assoc, List.cons_append, (split_noTerm h).2]
    exact .cons rfl ih

theorem splits_lines {body : List Parse.Item} {lines : List (List Parse.Item)} (h : Splits body lines) :
    List.Forall₂ SameLine
      (splitStatements (.leaf .inlineStart ['{'] :: body ++ [.leaf .inlineEnd ['}']])) lines := by
  have := splits_end h
  rw [List.cons_append, splitStatements]
  simp only [isTerminator, Bool.false_eq_true, if_false]
  revert this
  generalize splitStatements (body ++ [.leaf .inlineEnd ['}']]) = l
  intro this
  cases this with
  | nil => cases h
  | cons h1 h2 => exact .cons (by simpa [SameLine, Parse.Item.functional] using h1) h2

variable {lit : Parse.Item → V → Prop} {f g : String → List V → Except String V}

/-- The arguments of a call, run one after the other. -/
theorem args_run {call : String → List V → Act σ V} {isUnit : V → Bool} {mkErr : ExecErr → V}
    {getErr : V → Option Raise} {funcs : String → Option (FuncDef V σ)} {s : σ}
    (hd : Does atomVal call isUnit getErr funcs s lit f g) (b : Bool) : ∀ {vs : List V} {args : List Parse.Item},
    ArgsMean lit f g args vs →
    argVals (shipped call isUnit mkErr getErr funcs) b
        (Node.runs (shipped call isUnit mkErr getErr funcs) atomVal
          ((toArgs (args ++ [.leaf .funcEnd [')']])).filter (fun a => !a.isEmpty))) s = (.ok vs, s)
  | [], _, .none => by
    rw [List.nil_append, toArgs_end]
    simp [Node.runs, argVals]
  | [v], its, .last hm => by
    have ih := means_runs (mkErr := mkErr) hd hm
    have e : toArgs (its ++ [.leaf .funcEnd [')']]) = [toNodes its] := by
      rw [toArgs_inside ih.2.1, toArgs_end]
      simp
    rw [e, List.filter_cons, toNodes_isEmpty ih.1]
    exact runs_argVals _ rfl b ih (by simp [Node.runs, argVals])
  | v :: v' :: vs, _, @ArgsMean.more _ _ _ _ its _ rest _ _ hm hr => by
    have ih := means_runs (mkErr := mkErr) hd hm
    have e : toArgs ((its ++ .leaf .funcParam [','] :: rest) ++ [.leaf .funcEnd [')']])
        = toNodes its :: toArgs (rest ++ [.leaf .funcEnd [')']]) := by
      rw [List.append_assoc, toArgs_inside ih.2.1, List.cons_append, toArgs]
      simp [isComma]
    rw [e, List.filter_cons, toNodes_isEmpty ih.1]
    exact runs_argVals _ rfl b ih (args_run hd b hr)

/-- Arguments that correspond. -/
theorem args_map {W : Type} {R : V → W → Prop} {f' g' : String → List W → Except String W}
    {lit' : Parse.Item → W → Prop} (hl : ∀ it w, lit' it w → ∃ v, lit it v ∧ R v w)
    (hf : ∀ o ws w vs, f' o ws = .ok w → List.Forall₂ R vs ws → ∃ v, f o vs = .ok v ∧ R v w)
    (hg : ∀ o ws w vs, g' o ws = .ok w → List.Forall₂ R vs ws → ∃ v, g o vs = .ok v ∧ R v w) :
    ∀ {ws : List W} {its : List Parse.Item}, ArgsMean lit' f' g' its ws →
    ∃ vs, ArgsMean lit f g its vs ∧ List.Forall₂ R vs ws
  | [], _, .none => ⟨[], .none, .nil⟩
  | [w], _, .last hm => by
    obtain ⟨v, h1, h2⟩ := means_map hl hf hg hm
    exact ⟨[v], .last h1, .cons h2 .nil⟩
  | w :: w' :: ws, _, .more hm hr => by
    obtain ⟨v, h1, h2⟩ := means_map hl hf hg hm
    obtain ⟨vs, h3, h4⟩ := args_map hl hf hg hr
    cases h4 with
    | cons h5 h6 => exact ⟨_, .more h1 h3, .cons h2 (.cons h5 h6)⟩

end

section
variable {S U K τ : Type} {c : Calc S U Ref K} {num? : S → Option Number} {ofNum : Number → S}
  {asBool : S → Option Bool} {ofBool : Bool → S} {ua : UnitAlgebra S U} {Q : S → Prop} {T : Texts S U Ref} {p : ℕ} {rounding : Bool}

/-- A function made for a pointer takes scalars as they are. -/
theorem userFunc_call {name : String} {run : List (Opd S U Ref) → Act (St S U τ) (OpResult S U Ref)}
    {xs : List (Opd S U Ref)} (hx : ∀ x ∈ xs, ∃ w, x.value = .sc w) (s : St S U τ) :
    call c (userFunc name [] [] run) xs s = match run xs s with
      | (.ok r, s') => (.ok (finishResult c (userFunc name [] [] run) none none r), s')
      | (.error e, s') => (.error (wrap c (userFunc name [] [] run) xs e), s') := by
  have hsc : ∀ x ∈ xs, Strings.IsScalar x := hx
  have hval : validate c (userFunc name [] [] run) xs = .ok () := by
    simp [validate, userFunc, checkValues, checkUnits]
  have hprep : prepare c (userFunc name [] [] run) xs = .ok (xs, none, none) := by
    unfold prepare
    have harr : ∀ i, normaliseArrays c (userFunc name [] [] run) i none none xs = .ok (xs, none, none) := by
      clear hsc hval
      induction xs with
      | nil => intro i; rfl
      | cons x xs ih =>
        intro i
        obtain ⟨w, hw⟩ := hx x (by simp)
        rw [normaliseArrays]
        simp only [hw, ih (fun y hy => hx y (by simp [hy]))]
    simp only [show (userFunc name [] [] run).convertIn = false from rfl, Bool.false_eq_true, if_false,
      show (userFunc name [] [] run).unitsNormalise = false from rfl, harr]
    split
    · split <;> rfl
    · rfl
  rw [call_direct (Strings.spreads_scalar hsc 0) (by simp [userFunc]) rfl (by
    intro x hx'
    obtain ⟨v, hv⟩ := hx x hx'
    rw [hv]
    rfl)]
  unfold attempt
  simp only [hval, hprep]
  rw [show (userFunc name [] [] run).ref xs s = run xs s from rfl]
  cases run xs s with
  | mk r s' => cases r <;> rfl

/-- The operand is the number, the truth value, or the function. -/
def HasThing (num? : S → Option Number) (Q : S → Prop) (asBool : S → Option Bool) (T : Texts S U Ref) (ua : UnitAlgebra S U)
    (P : Pointers S U τ) (x : Opd S U Ref) : Thing → Prop
  | .plain v => HasPlain num? Q asBool T x v
  | .func body => x.unit = none ∧ ∃ w, x.value = .sc w ∧ ua.unit? w = none ∧
      P.asFunc w = some (.leaf .inlineStart ['{'] :: body ++ [.leaf .inlineEnd ['}']])

/-- Functions can be kept as values. -/
structure Keeps (P : Pointers S U τ) (ua : UnitAlgebra S U) : Prop where
  same : ∀ its, P.asFunc (P.ofFunc its) = some its
  notUnit : ∀ its, ua.unit? (P.ofFunc its) = none

theorem allPlain_ok : ∀ {vs : List Thing} {ws : List Spec.Plain}, allPlain vs = some ws → vs = ws.map .plain
  | [], ws, h => by cases h; rfl
  | .plain v :: vs, ws, h => by
    rw [allPlain, Option.map_eq_some_iff] at h
    obtain ⟨l, h1, rfl⟩ := h
    rw [allPlain_ok h1]
    rfl
  | .func b :: vs, ws, h => by cases h

theorem lifted_ok {f : String → List Spec.Plain → Except String Spec.Plain} {o : String} {vs : List Thing} {w : Thing}
    (h : lifted f o vs = .ok w) : ∃ ws u, vs = ws.map .plain ∧ w = .plain u ∧ f o ws = .ok u := by
  unfold lifted at h
  split at h
  · rename_i ws hws
    cases hf : f o ws with
    | error e => rw [hf] at h; cases h
    | ok u => rw [hf] at h; cases h; exact ⟨ws, u, allPlain_ok hws, rfl, hf⟩
  · cases h

theorem has_plain {P : Pointers S U τ} : ∀ {xs : List (Opd S U Ref)} {ws : List Spec.Plain},
    List.Forall₂ (HasThing num? Q asBool T ua P) xs (ws.map .plain) → List.Forall₂ (HasPlain num? Q asBool T) xs ws
  | _, [], .nil => .nil
  | _, _ :: _, .cons h t => .cons h (has_plain t)

variable (ho : Arithmetical c num? ofNum asBool ofBool ua Q T)
include ho

omit ho in
theorem HasThing.scalar {P : Pointers S U τ} {x : Opd S U Ref} {v : Thing} (h : HasThing num? Q asBool T ua P x v) :
    ∃ w, x.value = .sc w := by
  cases v with
  | plain v => exact HasPlain.scalar h
  | func b => obtain ⟨_, w, h, _⟩ := h; exact ⟨w, h⟩

theorem holding_things (P : Pointers S U τ) {k : ℕ} :
    Holding ua num? Q asBool T (HasThing num? Q asBool T ua P) k (thingOps k rounding) (.plain (.num 1)) where
  flat := by
    intro x v h
    obtain ⟨w, hw⟩ := h.scalar
    rw [hw]
    trivial
  unit := by
    intro x v h
    cases v with
    | plain v => exact HasPlain.unit h
    | func b => exact h.1
  forget := by
    intro x v h r o
    cases v with
    | plain v => exact HasPlain.forget h r o
    | func b => exact ⟨rfl, h.2⟩
  good := by
    intro x v h
    cases v with
    | plain v => exact HasPlain.good ho h
    | func b =>
      obtain ⟨_, w, h1, h2, _⟩ := h
      simp [Good, unitValue, h1, h2, Val.err?]
  operator := by
    intro o u v w h1 h2
    have h3 : lifted (school k rounding) o [u, v] = .ok w := by
      unfold thingOps at h2
      split at h2
      · rename_i e
        cases e
      · exact h2
    obtain ⟨ws, x, e1, rfl, h4⟩ := lifted_ok h3
    match ws, e1 with
    | [a, b], e1 =>
      injection e1 with ea e1
      injection e1 with eb _
      subst ea eb
      obtain ⟨a', b', q, rfl, rfl, rfl⟩ := school_numbers h1 h4
      exact ⟨a', b', q, (school_flag h1 a' b').symm.trans h4, fun _ h => h, fun _ => Iff.rfl, fun _ h => h⟩
  one := id

/-- Each operator does what it means. -/
theorem things_do (P : Pointers S U τ) {k : ℕ} (hk : 3 * k + 1 ≤ p) (hshow : rounding = true → ShowsWhole k num? Q T) (powF : ℚ → ℚ → Except Err ℚ)
    (others : String → List (Opd S U Ref) → Act (St S U τ) (Opd S U Ref)) {o : String} {ws : List Thing} {w : Thing}
    {xs : List (Opd S U Ref)} (h : thingOps k rounding o ws = .ok w)
    (hx : List.Forall₂ (HasThing num? Q asBool T ua P) xs ws) (s : St S U τ) :
    ∃ r, callOf p num? ofNum ua asBool ofBool T powF c others o xs s = (.ok r, s) ∧
      HasThing num? Q asBool T ua P r w := by
  have hh := holding_things ho P (k := k) (rounding := rounding)
  unfold thingOps at h
  split at h
  · cases h
    cases hx with
    | cons h1 h2 =>
      cases h2 with
      | cons h3 h4 =>
        cases h4 with
        | cons h5 h6 =>
          cases h6
          have noArr : ∀ {z : Opd S U Ref} {v : Thing}, HasThing num? Q asBool T ua P z v → ∀ l, z.value ≠ .arr l := by
            intro z v hz l e
            obtain ⟨w, hw⟩ := hz.scalar
            rw [hw] at e
            cases e
          refine ⟨_, C29_then c ho.logic h1.2 (noArr h3) (noArr h5) s, ?_⟩
          have same : ∀ {z : Opd S U Ref} {v : Thing}, HasThing num? Q asBool T ua P z v →
              HasThing num? Q asBool T ua P (⟨z.value, z.unit, z.ref, none⟩ : Opd S U Ref) v := by
            intro z v hz
            rw [hh.unit hz]
            exact hh.forget hz _ _
          split
          · exact same h3
          · exact same h5
  · obtain ⟨ws, u, rfl, rfl, h'⟩ := lifted_ok h
    exact school_does ho hk hshow powF others h' (has_plain hx) s

omit ho in
theorem operandVal_leaf (cfg : Config (Opd S U Ref) (St S U τ)) (P : Pointers S U τ) (A : RangeCfg S U)
    (others : Parse.Item → Act (St S U τ) (Opd S U Ref)) (d : ℕ) (k : Kind) (t : Text) :
    operandVal cfg c P A others d (.leaf k t) = others (.leaf k t) := by
  cases d <;> rfl

/-- The lines of a body, run one after the other. -/
theorem body_run {W : Type} {Has : Opd S U Ref → W → Prop} {k : ℕ} {f : String → List W → Except String W}
    {one : W} (hh : Holding ua num? Q asBool T Has k f one) {mean : Store W → List Parse.Item → W → Prop}
    (hvars : HasVariables c) (hk : 3 * k + 1 ≤ p)
    (powF : ℚ → ℚ → Except Err ℚ) (nothing : S)
    (others : String → List (Opd S U Ref) → Act (St S U τ) (Opd S U Ref))
    (wv : Parse.Item → Act (St S U τ) (Opd S U Ref)) (hwv : ∀ t, wv (.leaf .var t) = readVar nothing (String.ofList t))
    (mkErr : ExecErr → Opd S U Ref) {base : S → ℕ} {offset : S → ℤ}
    (funcs : String → Option (FuncDef (Opd S U Ref) (St S U τ)))
    (hmean : ∀ {env : Store W} {s : St S U τ}, HoldsOf Has env s → Clean s → ∀ {its v}, mean env its v →
      ∃ x, Means (fun it x => wv it s = (.ok x, s) ∧ Good ua x)
      (outcome (callOf p num? ofNum ua asBool ofBool T powF c (assignCalls p num? ofNum ua powF c false others)) (Good ua) s)
      (outcome (callFunc (funcsOf p num? ofNum T base offset c funcs)) (Good ua) s) its x ∧ Has x v)
    {env env' : Store W} {lines : List (List Parse.Item)} {as : List (Option W)}
    (h : LinesOf mean f one env lines as env') : ∀ {st : List (List Parse.Item)}, List.Forall₂ SameLine st lines →
    ∀ (last : Option (Opd S U Ref)) {s : St S U τ}, HoldsOf Has env s → Clean s →
    ∃ r s', runBody ((st.filter (fun its => its.any Parse.Item.functional)).map
        (fun its => executeNodes (progEngine p num? ofNum ua asBool ofBool T powF c others mkErr base offset funcs) wv
          (toNodes its))) last s = (.ok r, s') ∧ s'.rest = s.rest ∧
      match (as.filterMap id).getLast? with
      | none => r = last
      | some v => ∃ x, r = some x ∧ Has x v := by
  induction h with
  | nil =>
    intro st hst last s _ _
    cases hst
    exact ⟨last, s, rfl, rfl, rfl⟩
  | @cons env its a env' lines as env'' hl _ ih =>
    intro st hst last s h1 h2
    cases hst with
    | @cons a0 _ st' _ hs hst =>
      rcases line_execute ho hh hvars hk powF nothing others wv hwv mkErr funcs (hmean h1 h2) h1 h2 hl with
        ⟨rfl, rfl, hb, _⟩ | ⟨v, r, s', rfl, e0, e1, e2, e3, e4, e5, e6⟩
      · have : a0.any Parse.Item.functional = false := by
          rw [any_functional hs, List.any_eq_false]
          intro it hit
          obtain ⟨k, hk, t, rfl⟩ := hb it hit
          simp only [emptyKinds, List.mem_cons, List.not_mem_nil, or_false] at hk
          rcases hk with rfl | rfl | rfl <;> simp [Parse.Item.functional]
        obtain ⟨r, s', f1, f2, f3⟩ := ih hst last h1 h2
        refine ⟨r, s', ?_, f2, ?_⟩
        · rw [List.filter_cons, this]
          exact f1
        · simpa using f3
      · have : a0.any Parse.Item.functional = true := by
          by_contra hcon
          apply e0
          rw [srcs_filter, List.filter_eq_nil_iff.2, toNodes, Node.srcs]
          intro it hit
          rw [any_functional hs, Bool.not_eq_true, List.any_eq_false] at hcon
          exact hcon it hit
        obtain ⟨r', s'', f1, f2, f3⟩ := ih hst (some r) e3 e4
        refine ⟨r', s'', ?_, f2.trans e5, ?_⟩
        · rw [List.filter_cons, if_pos this, List.map_cons, runBody, executeNodes_filter _ hs, e1]
          exact f1
        · rw [show (some v :: as).filterMap id = v :: as.filterMap id from rfl, List.getLast?_cons]
          cases hg : (as.filterMap id).getLast? with
          | none => rw [hg] at f3; exact ⟨r, f3, e2⟩
          | some w => rw [hg] at f3; exact f3

/-- The parameters are set. -/
theorem params_holds {W : Type} {Has : Opd S U Ref → W → Prop} {k : ℕ} {f : String → List W → Except String W}
    {one : W} (hh : Holding ua num? Q asBool T Has k f one) : ∀ {vs : List W} {xs : List (Opd S U Ref)} (i : ℕ)
    {env : Store W} {s : St S U τ}, List.Forall₂ Has xs vs → HoldsOf Has env s → Clean s →
    HoldsOf Has (params i vs env) (setParams i xs s) ∧ Clean (setParams i xs s) ∧ (setParams i xs s).rest = s.rest
  | _, _, i, env, s, .nil, h1, h2 => ⟨h1, h2, rfl⟩
  | _, _, i, env, s, .cons hx ht, h1, h2 => by
    exact params_holds hh (i + 1) ht (holdsOf_set (Has := Has) hh.unit hh.forget h1 hx _)
      (clean_setVar h2 (err_none_iff.2 (hh.err ho hx)))

/-- Operators and built-in functions do what they mean. -/
theorem calls_do (P : Pointers S U τ) {k : ℕ} (hk : 3 * k + 1 ≤ p)
    (powF : ℚ → ℚ → Except Err ℚ)
    (others : String → List (Opd S U Ref) → Act (St S U τ) (Opd S U Ref))
    {base : S → ℕ} {offset : S → ℤ} {rounding : Bool}
    (hround : rounding = true → ∀ w, Q w → base w = 10 ∧ offset w = 0) (hshow : rounding = true → ShowsWhole k num? Q T)
    (funcs : String → Option (FuncDef (Opd S U Ref) (St S U τ))) (s : St S U τ) :
    (∀ o ws w xs, thingOps k rounding o ws = .ok w → List.Forall₂ (HasThing num? Q asBool T ua P) xs ws →
      ∃ x, outcome (callOf p num? ofNum ua asBool ofBool T powF c (assignCalls p num? ofNum ua powF c false others))
        (Good ua) s o xs = .ok x ∧ HasThing num? Q asBool T ua P x w) ∧
    (∀ o ws w xs, lifted (schoolFunctions k rounding) o ws = .ok w →
      List.Forall₂ (HasThing num? Q asBool T ua P) xs ws →
      ∃ x, outcome (callFunc (funcsOf p num? ofNum T base offset c funcs)) (Good ua) s o xs = .ok x ∧
        HasThing num? Q asBool T ua P x w) := by
  have hh := holding_things ho P (k := k) (rounding := rounding)
  constructor
  · intro o ws w xs h hxs
    obtain ⟨r, h1, h2⟩ := things_do ho P hk hshow powF (assignCalls p num? ofNum ua powF c false others) h hxs s
    exact ⟨r, outcome_ok.2 ⟨h1, hh.good h2⟩, h2⟩
  · intro o ws w xs h hxs
    obtain ⟨us, u, rfl, rfl, h'⟩ := lifted_ok h
    obtain ⟨r, h1, h2⟩ := functions_do ho hk hround hshow funcs h' (has_plain hxs) s
    exact ⟨r, outcome_ok.2 ⟨h1, h2.good ho⟩, h2⟩

/-- Operands are what they mean, and leave everything as it is. -/
theorem operand_does (P : Pointers S U τ) (A : RangeCfg S U) (hP : Keeps P ua) (hvars : HasVariables c) {k : ℕ} (hk : 3 * k + 1 ≤ p)
    (powF : ℚ → ℚ → Except Err ℚ) (nothing : S)
    (others : String → List (Opd S U Ref) → Act (St S U τ) (Opd S U Ref))
    (words : Parse.Item → Act (St S U τ) (Opd S U Ref)) (mkErr : ExecErr → Opd S U Ref)
    {base : S → ℕ} {offset : S → ℤ} {rounding : Bool}
    (hround : rounding = true → ∀ w, Q w → base w = 10 ∧ offset w = 0) (hshow : rounding = true → ShowsWhole k num? Q T)
    (funcs : String → Option (FuncDef (Opd S U Ref) (St S U τ))) :
    ∀ (d depth : ℕ), d ≤ depth → ∀ {env : Store Thing} {s : St S U τ},
    HoldsOf (HasThing num? Q asBool T ua P) env s → Clean s → ∀ {it : Parse.Item} {v : Thing},
    OperandAt p k rounding d env it v →
    ∃ x, operandVal (progEngine p num? ofNum ua asBool ofBool T powF c others mkErr base offset funcs) c P A
        (wordVal p ofNum ofBool T nothing words) depth it s = (.ok x, s) ∧ HasThing num? Q asBool T ua P x v := by
  intro d
  have hh := holding_things ho P (k := k) (rounding := rounding)
  induction d with
  | zero => intro _ _ _ _ _ _ _ _ h; exact h.elim
  | succ d ih =>
    intro depth hd env s henv hclean it v h
    cases h with
    | @word kind t v hw =>
      rw [operandVal_leaf]
      exact word_does (by omega) ho.read ho.untyped ho.truth ho.strings.back nothing words (env := fun _ => none)
        (fun _ _ h => by cases h) hw
    | @var x v hx =>
      rw [operandVal_leaf]
      obtain ⟨w, h1, h2⟩ := henv _ _ hx
      exact ⟨⟨w, none, some (.var (String.ofList x)), none⟩, by simp [wordVal, State.readVar, h1], hh.forget h2 _ _⟩
    | @inline t body =>
      refine ⟨⟨.sc (P.ofFunc (.leaf .inlineStart ['{'] :: body ++ [.leaf .inlineEnd ['}']])), none, none, none⟩, ?_,
        rfl, _, rfl, hP.notUnit _, hP.same _⟩
      cases depth <;> rfl
    | @call t f args vs body lines answers env' v ha hf hsp hl hlast =>
      obtain ⟨depth, rfl⟩ : ∃ j, depth = j + 1 := ⟨depth - 1, by omega⟩
      set cfg := progEngine p num? ofNum ua asBool ofBool T powF c others mkErr base offset funcs with hcfg
      set wv := operandVal cfg c P A (wordVal p ofNum ofBool T nothing words) depth with hwv
      have hdo : ∀ {env : Store Thing} {s : St S U τ}, HoldsOf (HasThing num? Q asBool T ua P) env s → Clean s →
          ∀ it w, OperandAt p k rounding d env it w →
          ∃ x, (wv it s = (.ok x, s) ∧ Good ua x) ∧ HasThing num? Q asBool T ua P x w := by
        intro env s h1 h2 it w h
        obtain ⟨x, e1, e2⟩ := ih depth (by omega) h1 h2 h
        exact ⟨x, ⟨e1, hh.good e2⟩, e2⟩
      have hops := fun s => (calls_do ho P hk powF others hround hshow funcs s).1
      have hfuncs := fun s => (calls_do ho P hk powF others hround hshow funcs s).2
      -- the arguments
      obtain ⟨xs, hxs, hrel⟩ := args_map (hdo henv hclean) (hops s) (hfuncs s) ha
      have hargs := args_run (mkErr := mkErr) (engine_does (ua := ua)
        (callOf p num? ofNum ua asBool ofBool T powF c (assignCalls p num? ofNum ua powF c false others)) wv
        (funcsOf p num? ofNum T base offset c funcs) s) false hxs
      -- the function
      obtain ⟨w, hw1, -, w', hw2, -, hw3⟩ := henv _ _ hf
      simp only at hw2
      subst hw2
      -- its lines
      obtain ⟨p1, p2, p3⟩ := params_holds ho hh 1 hrel henv hclean
      obtain ⟨r, s', b1, b2, b3⟩ := body_run ho hh hvars hk powF nothing others wv
        (fun t => by rw [hwv, operandVal_leaf]; rfl) mkErr funcs
        (fun h1 h2 _ _ hm => means_map (hdo h1 h2) (hops _) (hfuncs _) hm) hl (splits_lines hsp) none p1 p2
      rw [hlast] at b3
      obtain ⟨x, rfl, hx⟩ := b3
      obtain ⟨z, hz⟩ := hx.scalar
      have hrun : doInline (bodyRuns cfg wv (.leaf .inlineStart ['{'] :: body ++ [.leaf .inlineEnd ['}']])) xs s
          = (.ok ⟨.sc z, some none, none⟩, s) := by
        unfold doInline bodyRuns
        rw [← hcfg] at b1
        simp only [b1, hz, hh.unit hx]
        rw [b2.trans p3]
      refine ⟨⟨.sc z, none, none, none⟩, ?_, by simpa [hz] using hh.forget hx none none⟩
      have hname : pointerName (.leaf .funcName ('@' :: f) :: .leaf .funcStart ['('] :: args
          ++ [.leaf .funcEnd [')']]) = String.ofList f := rfl
      have htoArgs : toArgs (.leaf .funcName ('@' :: f) :: .leaf .funcStart ['('] :: args
          ++ [.leaf .funcEnd [')']]) = toArgs (args ++ [.leaf .funcEnd [')']]) := by
        rw [List.cons_append, List.cons_append, toArgs, toArgs]
        simp [isComma, isCallPart]
      have hcall : call c (inlineFunc cfg wv (.leaf .inlineStart ['{'] :: body ++ [.leaf .inlineEnd ['}']])) xs s
          = (.ok ⟨.sc z, none, none, none⟩, s) := by
        unfold inlineFunc
        rw [userFunc_call (by
          intro x hx
          obtain ⟨i, hi, rfl⟩ := List.mem_iff_getElem.mp hx
          exact HasThing.scalar (List.forall₂_iff_get.mp hrel |>.2 i hi (hrel.length_eq ▸ hi))), hrun]
        rfl
      rw [operandVal, pointerVal, hname, htoArgs, hw1]
      have hargs' : argVals cfg false (Node.runs cfg wv ((toArgs (args ++ [.leaf .funcEnd [')']])).filter
        (fun a => !a.isEmpty))) s = (.ok xs, s) := hargs
      simp only [← hwv, hargs', callRef, hw3, hcall]

/-- Expressions are what they mean. -/
theorem things_mean (P : Pointers S U τ) (A : RangeCfg S U) (hP : Keeps P ua) (hvars : HasVariables c) {k : ℕ} (hk : 3 * k + 1 ≤ p)
    (powF : ℚ → ℚ → Except Err ℚ) (nothing : S)
    (others : String → List (Opd S U Ref) → Act (St S U τ) (Opd S U Ref))
    (words : Parse.Item → Act (St S U τ) (Opd S U Ref)) (mkErr : ExecErr → Opd S U Ref)
    {base : S → ℕ} {offset : S → ℤ} {rounding : Bool}
    (hround : rounding = true → ∀ w, Q w → base w = 10 ∧ offset w = 0) (hshow : rounding = true → ShowsWhole k num? Q T)
    (funcs : String → Option (FuncDef (Opd S U Ref) (St S U τ))) {d depth : ℕ} (hd : d ≤ depth)
    {env : Store Thing} {s : St S U τ} (h1 : HoldsOf (HasThing num? Q asBool T ua P) env s) (h2 : Clean s)
    {its : List Parse.Item} {v : Thing} (hm : SaysWith k rounding (OperandAt p k rounding d) env its v) :
    ∃ x, Means (fun it x => operandVal (progEngine p num? ofNum ua asBool ofBool T powF c others mkErr base offset funcs)
        c P A (wordVal p ofNum ofBool T nothing words) depth it s = (.ok x, s) ∧ Good ua x)
      (outcome (callOf p num? ofNum ua asBool ofBool T powF c (assignCalls p num? ofNum ua powF c false others)) (Good ua) s)
      (outcome (callFunc (funcsOf p num? ofNum T base offset c funcs)) (Good ua) s) its x ∧
      HasThing num? Q asBool T ua P x v := by
  refine means_map (fun it w h => ?_) (calls_do ho P hk powF others hround hshow funcs s).1
    (calls_do ho P hk powF others hround hshow funcs s).2 hm
  obtain ⟨x, e1, e2⟩ := operand_does ho P A hP hvars hk powF nothing others words mkErr hround hshow funcs d depth hd h1 h2 h
  exact ⟨x, ⟨e1, (holding_things ho P (k := k) (rounding := rounding)).good e2⟩, e2⟩

omit ho in
theorem sentence_complete {V σ : Type} (call : String → List V → Act σ V) (isUnit : V → Bool)
    (mkErr : ExecErr → V) (getErr : V → Option Raise) (funcs : String → Option (FuncDef V σ))
    (its : List Parse.Item) (h : Sentence its) : Parse.incomplete (shipped call isUnit mkErr getErr funcs) its = false := by
  obtain ⟨line, ⟨a, env', h⟩, rfl⟩ := h
  exact line_complete (lit := fun _ _ _ => True) call isUnit mkErr getErr funcs h

omit ho in
theorem programC_complete {W : Type} {mean : Store W → List Parse.Item → W → Prop}
    {f : String → List W → Except String W} {one : W} {x : Parse.Lex} {names : List Text} {n : ℕ}
    {inner : List Parse.Item → Prop} {inc : List Parse.Item → Bool}
    (hinc : ∀ {env env' : Store W} {its : List Parse.Item} {a : Option W}, LineOf mean f one env its a env' →
      inc (its.filter Parse.Item.functional) = false) {t : Text} {st : List (List Parse.Item)}
    (h : Parse.Spec.ProgramC x names n inner (fun _ => True) t st) :
    ∀ {env env' : Store W} {as : List (Option W)}, LinesOf mean f one env st as env' →
      Parse.Spec.ProgramC x names n inner (fun its => inc its = false) t st := by
  induction h with
  | last h => exact fun _ => .last h
  | more h _ _ ih =>
    intro env env' as hl
    cases hl with
    | cons h1 h2 =>
      refine .more h ?_ (ih h2)
      have := hinc h1
      rwa [List.filter_append, show [Parse.Item.leaf .terminator ['\n']].filter Parse.Item.functional = [] by
        simp [Parse.Item.functional], List.append_nil] at this

/-- **C82**: a program whose lines also define functions (`f = { … }`, on one line or on several),
pass them on and call them (`@f(a, b)`) is answered line by line with what the lines mean: a call is the
last answer of the lines of the function, where `PARAM1`, `PARAM2` and so on stand for the arguments,
and whatever those lines assign, each variable is afterwards what it was before the call.  Calls may be
nested up to a depth for which there is room on the stack. -/
theorem C82_program (P : Pointers S U τ) (A : RangeCfg S U) (hP : Keeps P ua) (hvars : HasVariables c) {k : ℕ} (hk : 3 * k + 1 ≤ p)
    (powF : ℚ → ℚ → Except Err ℚ) (word alpha : Char → Bool)
    (hw : ∀ c, c.toNat < 128 → word c = Parse.asciiWord c)
    (ha : ∀ c, c.toNat < 128 → alpha c = Parse.isLetter c)
    (names : List Text) (fi : Finish S U Ref) (nothing : S)
    (others : String → List (Opd S U Ref) → Act (St S U τ) (Opd S U Ref))
    (words : Parse.Item → Act (St S U τ) (Opd S U Ref)) (mkErr : ExecErr → Opd S U Ref)
    {base : S → ℕ} {offset : S → ℤ} {rounding : Bool}
    (hround : rounding = true → ∀ w, Q w → base w = 10 ∧ offset w = 0) (hshow : rounding = true → ShowsWhole k num? Q T)
    (funcs : String → Option (FuncDef (Opd S U Ref) (St S U τ)))
    {d depth : ℕ} (hd : d ≤ depth) {env env' : Store Thing} {s : St S U τ}
    (henv : HoldsOf (HasThing num? Q asBool T ua P) env s) (hclean : Clean s)
    {n : ℕ} {t : Text} {st : List (List Parse.Item)} {as : List (Option Thing)}
    (hx : Parse.Spec.ProgramC (fullLex p powF word alpha) names n Sentence (fun _ => True) t st)
    (hm : FunctionLines p k rounding d env st as env') (ht : t ≠ []) (extra : ℕ) :
    ∃ rs s', calculateText (shippedCfg (fullLex p powF word alpha) names
          (Parse.incomplete (progEngine p num? ofNum ua asBool ofBool T powF c others mkErr base offset funcs)))
        (progEngine p num? ofNum ua asBool ofBool T powF c others mkErr base offset funcs)
        (operandVal (progEngine p num? ofNum ua asBool ofBool T powF c others mkErr base offset funcs) c P A
          (wordVal p ofNum ofBool T nothing words) depth) (finalize fi) (n + extra + 1) t none s
        = some (.ran rs .done, none, s') ∧
      List.Forall₂ (fun r a => ReportsOf (HasThing num? Q asBool T ua P) r.answer a) rs as ∧
      HoldsOf (HasThing num? Q asBool T ua P) env' s' ∧ s'.rest = s.rest ∧
      ∀ n : String, (∀ its ∈ st, Parse.Item.leaf .var n.toList ∉ its) → s'.vars n = s.vars n := by
  obtain ⟨rs, s', e1, e2, e3, _, e4, e5⟩ := lines_calculate ho (holding_things ho P) hvars hk powF fi nothing others
    (operandVal (progEngine p num? ofNum ua asBool ofBool T powF c others mkErr base offset funcs) c P A
      (wordVal p ofNum ofBool T nothing words) depth) (fun t => by rw [operandVal_leaf]; rfl) mkErr funcs
    (fun h1 h2 _ _ hm => things_mean ho P A hP hvars hk powF nothing others words mkErr hround hshow funcs hd h1 h2 hm) hm 0
    henv hclean
  refine ⟨rs, s', ?_, e2, e3, e4, e5⟩
  rw [calculateText, if_neg ht, C69_statements hw ha names
    (Parse.incomplete (progEngine p num? ofNum ua asBool ofBool T powF c others mkErr base offset funcs))
    (sentence_complete _ _ _ _ _) (programC_complete (fun hl => line_complete _ _ _ _ _ hl) hx hm) extra]
  simp only [e1]

/-- **C82**: an expression with calls of such functions gives what it means, and leaves every
variable, and everything else, exactly as it is, whatever the functions assign. -/
theorem C82_expression (P : Pointers S U τ) (A : RangeCfg S U) (hP : Keeps P ua) (hvars : HasVariables c) {k : ℕ} (hk : 3 * k + 1 ≤ p)
    (powF : ℚ → ℚ → Except Err ℚ) (word alpha : Char → Bool)
    (hw : ∀ c, c.toNat < 128 → word c = Parse.asciiWord c)
    (ha : ∀ c, c.toNat < 128 → alpha c = Parse.isLetter c)
    (names : List Text) (fi : Finish S U Ref) (nothing : S)
    (others : String → List (Opd S U Ref) → Act (St S U τ) (Opd S U Ref))
    (words : Parse.Item → Act (St S U τ) (Opd S U Ref)) (mkErr : ExecErr → Opd S U Ref)
    {base : S → ℕ} {offset : S → ℤ} {rounding : Bool}
    (hround : rounding = true → ∀ w, Q w → base w = 10 ∧ offset w = 0) (hshow : rounding = true → ShowsWhole k num? Q T)
    (funcs : String → Option (FuncDef (Opd S U Ref) (St S U τ)))
    {d depth : ℕ} (hd : d ≤ depth) {env : Store Thing} {s : St S U τ}
    (henv : HoldsOf (HasThing num? Q asBool T ua P) env s) (hclean : Clean s)
    {n : ℕ} {t : Text} {its : List Parse.Item} {v : Thing}
    (hx : Parse.Spec.Line (Parse.Spec.ReadingC (fullLex p powF word alpha) names Sentence n false) true t its none)
    (hm : SaysWith k rounding (OperandAt p k rounding d) env its v) (extra : ℕ) :
    ∃ x, calculateText (shippedCfg (fullLex p powF word alpha) names
          (Parse.incomplete (progEngine p num? ofNum ua asBool ofBool T powF c others mkErr base offset funcs)))
        (progEngine p num? ofNum ua asBool ofBool T powF c others mkErr base offset funcs)
        (operandVal (progEngine p num? ofNum ua asBool ofBool T powF c others mkErr base offset funcs) c P A
          (wordVal p ofNum ofBool T nothing words) depth) (finalize fi) (n + extra + 1) t none s
        = some (.ran [⟨some x, s⟩] .done, none, s) ∧ HasThing num? Q asBool T ua P x v := by
  set cfg := progEngine p num? ofNum ua asBool ofBool T powF c others mkErr base offset funcs with hcfg
  have hh := holding_things ho P (k := k) (rounding := rounding)
  obtain ⟨x, hx1, hx2⟩ := things_mean ho P A hP hvars hk powF nothing others words mkErr hround hshow funcs hd henv hclean hm
  obtain ⟨h0, _, h1, h2, _, h3⟩ := means_runs (mkErr := mkErr)
    (engine_does (ua := ua) (callOf p num? ofNum ua asBool ofBool T powF c (assignCalls p num? ofNum ua powF c false others))
      (operandVal cfg c P A (wordVal p ofNum ofBool T nothing words) depth) (funcsOf p num? ofNum T base offset c funcs) s) hx1
  have ht : t ≠ [] := by
    rintro rfl
    apply h0
    generalize hq : ([] : Text) = q at hx
    cases hx with
    | nil => rfl
    | cons hr _ =>
      exact absurd (List.append_eq_nil_iff.1 hq.symm).1 (Parse.reading_ne (symbolsOk hw ha) names hr)
  refine ⟨x, ?_, hx2⟩
  rw [calculateText, if_neg ht, C69_statements hw ha names
    (Parse.incomplete cfg) (sentence_complete _ _ _ _ _) (.last hx) extra]
  obtain ⟨w, hw⟩ := hx2.scalar
  have hst : stmt cfg (operandVal cfg c P A (wordVal p ofNum ofBool T nothing words) depth) (finalize fi) (toNodes its) s
      = (.ok (some x), s) := by
    rw [stmt]
    split
    · rename_i e
      exact absurd e h1
    · have h2' : executeNodes cfg (operandVal cfg c P A (wordVal p ofNum ofBool T nothing words) depth) (toNodes its) s
        = (.ok x, s) := h2
      have h3' : cfg.getErr x = none := h3
      simp only [h2', h3', finalize_plain fi hw (hh.unit hx2) s]
  simp only [List.map_cons, List.map_nil, calculate, hst]

end

/-! ## Non-vacuity -/

/-- Numbers, truth values and functions. -/
inductive FS where
  | a (x : AS)
  | f (items : List Parse.Item)

def FS.num? : FS → Option Number
  | .a x => x.num?
  | .f _ => none

def FS.ofNum (n : Number) : FS := .a (.n n none)

def FS.asBool : FS → Option Bool
  | .a x => x.asBool
  | .f _ => none

def FS.ofBool (b : Bool) : FS := .a (.b b)

def FS.Ten : FS → Prop
  | .a x => x.Ten
  | .f _ => True

def FS.base : FS → ℕ
  | .a x => x.base
  | .f _ => 10

/-- Texts among functions. -/
def FS.texts : Texts FS Empty Ref where
  text? := fun x => match x with | .a x => AS.texts.text? x | .f _ => none
  ofText := fun t => .a (.t t)
  ofBool := FS.ofBool
  num? := FS.num?
  ofNum := FS.ofNum
  render := fun v =>
    match v with
    | .sc (.a x) => AS.texts.render (.sc x)
    | _ => .error (.py "TypeError")
  lower := fun t => t.map Char.toLower
  upper := fun t => t.map Char.toUpper

theorem FS.shows (k : ℕ) : ShowsWhole k FS.num? FS.Ten FS.texts := by
  intro w n hq hn hd hk
  cases w with
  | a x => exact AS.shows k x n hq hn hd hk
  | f l => cases hn

/-- Without validators. -/
def bareFunc : Calc FS Empty Ref ℕ where
  validator := fun _ => none
  number := fun x => match x with | .a (.n a k) => some (.a (.n a k)) | _ => none
  isNumber := fun x => match x with | .a (.n _ _) => true | _ => false
  cast := fun x => match x with | .a (.n _ k) => k | _ => none
  setCast := fun k x => match x with | .a (.n a _) => .a (.n a (some k)) | x => x
  normalise := some (fun l _ _ => .ok (l, none))
  toString := fun _ => .ok "x"

/-- The validators; that of arrays looks up the others, never with a sub-type. -/
def funcValidator (array : Opd FS Empty Ref → Option String → Except Raise Bool) (t : String) :
    Option (Opd FS Empty Ref → Option String → Except Raise Bool) :=
  if t = "variable" then some validateVariable
  else if t = "number" then some (validateNumber bareFunc)
  else if t = "string" then some (Strings.validateString FS.texts)
  else if t = "boolean" then some (validateBoolean FS.asBool)
  else if t = "exception" then some validateException
  else if t = "array" then some array else none

/-- A calculator with functions as values, and with arrays. -/
def funcCalc : Calc FS Empty Ref ℕ :=
  { bareFunc with
    validator := funcValidator (validateArray { bareFunc with
      validator := funcValidator (fun x _ => validateArray bareFunc x none) }) }

def noUnits : UnitAlgebra FS Empty where
  unit? := fun _ => none
  ofUnit := fun u => nomatch u
  mul := fun u => nomatch u
  div := fun u => nomatch u
  power := fun u => nomatch u
  recip := fun u => nomatch u
  keep := id

theorem funcCalc_strings : HasStrings funcCalc FS.texts where
  string := rfl
  number := rfl
  array := by
    show some _ = some _
    congr 1
    funext x sub
    unfold validateArray
    cases x.value with
    | sc v => rfl
    | exc e => rfl
    | arr els =>
      cases sub with
      | none => rfl
      | some t =>
        dsimp only
        induction els with
        | nil => rfl
        | cons e es ih =>
          unfold validateArray.go
          rw [ih]
          simp only [funcCalc, funcValidator]
          by_cases h : t = "array"
          · simp [h, validateArray]
          · simp [h]
  back := fun _ => rfl
  notNumber := fun _ => rfl

theorem funcCalc_arithmetical : Arithmetical funcCalc FS.num? FS.ofNum FS.asBool FS.ofBool noUnits FS.Ten FS.texts where
  numbers := rfl
  logic := ⟨rfl, rfl⟩
  plain := by
    intro f hf nums m r h
    cases hf
    rfl
  isNumber := fun _ => rfl
  notNumber := fun _ => rfl
  read := fun _ => rfl
  same := fun w n h => by
    cases w with
    | a w => cases w with
      | n a k => rfl
      | b v => cases h
      | t v => cases h
    | f l => cases h
  cast := fun k w n h => by
    cases w with
    | a w => cases w with
      | n a k => exact h
      | b v => cases h
      | t v => cases h
    | f l => cases h
  truth := fun _ => rfl
  notUnit := fun _ _ _ => rfl
  notUnit' := fun _ _ _ => rfl
  untyped := fun _ => rfl
  strings := funcCalc_strings
  textNum := rfl
  textOfNum := rfl
  textOfBool := rfl
  notUnit'' := fun _ _ _ => rfl
  shown := fun w b h => by
    cases w with
    | a w => exact quietCalc_arithmetical.shown w b h
    | f l => cases h
  lower := fun _ _ => rfl
  upper := fun _ _ => rfl
  typed := fun w k w' h1 h2 h3 => by
    cases w with
    | a w => cases w with
      | n a j => cases h1; cases h2
      | b v => cases h2
      | t v => cases h2
    | f l => cases h2

/-- Functions are values, and there are no files. -/
def funcPointers : Pointers FS Empty ℕ where
  ofFunc := .f
  asFunc := fun x => match x with | .f its => some its | .a _ => none
  external := fun _ => none

theorem funcPointers_keeps : Keeps funcPointers noUnits := ⟨fun _ => rfl, fun _ => rfl⟩

theorem isVar_param : IsVar asciiFull "PARAM1".toList where
  free := ⟨⟨'P', "ARAM1".toList, rfl, by decide, by decide⟩, by decide +kernel, by decide +kernel⟩
  noConst := by decide +kernel
  noUnit := by
    intro u v e hu hv
    have hlen : u.length ≤ 6 := by
      have := congrArg List.length e
      simp at this
      omega
    have hu' : u = ("PARAM1".toList).take u.length := by rw [e]; simp
    have hv' : v = ("PARAM1".toList).drop u.length := by rw [e]; simp
    have hpos : 0 < u.length := List.length_pos_iff.2 hu
    have : u.length = 5 ∨ u.length = 6 := by
      by_contra hne
      have : u.length = 1 ∨ u.length = 2 ∨ u.length = 3 ∨ u.length = 4 := by omega
      rcases this with h | h | h | h <;> rw [h] at hv' <;> rw [hv'] at hv <;>
        exact absurd (hv _ rfl).1 (by decide)
    rcases this with h | h <;> rw [h] at hu' <;> rw [hu'] <;> decide +kernel
  noWord := by
    intro y hy v e
    have hcheck : (asciiFull.systems ++ asciiFull.numTypes).all
        (fun y => !(y.isPrefixOf "PARAM1".toList)) = true := by decide +kernel
    have := List.all_eq_true.1 hcheck y hy
    rw [Bool.not_eq_true', ← Bool.not_eq_true, List.isPrefixOf_iff_prefix] at this
    exact absurd ⟨v, e.symm⟩ this

/-- No ranges. -/
def noRanges : RangeCfg FS Empty := ⟨30, 0, FS.num?, fun _ => false, fun _ => FS.ofNum, fun u => nomatch u.2⟩

/-- `width=PARAM1*2`, the first line of the function. -/
def firstLine : List Parse.Item :=
  [.leaf .var "width".toList, .leaf .op ['='], .leaf .var "PARAM1".toList, .leaf .op ['*'], .leaf .num ['2']]

/-- `width+1`, the second line of the function. -/
def secondLine : List Parse.Item := [.leaf .var "width".toList, .leaf .op ['+'], .leaf .num ['1']]

/-- What is between the braces. -/
def funcBody : List Parse.Item := firstLine ++ .leaf .terminator ['\n'] :: secondLine

/-- `@width(@width(4))`. -/
def nestedCall : List Parse.Item :=
  [.nest .pointer "@width(@width(4))".toList (.leaf .funcName ('@' :: "width".toList) :: .leaf .funcStart ['('] ::
    [.nest .pointer "@width(4)".toList (.leaf .funcName ('@' :: "width".toList) :: .leaf .funcStart ['('] ::
      [.leaf .num ['4']] ++ [.leaf .funcEnd [')']])] ++ [.leaf .funcEnd [')']])]

/-- `width={width=PARAM1*2⏎width+1}` and `@width(@width(4))`. -/
def funcItems : List (List Parse.Item) :=
  [[.leaf .var "width".toList, .leaf .op ['='],
    .nest .inline "{width=PARAM1*2\nwidth+1}".toList (.leaf .inlineStart ['{'] :: funcBody ++ [.leaf .inlineEnd ['}']]),
    .leaf .terminator ['\n']],
   nestedCall]

theorem width_name : IsName "width".toList := ⟨'w', "idth".toList, rfl, by decide, by decide⟩

theorem grammatical_line {its : List Parse.Item} (h : Grammatical its) : Sentence (its.filter Parse.Item.functional) :=
  ⟨its, h, rfl⟩

theorem firstLine_sentence : Sentence (firstLine.filter Parse.Item.functional) := by
  refine grammatical_line ⟨some (), _, .assign (v := ()) (Change.mk (a := []) (b := []) (x := "width".toList) (o := ['='])
    (fun _ h => by cases h) (fun _ h => by cases h)) ?_⟩
  have lift : ∀ {toks : List (Tok Unit)} {v : Unit} (i j : ℕ),
      Spec.Reads documented (fun _ _ => .ok ()) i toks v → Spec.Reads documented (fun _ _ => .ok ()) (i + j) toks v := by
    intro toks v i j h
    induction j with
    | zero => exact h
    | succ j ih => exact .up ih
  refine .phrase (toks := [.val (), .op "*", .val ()]) (.word (by decide) trivial (.op (.word (by decide) trivial .nil))) ?_
  exact lift 7 9 (toks := [.val ()] ++ .op "*" :: [.val ()])
    (.left (k := 6) (o := "*") (v := ()) (w := ()) rfl (by decide) (lift 0 7 (.atom _)) (lift 0 6 (.atom _)) rfl)

theorem func_num {names : List Text} (c d : Char) (n : ℕ) (nl : Bool) (hc : c.isDigit = true)
    (hd : d ∈ [')', '}', '\n', ']']) : Parse.Spec.ReadingC asciiFull names Sentence n nl true [c] (.leaf .num [c]) (some d) := by
  have : Parse.Spec.Leaf asciiFull nl true [c] .num (some d) := by
    refine .num (demo_digit c hc) ?_
    intro e he
    cases he
    simp only [List.mem_cons, List.not_mem_nil, or_false] at hd
    rcases hd with rfl | rfl | rfl | rfl <;> decide
  cases n with
  | zero => exact ⟨_, rfl, this⟩
  | succ n => exact .inl ⟨_, rfl, this⟩

/-- A variable before an operator. -/
theorem func_var {names : List Text} {w : Text} (hw : IsVar asciiFull w) (c : Char) (n : ℕ) (nl first : Bool) (h1 : c.toNat < 128)
    (h2 : Parse.asciiWord c = false) (h3 : c ≠ '(')
    (h4 : asciiFull.unitNames.all (fun o => !((lowerText w ++ [c]).isPrefixOf o)) = true)
    (h5 : asciiFull.unitSymbols.all (fun o => !((w ++ [c]).isPrefixOf o)) = true) :
    Parse.Spec.ReadingC asciiFull names Sentence (n + 1) nl first w (.leaf .var w) (some c) :=
  .inl ⟨_, rfl, .var hw (demo_ends c h1 h2) (by simpa using h3) (demo_longer _ _ _ h4) (demo_longer _ _ _ h5)⟩

theorem func_op {names : List Text} (o : Text) (c : Char) (n : ℕ) (nl : Bool) (h1 : o ∈ asciiFull.ops)
    (h2 : asciiFull.ops.all (fun o' => !((o ++ [c]).isPrefixOf o')) = true)
    (h3 : Parse.isLetter (o.headD '+') = false) :
    Parse.Spec.ReadingC asciiFull names Sentence (n + 1) nl false o (.leaf .op o) (some c) :=
  .inl ⟨_, rfl, demo_op o c h1 h2 h3 nl⟩

theorem firstLine_written : Parse.Spec.Line (Parse.Spec.ReadingC asciiFull [] Sentence 1 false) true "width=PARAM1*2".toList
    firstLine (some '\n') := by
  refine Parse.Spec.Line.cons (t := "width".toList) (rest := "=PARAM1*2".toList)
    (func_var isVar_width '=' 0 false true (by decide) (by decide) (by decide) (by decide +kernel) (by decide +kernel)) ?_
  refine Parse.Spec.Line.cons (t := ['=']) (rest := "PARAM1*2".toList)
    (func_op ['='] 'P' 0 false (by decide +kernel) (by decide +kernel) (by decide)) ?_
  refine Parse.Spec.Line.cons (t := "PARAM1".toList) (rest := "*2".toList)
    (func_var isVar_param '*' 0 false true (by decide) (by decide) (by decide) (by decide +kernel) (by decide +kernel)) ?_
  refine Parse.Spec.Line.cons (t := ['*']) (rest := "2".toList)
    (func_op ['*'] '2' 0 false (by decide +kernel) (by decide +kernel) (by decide)) ?_
  exact Parse.Spec.Line.cons (t := ['2']) (rest := []) (func_num '2' '\n' 1 false (by decide) (by decide)) .nil

theorem secondLine_written : Parse.Spec.Line (Parse.Spec.ReadingC asciiFull [] Sentence 1 false) true "width+1".toList
    secondLine (some '}') := by
  refine Parse.Spec.Line.cons (t := "width".toList) (rest := "+1".toList)
    (func_var isVar_width '+' 0 false true (by decide) (by decide) (by decide) (by decide +kernel) (by decide +kernel)) ?_
  refine Parse.Spec.Line.cons (t := ['+']) (rest := "1".toList)
    (func_op ['+'] '1' 0 false (by decide +kernel) (by decide +kernel) (by decide)) ?_
  exact Parse.Spec.Line.cons (t := ['1']) (rest := []) (func_num '1' '}' 1 false (by decide) (by decide)) .nil

theorem define_written : Parse.Spec.Line (Parse.Spec.ReadingC asciiFull [] Sentence 2 false) true
    "width={width=PARAM1*2\nwidth+1}".toList
    [.leaf .var "width".toList, .leaf .op ['='],
    .nest .inline "{width=PARAM1*2\nwidth+1}".toList (.leaf .inlineStart ['{'] :: funcBody ++ [.leaf .inlineEnd ['}']])]
    (some '\n') := by
  refine Parse.Spec.Line.cons (t := "width".toList) (rest := "={width=PARAM1*2\nwidth+1}".toList)
    (func_var isVar_width '=' 1 false true (by decide) (by decide) (by decide) (by decide +kernel) (by decide +kernel)) ?_
  refine Parse.Spec.Line.cons (t := ['=']) (rest := "{width=PARAM1*2\nwidth+1}".toList)
    (func_op ['='] '{' 1 false (by decide +kernel) (by decide +kernel) (by decide)) ?_
  refine Parse.Spec.Line.cons (t := "{width=PARAM1*2\nwidth+1}".toList) (rest := []) (.inr (.inr (.inr (.inr (.inl
    ⟨"width=PARAM1*2".toList ++ '\n' :: "width+1".toList,
    [firstLine ++ [.leaf .terminator ['\n']], secondLine ++ [.leaf .inlineEnd ['}']]],
    .more rfl firstLine_written firstLine_sentence (.last secondLine_written), rfl, ?_⟩))))) .nil
  simp [funcBody]

theorem call_in_call_written : Parse.Spec.Line (Parse.Spec.ReadingC asciiFull [] Sentence 2 false) true
    "@width(@width(4))".toList
    nestedCall none := by
  refine Parse.Spec.Line.cons (t := "@width(@width(4))".toList) (rest := []) (.inr (.inr (.inr (.inl
    ⟨"width".toList, "@width(4)".toList, _, width_name, .last ?_, rfl, rfl⟩)))) .nil
  refine Parse.Spec.Line.cons (t := "@width(4)".toList) (rest := []) (.inr (.inr (.inr (.inl
    ⟨"width".toList, "4".toList, _, width_name, .last ?_, rfl, rfl⟩)))) .nil
  exact Parse.Spec.Line.cons (t := ['4']) (rest := []) (func_num '4' ')' 0 true (by decide) (by decide)) .nil

theorem func_written : Parse.Spec.ProgramC asciiFull [] 2 Sentence (fun _ => True)
    "width={width=PARAM1*2\nwidth+1}\n@width(@width(4))".toList funcItems :=
  .more (complete := fun _ => True) (t := "width={width=PARAM1*2\nwidth+1}".toList) (ts := "@width(@width(4))".toList)
    define_written True.intro (.last call_in_call_written)

/-- The variable `width` holds the function. -/
def funcEnv : Store Thing := fun n => if n = "width" then some (.func funcBody) else none

theorem calls_mean : SaysWith 9 true (OperandAt 30 9 true 3) funcEnv nestedCall (.plain (.num 19)) := by
  have lift : ∀ {toks : List (Tok Thing)} {v : Thing} (i j : ℕ),
      Spec.Reads documented (thingOps 9 true) i toks v → Spec.Reads documented (thingOps 9 true) (i + j) toks v := by
    intro toks v i j h
    induction j with
    | zero => exact h
    | succ j ih => exact .up ih
  have digit : ∀ (d : ℕ) (env : Store Thing) (c : Char) (n : ℕ), digitValue c = some n → n < 10 →
      OperandAt 30 9 true (d + 1) env (.leaf .num [c]) (.plain (.num n)) := by
    intro d env c n h hn
    refine .word ?_
    have := Word.number (p := 30) (env := fun _ => none) (neg := false) (whole := [c]) (frac := [])
      (ip := [n]) (fp := []) (.cons ⟨h, hn⟩ .nil) (by simp) .nil (by norm_num)
    simpa [positionalQ, positional] using this
  have change : ∀ (o : Text) (rest : List Parse.Item), Change (.leaf .var "width".toList :: .leaf .op o :: rest) "width"
      (String.ofList o) rest := by
    intro o rest
    exact Change.mk (a := []) (b := []) (x := "width".toList) (fun _ h => by cases h) (fun _ h => by cases h)
  -- a call with a number
  have call : ∀ (d : ℕ) (env : Store Thing) (t : Text) (args : List Parse.Item) (q : ℕ), q < 10 →
      env "width" = some (.func funcBody) →
      ArgsMean (OperandAt 30 9 true (d + 1) env) (thingOps 9 true) (lifted (schoolFunctions 9 true)) args [.plain (.num q)] →
      OperandAt 30 9 true (d + 2) env (.nest .pointer t (.leaf .funcName ('@' :: "width".toList) :: .leaf .funcStart ['('] :: args
        ++ [.leaf .funcEnd [')']])) (.plain (.num (2 * q + 1 : ℕ))) := by
    intro d env t args q hq hf ha
    refine .call (lines := [firstLine, secondLine])
      (answers := [some (.plain (.num (q * 2))), some (.plain (.num (2 * q + 1 : ℕ)))]) ha hf
      (.more (by simp [firstLine]) (.last (by simp [secondLine]))) (.cons (.assign (v := Thing.plain (.num (q * 2))) (change ['='] _) ?_)
        (.cons (.value ?_) .nil)) rfl
    · refine .phrase (toks := [.val (.plain (.num q)), .op "*", .val (.plain (.num (2 : ℕ)))])
        (.word (by decide) (.var ?_) (.op (.word (by decide) (digit d _ '2' 2 (by decide) (by norm_num)) .nil))) ?_
      · simp only [params, Store.set]
        rw [if_pos (by decide)]
      · refine lift 7 9 (toks := [.val (.plain (.num q))] ++ .op "*" :: [.val (.plain (.num (2 : ℕ)))])
          (.left (k := 6) (o := "*") (v := .plain (.num q)) (w := .plain (.num (2 : ℕ))) rfl (by decide)
            (lift 0 7 (.atom _)) (lift 0 6 (.atom _)) ?_)
        show (school 9 true "*" [.num q, .num (2 : ℕ)]).map Thing.plain = _
        simp only [school, short]
        rw [if_pos ?_]
        · rfl
        · interval_cases q <;> exact ⟨by decide +kernel, by decide +kernel⟩
    · refine .phrase (toks := [.val (.plain (.num (q * 2))), .op "+", .val (.plain (.num (1 : ℕ)))])
        (.word (by decide) (.var rfl) (.op (.word (by decide) (digit d _ '1' 1 (by decide) (by norm_num)) .nil))) ?_
      refine lift 8 8 (toks := [.val (.plain (.num (q * 2)))] ++ .op "+" :: [.val (.plain (.num (1 : ℕ)))])
          (.left (k := 7) (o := "+") (v := .plain (.num (q * 2))) (w := .plain (.num (1 : ℕ))) rfl (by decide)
            (lift 0 8 (.atom _)) (lift 0 7 (.atom _)) ?_)
      show (school 9 true "+" [.num (q * 2), .num (1 : ℕ)]).map Thing.plain = _
      simp only [school, short]
      rw [if_pos ?_]
      · simp only [Except.map]
        congr 3
        push_cast
        ring
      · interval_cases q <;> exact ⟨by decide +kernel, by decide +kernel⟩
  have one : ∀ {d : ℕ} {env : Store Thing} {it : Parse.Item} {v : Thing}, isOperand it = true →
      OperandAt 30 9 true d env it v → SaysWith 9 true (OperandAt 30 9 true d) env [it] v := by
    intro d env it v hi h
    exact .phrase (toks := [.val v]) (.word hi h .nil) (lift 0 16 (.atom _))
  refine one (by decide) ?_
  exact call 1 funcEnv _ _ 9 (by norm_num) rfl (.last (one (by decide)
    (call 0 funcEnv _ _ 4 (by norm_num) rfl (.last (one (by decide) (digit 0 _ '4' 4 (by decide) (by norm_num)))))))

theorem func_means : FunctionLines 30 9 true 3 (fun _ => none) funcItems
    [some (.func funcBody), some (.plain (.num 19))] funcEnv := by
  have lift : ∀ {toks : List (Tok Thing)} {v : Thing} (i j : ℕ),
      Spec.Reads documented (thingOps 9 true) i toks v → Spec.Reads documented (thingOps 9 true) (i + j) toks v := by
    intro toks v i j h
    induction j with
    | zero => exact h
    | succ j ih => exact .up ih
  refine .cons (.assign (v := Thing.func funcBody) (Change.mk (a := []) (b := []) (x := "width".toList) (o := ['='])
    (fun _ h => by cases h) (fun _ h => by cases h))
    (.phrase (toks := [.val (Thing.func funcBody)]) ?_ (lift 0 16 (.atom _)))) ?_
  · exact .word (v := Thing.func funcBody) (by decide) (Operand.inline (body := funcBody)) (.skip (by decide) .nil)
  exact .cons (.value calls_mean) .nil

/-- The engine of the example. -/
def funcEngine : Config (Opd FS Empty Ref) (St FS Empty ℕ) :=
  progEngine 30 FS.num? FS.ofNum noUnits FS.asBool FS.ofBool FS.texts (fun _ _ => .ok 0) funcCalc
    (fun _ _ s => (.error (.calc "no"), s)) (fun _ => ⟨.sc (.a (.b false)), none, none, none⟩) FS.base (fun _ => 0) (fun _ => none)

/-- Non-vacuity: a function of two lines that assigns to the very variable it is in.  After the call
of a call, the variable is the function again. -/
example : ∃ rs s', calculateText (shippedCfg asciiFull [] (Parse.incomplete funcEngine)) funcEngine
    (operandVal funcEngine funcCalc funcPointers noRanges
      (wordVal 30 FS.ofNum FS.ofBool FS.texts (.a (.b false)) (fun _ s => (.error (.calc "no"), s))) 1000)
    (finalize ⟨true, fun _ => false, fun v _ => .ok (v, none)⟩) 3
    "width={width=PARAM1*2\nwidth+1}\n@width(@width(4))".toList none ⟨fun _ => none, 5⟩ = some (.ran rs .done, none, s') ∧
    List.Forall₂ (fun r a => ReportsOf (HasThing FS.num? FS.Ten FS.asBool FS.texts noUnits funcPointers) r.answer a) rs
      [some (.func funcBody), some (.plain (.num 19))] ∧
    HoldsOf (HasThing FS.num? FS.Ten FS.asBool FS.texts noUnits funcPointers) funcEnv s' ∧ s'.rest = 5 := by
  obtain ⟨rs, s', h1, h2, h3, h4, _⟩ := C82_program funcCalc_arithmetical funcPointers noRanges funcPointers_keeps rfl (k := 9)
    (by norm_num) (fun _ _ => .ok 0) Parse.asciiWord Parse.isLetter (fun _ _ => rfl) (fun _ _ => rfl) []
    ⟨true, fun _ => false, fun v _ => .ok (v, none)⟩ (.a (.b false))
    (fun _ _ s => (.error (.calc "no"), s)) (fun _ s => (.error (.calc "no"), s))
    (fun _ => ⟨.sc (.a (.b false)), none, none, none⟩) (base := FS.base) (offset := fun _ => 0) (rounding := true) (fun _ w hw => by
      cases w with
      | a x => exact ten_base x hw
      | f l => exact ⟨rfl, rfl⟩) (fun _ => FS.shows 9) (fun _ => none) (d := 3) (depth := 1000) (by norm_num) (env := fun _ => none)
    (s := (⟨fun _ => none, 5⟩ : St FS Empty ℕ)) (fun n v h => by cases h) (fun n v u h => by cases h)
    func_written func_means (by decide) 0
  exact ⟨rs, s', h1, h2, h3, h4⟩

/-- Non-vacuity: the last line on its own, where `width` holds the function. -/
example (s : St FS Empty ℕ) (hs : s.vars "width" = some (.sc (.f (.leaf .inlineStart ['{'] :: funcBody ++
      [.leaf .inlineEnd ['}']])), none)) (hclean : Clean s) :
    ∃ x, calculateText (shippedCfg asciiFull [] (Parse.incomplete funcEngine)) funcEngine
    (operandVal funcEngine funcCalc funcPointers noRanges
      (wordVal 30 FS.ofNum FS.ofBool FS.texts (.a (.b false)) (fun _ s => (.error (.calc "no"), s))) 1000)
    (finalize ⟨true, fun _ => false, fun v _ => .ok (v, none)⟩) 3 "@width(@width(4))".toList none s
      = some (.ran [⟨some x, s⟩] .done, none, s) ∧
    HasThing FS.num? FS.Ten FS.asBool FS.texts noUnits funcPointers x (.plain (.num 19)) := by
  refine C82_expression funcCalc_arithmetical funcPointers noRanges funcPointers_keeps rfl (k := 9)
    (by norm_num) (fun _ _ => .ok 0) Parse.asciiWord Parse.isLetter (fun _ _ => rfl) (fun _ _ => rfl) []
    ⟨true, fun _ => false, fun v _ => .ok (v, none)⟩ (.a (.b false))
    (fun _ _ s => (.error (.calc "no"), s)) (fun _ s => (.error (.calc "no"), s))
    (fun _ => ⟨.sc (.a (.b false)), none, none, none⟩) (base := FS.base) (offset := fun _ => 0) (rounding := true) (fun _ w hw => by
      cases w with
      | a x => exact ten_base x hw
      | f l => exact ⟨rfl, rfl⟩) (fun _ => FS.shows 9) (fun _ => none) (d := 3) (depth := 1000) (by norm_num) (env := funcEnv)
    (fun n v h => ?_) hclean call_in_call_written calls_mean 0
  unfold funcEnv at h
  split at h
  · rename_i e
    cases h
    subst e
    exact ⟨_, hs, rfl, _, rfl, rfl, rfl⟩
  · cases h

end MC.Props
