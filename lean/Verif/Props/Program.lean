import Verif.Lemmas.Complete
import Verif.Model.Program
import Verif.Props.Arithmetic
import Verif.Props.State3

/-! # C73: programs with variables compute what they say, line by line -/

namespace MC.Props
open MC MC.Spec MC.Numerical MC.Numeric MC.Arrays MC.Boolean MC.Number MC.State
open MC.Strings (Texts HasStrings ReadsAs IsString IsInt)
open MC.Parse (Kind Text Cache shippedCfg)
set_option linter.unusedSectionVars false

section
variable {S U K σ : Type} {c : Calc S U Ref K} {op : Operation S U Ref σ} {x : Opd S U Ref} {n : String}

/-- A call of `++` or `--` on a variable that holds no array. -/
theorem step_call (hc : HasVariables c) (ht : op.values = [⟨0, some 0, [.ty "variable"]⟩])
    (h1 : op.minParams = some 1) (h2 : op.maxParams = some 1) (h3 : op.units = [])
    (hr : x.ref = some (.var n)) {w : S} (hx : x.value = .sc w) (s : σ) :
    call c op [x] s = match op.ref [x] s with
      | (.ok r, s') => (.ok (finishResult c op none none r), op.after [x] (finishResult c op none none r) s')
      | (.error e, s') => (.error (wrap c op [x] e), s') := by
  have hs : spreads op 0 [x] = [] := by simp [spreads, spread, hx]
  have hval : validate c op [x] = .ok () := by
    unfold MC.validate
    rw [h1, h2, h3, ht]
    simp [checkValues, checkFrom, Operation.applies, anyType, validateInput,
      show c.validator "variable" = some validateVariable from hc, validateVariable, hr, checkUnits]
  have hprep : prepare c op [x] = .ok ([x], none, none) := by
    have hcf : convertFrom c op 0 [x] = [x] := by
      simp [convertFrom, convertible, ht, Operation.applies]
    have hco : castOf c op [x] = none := by simp [castOf, ht]
    have hnum : numbersFrom c op 0 [x] = none := by
      unfold numbersFrom
      simp [hx, Operation.canBe, ht, Operation.applies, ObjType.main]
    unfold prepare
    rw [hco, hcf]
    simp [hnum, normaliseArrays, hx]
  rw [call_eq, hs]
  simp only
  rw [if_neg (by simp)]
  unfold callScalar attempt
  have : [x].find? (fun x => x.value.err?.isSome) = none := by simp [hx, Val.err?]
  simp only [this, ite_self, hval, hprep]
  cases op.ref [x] s with
  | mk r s' => cases r <;> rfl

end

section
variable {S U K τ : Type} {c : Calc S U Ref K} {num? : S → Option Number} {ofNum : Number → S}
  {asBool : S → Option Bool} {ofBool : Bool → S} {ua : UnitAlgebra S U} {Q : S → Prop} {T : Texts S U Ref} {p : ℕ} {rounding : Bool}

/-- The variables hold what `env` says, where `Has` is what it is to hold something. -/
def HoldsOf {W : Type} (Has : Opd S U Ref → W → Prop) (env : Store W) (s : St S U τ) : Prop :=
  ∀ n v, env n = some v → ∃ w, s.vars n = some (w, none) ∧ Has ⟨w, none, none, none⟩ v

/-- The variables hold the numbers and truth values that `env` says. -/
def Holds (num? : S → Option Number) (Q : S → Prop) (asBool : S → Option Bool) (T : Texts S U Ref) (env : Env) (s : St S U τ) : Prop :=
  ∀ n v, env n = some v → ∃ w, s.vars n = some (w, none) ∧
    HasPlain num? Q asBool T (⟨w, none, none, none⟩ : Opd S U Ref) v

/-- The engine of the shipped calculator with these numbers and truth values, and assignments. -/
def progEngine (p : ℕ) (num? : S → Option Number) (ofNum : Number → S) (ua : UnitAlgebra S U)
    (asBool : S → Option Bool) (ofBool : Bool → S) (T : Texts S U Ref) (powF : ℚ → ℚ → Except Err ℚ) (c : Calc S U Ref K)
    (others : String → List (Opd S U Ref) → Act (St S U τ) (Opd S U Ref))
    (mkErr : ExecErr → Opd S U Ref) (base : S → ℕ) (offset : S → ℤ)
    (funcs : String → Option (FuncDef (Opd S U Ref) (St S U τ))) :
    Config (Opd S U Ref) (St S U τ) :=
  numEngine p num? ofNum ua asBool ofBool T powF c (assignCalls p num? ofNum ua powF c false others) mkErr base offset funcs

theorem HasPlain.forget {x : Opd S U Ref} {v : Spec.Plain} (h : HasPlain num? Q asBool T x v) (r o) :
    HasPlain num? Q asBool T (⟨x.value, none, r, o⟩ : Opd S U Ref) v := by
  cases v with
  | num q =>
    obtain ⟨n, ⟨_, h2⟩, h3⟩ := h
    exact ⟨n, ⟨rfl, h2⟩, h3⟩
  | truth b => exact ⟨rfl, h.2⟩
  | text t => exact ⟨rfl, h.2⟩

theorem holds_set {env : Env} {s : St S U τ} (h : Holds num? Q asBool T env s) {x : Opd S U Ref} {v : Spec.Plain}
    (hx : HasPlain num? Q asBool T x v) (n : String) :
    Holds num? Q asBool T (env.set n v) (setVar s n x.value x.unit) := by
  intro m w hm
  unfold Store.set at hm
  simp only [setVar]
  split at hm
  · rename_i e
    cases hm
    rw [if_pos e, hx.unit]
    exact ⟨_, rfl, hx.forget none none⟩
  · rename_i e
    rw [if_neg e]
    exact h m w hm

theorem HasPlain.err {x : Opd S U Ref} {v : Spec.Plain} (h : HasPlain num? Q asBool T x v) : ∀ e, x.value ≠ .exc e := by
  obtain ⟨w, hw⟩ := h.scalar
  intro e he
  rw [hw] at he
  cases he

variable (ho : Arithmetical c num? ofNum asBool ofBool ua Q T)
include ho

/-- The result of a compound assignment is still the number. -/
theorem finish_kept {σ : Type} (op : Operation S U Ref σ) {k : Option K}
    (hk : ∀ j, k = some j → ∃ w, Q w ∧ c.cast w = some j) {r : Opd S U Ref} {q : ℚ}
    (h : HasPlain num? Q asBool T r (.num q)) :
    HasPlain num? Q asBool T (finishResult c op none k ⟨r.value, some r.unit, none⟩) (.num q) := by
  obtain ⟨n, ⟨h1, h2, w, h3, h4, h6⟩, h5⟩ := h
  refine ⟨n, ⟨by simpa [finishResult] using h1, h2, ?_⟩, h5⟩
  unfold finishResult
  simp only [h3]
  cases k with
  | none => exact ⟨w, rfl, h4, h6⟩
  | some k =>
    obtain ⟨w', h7, h8⟩ := hk k rfl
    dsimp only
    split
    · exact ⟨_, rfl, ho.cast k w n h4, ho.typed w' k w h7 h8 h6⟩
    · exact ⟨w, rfl, h4, h6⟩

theorem setVar_twice (s : St S U τ) (n : String) (v w : Val S U Ref) (a b : Option U) :
    setVar (setVar s n v a) n w b = setVar s n w b := by
  simp only [setVar, St.mk.injEq, and_true]
  funext m
  split <;> rfl

/-- `x op= v`: the variable is set to the result of the operator. -/
theorem compound_plain (hvars : HasVariables c) {symbol : String} {op : Operation S U Ref (St S U τ)} {n : String}
    {s : St S U τ} {w0 : Val S U Ref} {v r : Opd S U Ref} {a b q : ℚ}
    (h0 : s.vars n = some (w0, none)) (hw0 : HasPlain num? Q asBool T (⟨w0, none, none, none⟩ : Opd S U Ref) (.num a))
    (hv : HasPlain num? Q asBool T v (.num b))
    (hcall : call c op [⟨w0, none, none, none⟩, v] s = (.ok r, s)) (hr : HasPlain num? Q asBool T r (.num q)) :
    ∃ r', call c (opCompound c symbol op false) [⟨w0, none, some (.var n), none⟩, v] s
        = (.ok r', setVar s n r'.value r'.unit) ∧ HasPlain num? Q asBool T r' (.num q) := by
  obtain ⟨m, ⟨_, _, w, hvw, hm, hq⟩, _⟩ := hv
  have hw := ho.same w m hm
  have hx' : w0.err? = none := err_none_iff.2 hw0.err
  rw [compound_call (n := n) hvars ho.numbers rfl rfl rfl rfl rfl rfl hx' hvw hw]
  have htg : target (⟨w0, none, some (.var n), none⟩ : Opd S U Ref) = .ok n := rfl
  have h1 : (opCompound c symbol op false).ref [⟨w0, none, some (.var n), none⟩, v] s
      = (.ok ⟨r.value, some r.unit, none⟩, setVar s n r.value r.unit) := by
    simp only [opCompound, assignmentOperator, htg, Bool.false_eq_true, if_false, h0, hcall]
  rw [h1]
  refine ⟨_, ?_, finish_kept ho (opCompound c symbol op false) (fun j hj => ⟨w, hq, hj⟩) hr⟩
  simp only
  congr 1
  simp only [opCompound, writeBack, htg, Bool.false_eq_true, if_false]
  rw [setVar_twice ho]

/-- `x++` and `x--`. -/
theorem step_plain (hvars : HasVariables c) {symbol : String} {op : Operation S U Ref (St S U τ)} {n : String}
    {s : St S U τ} {w0 : Val S U Ref} {r : Opd S U Ref} {one : S} {a q : ℚ}
    (h0 : s.vars n = some (w0, none)) (hw0 : HasPlain num? Q asBool T (⟨w0, none, none, none⟩ : Opd S U Ref) (.num a))
    (hcall : call c op [⟨w0, none, none, none⟩, ⟨.sc one, none, none, none⟩] s = (.ok r, s))
    (hr : HasPlain num? Q asBool T r (.num q)) :
    ∃ r', call c (opStep c symbol op one false) [⟨w0, none, some (.var n), none⟩] s
        = (.ok r', setVar s n r'.value r'.unit) ∧ HasPlain num? Q asBool T r' (.num q) := by
  obtain ⟨w, hw⟩ := hw0.scalar
  simp only at hw
  rw [step_call (n := n) hvars rfl rfl rfl rfl rfl hw]
  have htg : target (⟨w0, none, some (.var n), none⟩ : Opd S U Ref) = .ok n := rfl
  have h1 : (opStep c symbol op one false).ref [⟨w0, none, some (.var n), none⟩] s
      = (.ok ⟨r.value, some r.unit, none⟩, setVar s n r.value r.unit) := by
    simp only [opStep, assignmentOperator, htg, Bool.false_eq_true, if_false, h0, hcall]
  rw [h1]
  refine ⟨_, ?_, finish_kept ho (k := none) (opStep c symbol op one false) (fun j hj => by cases hj) hr⟩
  simp only
  congr 1
  simp only [opStep, writeBack, htg, Bool.false_eq_true, if_false]
  rw [setVar_twice ho]

omit ho in
/-- The arithmetic operators say nothing about texts. -/
theorem onTexts_numbers {k : ℕ} {o : String} (h : o ∈ ["+", "-", "*", "/", "^", "%", "\\"]) {u v w : Spec.Plain} :
    onTexts k rounding o u v ≠ .ok w := by
  intro hs
  unfold onTexts at hs
  split at hs
  · cases hs
  · split at hs
    · exact absurd h (by decide)
    · split at hs
      · cases hs
      · simp only [List.mem_cons, List.not_mem_nil, or_false] at h
        rcases h with rfl | rfl | rfl | rfl | rfl | rfl | rfl <;> cases hs

omit ho in
/-- The arithmetic operators take numbers and give numbers. -/
theorem school_numbers {k : ℕ} {o : String} (h : o ∈ ["+", "-", "*", "/", "^", "%", "\\"]) {u v w : Spec.Plain}
    (hs : school k rounding o [u, v] = .ok w) : ∃ a b q, u = .num a ∧ v = .num b ∧ w = .num q := by
  have none := onTexts_numbers (k := k) (rounding := rounding) h (u := u) (v := v) (w := w)
  simp only [List.mem_cons, List.not_mem_nil, or_false] at h
  cases u with
  | truth a => rcases h with rfl | rfl | rfl | rfl | rfl | rfl | rfl <;> exact absurd hs none
  | text a => rcases h with rfl | rfl | rfl | rfl | rfl | rfl | rfl <;> exact absurd hs none
  | num a =>
    cases v with
    | truth b => rcases h with rfl | rfl | rfl | rfl | rfl | rfl | rfl <;> exact absurd hs none
    | text b => rcases h with rfl | rfl | rfl | rfl | rfl | rfl | rfl <;> exact absurd hs none
    | num b =>
      refine ⟨a, b, ?_⟩
      rcases h with rfl | rfl | rfl | rfl | rfl | rfl | rfl <;> simp only [school] at hs
      all_goals
        repeat (split at hs)
        all_goals first
          | cases hs
          | (obtain ⟨_, _, rfl⟩ := short_ok hs
             exact ⟨_, rfl, rfl, rfl⟩)

omit ho in
theorem school_flag {k : ℕ} {o : String} (h : o ∈ ["+", "-", "*", "/", "^", "%", "\\"]) (a b : ℚ) :
    school k rounding o [.num a, .num b] = school k false o [.num a, .num b] := by
  simp only [List.mem_cons, List.not_mem_nil, or_false] at h
  rcases h with rfl | rfl | rfl | rfl | rfl | rfl | rfl <;> rfl

omit ho in
/-- A value that is neither an array nor an exception, or an array of such values without units. -/
def Flat : Val S U Ref → Prop
  | .sc _ => True
  | .arr l => ∀ e ∈ l, e.orig = none ∧ e.unit = none ∧ ∃ w, e.value = .sc w
  | .exc _ => False

omit ho in
theorem Flat.settled {v : Val S U Ref} (h : Flat v) : Settled v := by
  intro l hl x hx
  subst hl
  exact (h x hx).1

omit ho in
theorem finalize_flat (fi : Finish S U Ref) {x : Opd S U Ref} (h : Flat x.value) (hu : x.unit = none) {σ : Type} (s : σ) :
    finalize fi x s = (.ok x, s) := by
  obtain ⟨v, u, r, o⟩ := x
  cases hu
  cases v with
  | sc w => exact finalize_plain fi rfl rfl s
  | exc e => exact h.elim
  | arr l =>
    have : finalizeList fi l = .ok l := by
      simp only [Flat] at h
      induction l with
      | nil => rw [finalizeList]
      | cons e l ih =>
        obtain ⟨_, h2, w, h3⟩ := h e (by simp)
        have := congrArg Prod.fst (finalize_plain fi h3 h2 s)
        simp only [finalize] at this
        rw [finalizeList, this]
        simp only [ih (fun e he => h e (by simp [he]))]
    simp only [finalize, finalizeOpd, this]

/-- What it is to hold something, for values other than numbers and truth values too. -/
structure Holding {W : Type} (ua : UnitAlgebra S U) (num? : S → Option Number) (Q : S → Prop) (asBool : S → Option Bool) (T : Texts S U Ref)
    (Has : Opd S U Ref → W → Prop) (k : ℕ) (f : String → List W → Except String W) (one : W) : Prop where
  flat : ∀ {x v}, Has x v → Flat x.value
  unit : ∀ {x v}, Has x v → x.unit = none
  forget : ∀ {x v}, Has x v → ∀ r o, Has ⟨x.value, none, r, o⟩ v
  good : ∀ {x v}, Has x v → Good ua x
  operator : ∀ {o u v w}, o ∈ ["+", "-", "*", "/", "^", "%", "\\"] → f o [u, v] = .ok w → ∃ a b q,
    school k false o [.num a, .num b] = .ok (.num q) ∧ (∀ x, Has x u → HasPlain num? Q asBool T x (.num a)) ∧
    (∀ x, Has x v ↔ HasPlain num? Q asBool T x (.num b)) ∧ (∀ x, HasPlain num? Q asBool T x (.num q) → Has x w)
  one : ∀ {x}, HasPlain num? Q asBool T x (.num 1) → Has x one

theorem Holding.err {W : Type} {Has : Opd S U Ref → W → Prop} {k : ℕ} {f : String → List W → Except String W} {one : W}
    (hh : Holding ua num? Q asBool T Has k f one) {x : Opd S U Ref} {v : W} (h : Has x v) : ∀ e, x.value ≠ .exc e := by
  intro e he
  have := hh.flat h
  rw [he] at this
  exact this

omit ho in
theorem holdsOf_set {W : Type} {Has : Opd S U Ref → W → Prop} (hu : ∀ {x v}, Has x v → x.unit = none)
    (hf : ∀ {x v}, Has x v → ∀ r o, Has ⟨x.value, none, r, o⟩ v) {env : Store W}
    {s : St S U τ} (h : HoldsOf Has env s) {x : Opd S U Ref} {v : W} (hx : Has x v) (n : String) :
    HoldsOf Has (env.set n v) (setVar s n x.value x.unit) := by
  intro m w hm
  unfold Store.set at hm
  simp only [setVar]
  split at hm
  · rename_i e
    cases hm
    rw [if_pos e, hu hx]
    exact ⟨_, rfl, hf hx none none⟩
  · rename_i e
    rw [if_neg e]
    exact h m w hm

/-- One line: nothing to run, or the value it answers with. -/
theorem line_execute {W : Type} {Has : Opd S U Ref → W → Prop} {k : ℕ} {f : String → List W → Except String W} {one : W}
    (hh : Holding ua num? Q asBool T Has k f one) {mean : Store W → List Parse.Item → W → Prop}
    (hvars : HasVariables c) (hk : 3 * k + 1 ≤ p)
    (powF : ℚ → ℚ → Except Err ℚ) (nothing : S)
    (others : String → List (Opd S U Ref) → Act (St S U τ) (Opd S U Ref))
    (wv : Parse.Item → Act (St S U τ) (Opd S U Ref)) (hwv : ∀ t, wv (.leaf .var t) = readVar nothing (String.ofList t))
    (mkErr : ExecErr → Opd S U Ref) {base : S → ℕ} {offset : S → ℤ}
    (funcs : String → Option (FuncDef (Opd S U Ref) (St S U τ)))
    {env env' : Store W} {s : St S U τ}
    (hmean : ∀ {its v}, mean env its v → ∃ x, Means (fun it x => wv it s = (.ok x, s) ∧ Good ua x)
      (outcome (callOf p num? ofNum ua asBool ofBool T powF c (assignCalls p num? ofNum ua powF c false others)) (Good ua) s)
      (outcome (callFunc (funcsOf p num? ofNum T base offset c funcs)) (Good ua) s) its x ∧ Has x v)
    (henv : HoldsOf Has env s) (hclean : Clean s)
    {its : List Parse.Item} {a : Option W} (h : LineOf mean f one env its a env') :
    (a = none ∧ env' = env ∧ Blank its ∧
      Node.srcs (progEngine p num? ofNum ua asBool ofBool T powF c others mkErr base offset funcs) wv (toNodes its) = []) ∨
    ∃ v r s', a = some v ∧
      Node.srcs (progEngine p num? ofNum ua asBool ofBool T powF c others mkErr base offset funcs) wv (toNodes its) ≠ [] ∧
      executeNodes (progEngine p num? ofNum ua asBool ofBool T powF c others mkErr base offset funcs) wv (toNodes its) s
        = (.ok r, s') ∧
      Has r v ∧ HoldsOf Has env' s' ∧ Clean s' ∧ s'.rest = s.rest ∧
      ∀ n : String, Parse.Item.leaf .var n.toList ∉ its → s'.vars n = s.vars n := by
  set cfg := progEngine p num? ofNum ua asBool ofBool T powF c others mkErr base offset funcs with hcfg
  set act := callOf p num? ofNum ua asBool ofBool T powF c (assignCalls p num? ofNum ua powF c false others)
    with hact
  have hblank : ∀ {its : List Parse.Item}, Blank its → Node.srcs cfg wv (toNodes its) = [] := by
    intro its hb
    induction its with
    | nil => rw [toNodes, Node.srcs]
    | cons it its ih =>
      obtain ⟨k, hk, t, rfl⟩ := hb it (by simp)
      have : toNode (.leaf k t) = .skip (String.ofList t) := by
        simp only [emptyKinds, List.mem_cons, List.not_mem_nil, or_false] at hk
        rcases hk with rfl | rfl | rfl <;> simp [toNode, Parse.Item.functional, Parse.Item.text]
      rw [toNodes, this, Node.srcs, Node.src]
      exact ih (fun x hx => hb x (by simp [hx]))
  have hchange : ∀ {its : List Parse.Item} {x o : String} {rest : List Parse.Item}, Change its x o rest →
      Node.srcs cfg wv (toNodes its)
        = .operand (readVar nothing x) :: .op o :: Node.srcs cfg wv (toNodes rest) ∧
      ∀ n : String, Parse.Item.leaf .var n.toList ∉ its → n ≠ x := by
    rintro its x o rest ⟨ha, hb⟩
    rename_i a b x o
    constructor
    · rw [toNodes_append, srcs_append, hblank ha, List.nil_append]
      rw [toNodes, Node.srcs, show toNode (.leaf .var x) = .atom (.leaf .var x) by
        simp [toNode, Parse.Item.functional], Node.src]
      simp only
      rw [toNodes_append, srcs_append, hblank hb, List.nil_append, toNodes, toNode, Node.srcs, Node.src, hwv]
    · rintro n hn rfl
      apply hn
      simp
  have hread : ∀ n, ∃ x : Opd S U Ref, readVar nothing n s = (.ok x, s) ∧ x.ref = some (.var n) ∧
      ∀ e, x.value ≠ .exc e := by
    intro n
    unfold readVar
    cases h : s.vars n with
    | none => exact ⟨_, rfl, rfl, fun e => by simp⟩
    | some q => exact ⟨_, rfl, rfl, hclean _ _ _ h⟩
  have hknown : ∀ {n : String} {u : W}, env n = some u → ∃ w, s.vars n = some (w, none) ∧
      Has ⟨w, none, none, none⟩ u ∧
      readVar nothing n s = (.ok ⟨w, none, some (.var n), none⟩, s) := by
    intro n u hn
    obtain ⟨w, h1, h2⟩ := henv n u hn
    exact ⟨w, h1, h2, by simp [readVar, h1]⟩
  -- the statement, when its items are run
  have hrun : ∀ {its : List Parse.Item} {src : List (Src (Opd S U Ref) (St S U τ))} {r : Opd S U Ref} {s' : St S U τ},
      Node.srcs cfg wv (toNodes its) = src → src ≠ [] → execute cfg src s = (.ok r, s') →
      Node.srcs cfg wv (toNodes its) ≠ [] ∧ executeNodes cfg wv (toNodes its) s = (.ok r, s') := by
    intro its src r s' h1 h2 h3
    unfold executeNodes
    rw [h1]
    exact ⟨h2, h3⟩
  -- the right hand side
  have hassign : ∀ {rest : List Parse.Item} {v : W} {x : Opd S U Ref} {o : String}
      {rd : Act (St S U τ) (Opd S U Ref)} (P : Opd S U Ref → St S U τ → Prop),
      mean env rest v → rd s = (.ok x, s) → o ∈ assigning →
      (∀ y, Has y v → ∃ r s', act o [x, y] s = (.ok r, s') ∧ P r s') →
      ∃ r s', execute cfg (.operand rd :: .op o :: Node.srcs cfg wv (toNodes rest)) s = (.ok r, s') ∧ P r s' := by
    intro rest v x o rd P hm hrd ho' hP
    obtain ⟨y, hy1, hy2⟩ := hmean hm
    obtain ⟨r, s', h1, h2⟩ := hP y hy2
    have hd := engine_does (ua := ua) act wv (funcsOf p num? ofNum T base offset c funcs) s
    obtain ⟨hs, hr⟩ := hy1
    have hg := stands_gives (mkErr := mkErr) hd hs
    exact ⟨r, s', execute_assign (fun o ins v h => (hd.operators o ins v h).1) hd.noUnits
      (fun x hx => (hg.2 x hx).1) hrd ho' hg.1 hr h1, h2⟩
  cases h with
  | blank hb => exact .inl ⟨rfl, rfl, hb, hblank hb⟩
  | @value v hm =>
    obtain ⟨x, hx1, hx2⟩ := hmean hm
    obtain ⟨_, _, h1, h2, _, _⟩ := means_runs (mkErr := mkErr)
      (engine_does (ua := ua) act wv (funcsOf p num? ofNum T base offset c funcs) s) hx1
    exact .inr ⟨v, x, s, rfl, h1, h2, hx2, henv, hclean, rfl, fun _ _ => rfl⟩
  | @assign n rest v hc hm =>
    obtain ⟨h1, h2⟩ := hchange hc
    obtain ⟨x, hx1, hx2, hx3⟩ := hread n
    obtain ⟨r, s', he, hv, rfl⟩ := hassign (o := "=") (fun r s' => Has r v ∧ s' = setVar s n r.value r.unit)
      hm hx1 (by decide) (by
        intro y hy
        obtain ⟨s', e1, e2, _⟩ := C33_assign hvars hx2 hx3 (hh.err ho hy)
          (hh.flat hy).settled nothing s
        refine ⟨⟨y.value, y.unit, none, none⟩, s', e1, ?_, setTo_iff.1 e2⟩
        rw [hh.unit hy]
        exact hh.forget hy none none)
    refine .inr ⟨v, r, _, rfl, (hrun h1 (by simp) he).1, (hrun h1 (by simp) he).2, hv, holdsOf_set (Has := Has) hh.unit hh.forget henv hv n,
      clean_setVar hclean (err_none_iff.2 (hh.err ho hv)), rfl, fun m hm => ?_⟩
    simp [setVar, h2 m hm]
  | @keep n rest u v hc hm hu =>
    obtain ⟨h1, h2⟩ := hchange hc
    obtain ⟨x, hx1, hx2, hx3⟩ := hread n
    obtain ⟨r, s', he, hv, rfl⟩ := hassign (o := "||=") (fun r s' => Has r v ∧ s' = s)
      hm hx1 (by decide) (by
        intro y hy
        obtain ⟨w0, hw0, _⟩ := hknown hu
        obtain ⟨s', e1, _, e2⟩ := C33_if_empty hvars hx2 hx3 (hh.err ho hy)
          (hh.flat hy).settled s
        refine ⟨⟨y.value, y.unit, none, none⟩, s', e1, ?_, e2 (by rw [hw0]; simp)⟩
        rw [hh.unit hy]
        exact hh.forget hy none none)
    exact .inr ⟨v, r, _, rfl, (hrun h1 (by simp) he).1, (hrun h1 (by simp) he).2, hv, henv, hclean, rfl, fun m hm => rfl⟩
  | @update n rest o u v w hop hc hm hu hs =>
    obtain ⟨h1, h2⟩ := hchange hc
    obtain ⟨w0, hw0, hw1, hw2⟩ := hknown hu
    obtain ⟨a, b, q, hs', hua, hvb, hwq⟩ := hh.operator hop hs
    clear hs
    rename' hs' => hs
    replace hw1 := hua _ hw1
    have hin : o ++ "=" ∈ assigning := by
      clear hs hc h1
      revert o
      decide
    obtain ⟨r, s', he, hv, rfl⟩ := hassign
      (fun r s' => HasPlain num? Q asBool T r (.num q) ∧ s' = setVar s n r.value r.unit)
      hm hw2 hin (by
        intro y hy
        replace hy := (hvb _).1 hy
        obtain ⟨r, hr1, hr2⟩ := school_does ho (rounding := false) hk (by simp) powF (assignCalls p num? ofNum ua powF c false others) hs
          (.cons hw1 (.cons hy .nil)) s
        have key : ∀ (sym : String) (op : Operation S U Ref (St S U τ)), act o = call c op →
            act (o ++ "=") = call c (opCompound c sym op false) →
            ∃ r' s', act (o ++ "=") [⟨w0, none, some (.var n), none⟩, y] s = (.ok r', s') ∧
              HasPlain num? Q asBool T r' (.num q) ∧ s' = setVar s n r'.value r'.unit := by
          intro sym op e1 e2
          rw [← hact, e1] at hr1
          obtain ⟨r', e3, e4⟩ := compound_plain ho hvars (symbol := sym) hw0 hw1 hy hr1 hr2
          exact ⟨r', _, by rw [e2, e3], e4, rfl⟩
        simp only [List.mem_cons, List.not_mem_nil, or_false] at hop
        rcases hop with rfl | rfl | rfl | rfl | rfl | rfl | rfl
        · exact key "+=" _ rfl rfl
        · exact key "-=" _ rfl rfl
        · exact key "*=" _ rfl rfl
        · exact key "/=" _ rfl rfl
        · exact key "^=" _ rfl rfl
        · exact key "%=" _ rfl rfl
        · exact key "\\=" _ rfl rfl)
    refine .inr ⟨w, r, _, rfl, (hrun h1 (by simp) he).1, (hrun h1 (by simp) he).2, hwq _ hv,
      holdsOf_set (Has := Has) hh.unit hh.forget henv (hwq _ hv) n,
      clean_setVar hclean (err_none_iff.2 (hh.err ho (hwq _ hv))), rfl, fun m hm => ?_⟩
    simp [setVar, h2 m hm]
  | @step n rest o u w hop hc hb hu hs =>
    obtain ⟨h1, h2⟩ := hchange hc
    rw [hblank hb] at h1
    obtain ⟨w0, hw0, hw1, hw2⟩ := hknown hu
    obtain ⟨a, b, q, hs', hua, hvb, hwq⟩ := hh.operator (by
      simp only [List.mem_cons, List.not_mem_nil, or_false] at hop
      rcases hop with rfl | rfl <;> decide) hs
    clear hs
    rename' hs' => hs
    replace hw1 := hua _ hw1
    have hone : HasPlain num? Q asBool T (⟨.sc (ofNum ⟨1, 1⟩), none, none, none⟩ : Opd S U Ref) (.num 1) :=
      ⟨⟨1, 1⟩, ⟨rfl, ⟨by norm_num, by decide⟩, _, rfl, ho.read _, ho.untyped _⟩, by norm_num [Number.val]⟩
    replace hone := (hvb _).1 (hh.one hone)
    obtain ⟨r, hr1, hr2⟩ := school_does ho (rounding := false) hk (by simp) powF (assignCalls p num? ofNum ua powF c false others) hs
      (.cons hw1 (.cons hone .nil)) s
    have hin : o ++ o ∈ ["++", "--"] := by
      clear hs hc hr1 h1
      revert o
      decide
    have key : ∀ (sym : String) (op : Operation S U Ref (St S U τ)), act o = call c op →
        act (o ++ o) = call c (opStep c sym op (ofNum ⟨1, 1⟩) false) →
        ∃ r', act (o ++ o) [⟨w0, none, some (.var n), none⟩] s = (.ok r', setVar s n r'.value r'.unit) ∧
          HasPlain num? Q asBool T r' (.num q) := by
      intro sym op e1 e2
      rw [← hact, e1] at hr1
      obtain ⟨r', e3, e4⟩ := step_plain ho hvars (symbol := sym) hw0 hw1 hr1 hr2
      exact ⟨r', by rw [e2, e3], e4⟩
    obtain ⟨r', e1, hv⟩ : ∃ r', act (o ++ o) [⟨w0, none, some (.var n), none⟩] s
        = (.ok r', setVar s n r'.value r'.unit) ∧ HasPlain num? Q asBool T r' (.num q) := by
      simp only [List.mem_cons, List.not_mem_nil, or_false] at hop
      rcases hop with rfl | rfl
      · exact key "++" _ rfl rfl
      · exact key "--" _ rfl rfl
    have he := execute_postfix (mkErr := mkErr) (getErr := fun x : Opd S U Ref => x.value.err?) (isUnit := fun x => (unitValue ua x).isSome) (funcs := funcsOf p num? ofNum T base offset c funcs) hw2 hin e1
    refine .inr ⟨w, r', _, rfl, (hrun h1 (by simp) he).1, (hrun h1 (by simp) he).2, hwq _ hv,
      holdsOf_set (Has := Has) hh.unit hh.forget henv (hwq _ hv) n, clean_setVar hclean (err_none_iff.2 (hh.err ho (hwq _ hv))), rfl, fun m hm => ?_⟩
    simp [setVar, h2 m hm]

omit ho in
/-- What the statement reports. -/
def ReportsOf {W : Type} (Has : Opd S U Ref → W → Prop) (r : Option (Opd S U Ref)) : Option W → Prop
  | none => r = none
  | some v => ∃ x, r = some x ∧ Has x v

/-- Lines one after the other, as statements. -/
theorem lines_calculate {W : Type} {Has : Opd S U Ref → W → Prop} {k : ℕ} {f : String → List W → Except String W}
    {one : W} (hh : Holding ua num? Q asBool T Has k f one) {mean : Store W → List Parse.Item → W → Prop}
    (hvars : HasVariables c) (hk : 3 * k + 1 ≤ p)
    (powF : ℚ → ℚ → Except Err ℚ) (fi : Finish S U Ref) (nothing : S)
    (others : String → List (Opd S U Ref) → Act (St S U τ) (Opd S U Ref))
    (wv : Parse.Item → Act (St S U τ) (Opd S U Ref)) (hwv : ∀ t, wv (.leaf .var t) = readVar nothing (String.ofList t))
    (mkErr : ExecErr → Opd S U Ref) {base : S → ℕ} {offset : S → ℤ}
    (funcs : String → Option (FuncDef (Opd S U Ref) (St S U τ)))
    (hmean : ∀ {env : Store W} {s : St S U τ}, HoldsOf Has env s → Clean s → ∀ {its v}, mean env its v →
      ∃ x, Means (fun it x => wv it s = (.ok x, s) ∧ Good ua x)
      (outcome (callOf p num? ofNum ua asBool ofBool T powF c (assignCalls p num? ofNum ua powF c false others)) (Good ua) s)
      (outcome (callFunc (funcsOf p num? ofNum T base offset c funcs)) (Good ua) s) its x ∧ Has x v)
    {env env' : Store W} {st : List (List Parse.Item)} {as : List (Option W)}
    (h : LinesOf mean f one env st as env') : ∀ (i : ℕ) {s : St S U τ}, HoldsOf Has env s → Clean s →
    ∃ rs s', MC.calculate (progEngine p num? ofNum ua asBool ofBool T powF c others mkErr base offset funcs)
        wv (finalize fi) i (st.map toNodes) s = (rs, .done, s') ∧
      List.Forall₂ (fun r a => ReportsOf Has r.answer a) rs as ∧
      HoldsOf Has env' s' ∧ Clean s' ∧ s'.rest = s.rest ∧
      ∀ n : String, (∀ its ∈ st, Parse.Item.leaf .var n.toList ∉ its) → s'.vars n = s.vars n := by
  induction h with
  | nil => exact fun i s h1 h2 => ⟨[], s, rfl, .nil, h1, h2, rfl, fun _ _ => rfl⟩
  | @cons env its a env' st as env'' hl _ ih =>
    intro i s h1 h2
    obtain ⟨r, s1, e1, e2, e3, e4, e5, e6⟩ : ∃ r s',
        stmt (progEngine p num? ofNum ua asBool ofBool T powF c others mkErr base offset funcs) wv (finalize fi)
          (toNodes its) s = (.ok r, s') ∧ ReportsOf Has r a ∧ HoldsOf Has env' s' ∧ Clean s' ∧ s'.rest = s.rest ∧
        ∀ n : String, Parse.Item.leaf .var n.toList ∉ its → s'.vars n = s.vars n := by
      rcases line_execute ho hh hvars hk powF nothing others wv hwv mkErr funcs (hmean h1 h2) h1 h2 hl with
        ⟨rfl, rfl, _, e⟩ | ⟨v, r, s', rfl, e0, e1, e2, e3, e4, e5, e6⟩
      · refine ⟨none, s, ?_, rfl, h1, h2, rfl, fun _ _ => rfl⟩
        unfold stmt
        rw [e]
      · refine ⟨some r, s', ?_, ⟨r, rfl, e2⟩, e3, e4, e5, e6⟩
        unfold stmt
        have h5 : (progEngine p num? ofNum ua asBool ofBool T powF c others mkErr base offset funcs).getErr r = none :=
          (hh.good e2).2
        split
        · rename_i e
          exact absurd e e0
        · simp only [e1, h5]
          simp only [finalize_flat fi (hh.flat e2) (hh.unit e2) s']
    obtain ⟨rs, s2, f1, f2, f3, f4, f5, f6⟩ := ih (i + 1) e3 e4
    refine ⟨⟨r, s1⟩ :: rs, s2, ?_, .cons e2 f2, f3, f4, f5.trans e5, fun n hn => ?_⟩
    · rw [List.map_cons, MC.calculate, e1]
      simp only [f1]
    · rw [f6 n (fun its hi => hn its (by simp [hi])), e6 n (hn _ (by simp))]

omit ho in
/-- What the statement reports. -/
def Reports (num? : S → Option Number) (Q : S → Prop) (asBool : S → Option Bool) (T : Texts S U Ref) :
    Option (Opd S U Ref) → Option Spec.Plain → Prop := ReportsOf (HasPlain num? Q asBool T)

theorem holding_plain {k : ℕ} : Holding ua num? Q asBool T (HasPlain num? Q asBool T : Opd S U Ref → Spec.Plain → Prop)
    k (school k rounding) (.num 1) where
  flat := by
    intro x v h
    obtain ⟨w, hw⟩ := HasPlain.scalar h
    rw [hw]
    trivial
  unit := HasPlain.unit
  forget := HasPlain.forget
  good := fun h => h.good ho
  operator := by
    intro o u v w h1 h2
    obtain ⟨a, b, q, rfl, rfl, rfl⟩ := school_numbers h1 h2
    exact ⟨a, b, q, (school_flag h1 a b).symm.trans h2, fun _ h => h, fun _ => Iff.rfl, fun _ h => h⟩
  one := id

/-- The lines one after the other. -/
theorem lines_run (hvars : HasVariables c) {k : ℕ} (hk : 3 * k + 1 ≤ p)
    (powF : ℚ → ℚ → Except Err ℚ) (fi : Finish S U Ref) (nothing : S)
    (others : String → List (Opd S U Ref) → Act (St S U τ) (Opd S U Ref))
    (words : Parse.Item → Act (St S U τ) (Opd S U Ref)) (mkErr : ExecErr → Opd S U Ref)
    {base : S → ℕ} {offset : S → ℤ} {rounding : Bool}
    (hround : rounding = true → ∀ w, Q w → base w = 10 ∧ offset w = 0) (hshow : rounding = true → ShowsWhole k num? Q T)
    (funcs : String → Option (FuncDef (Opd S U Ref) (St S U τ)))
    {env env' : Env} {st : List (List Parse.Item)} {as : List (Option Spec.Plain)}
    (h : LinesMean p k rounding env st as env') : ∀ (i : ℕ) {s : St S U τ}, Holds num? Q asBool T env s → Clean s →
    ∃ rs s', MC.calculate (progEngine p num? ofNum ua asBool ofBool T powF c others mkErr base offset funcs)
        (wordVal p ofNum ofBool T nothing words) (finalize fi) i (st.map toNodes) s = (rs, .done, s') ∧
      List.Forall₂ (fun r a => Reports num? Q asBool T r.answer a) rs as ∧
      Holds num? Q asBool T env' s' ∧ Clean s' ∧ s'.rest = s.rest ∧
      ∀ n : String, (∀ its ∈ st, Parse.Item.leaf .var n.toList ∉ its) → s'.vars n = s.vars n := by
  exact lines_calculate ho (holding_plain ho) hvars hk powF fi nothing others (wordVal p ofNum ofBool T nothing words)
    (fun _ => rfl) mkErr funcs (fun h _ _ _ hm => arithmetic_means ho hk powF nothing
      (assignCalls p num? ofNum ua powF c false others) words hround hshow funcs h hm) h

omit ho in
theorem program_complete {x : Parse.Lex} {names : List Text} {n p k : ℕ} {inc : List Parse.Item → Bool}
    (hinc : ∀ {env env' : Env} {its : List Parse.Item} {a : Option Spec.Plain}, LineMeans p k rounding env its a env' →
      inc (its.filter Parse.Item.functional) = false) {t : Text} {st : List (List Parse.Item)}
    (h : Parse.Spec.Program x names n (fun _ => True) t st) :
    ∀ {env env' : Env} {as : List (Option Spec.Plain)}, LinesMean p k rounding env st as env' →
      Parse.Spec.Program x names n (fun its => inc its = false) t st := by
  induction h with
  | last h => exact fun _ => .last h
  | more h _ _ ih =>
    intro env env' as hl
    cases hl with
    | cons h1 h2 =>
      refine .more h ?_ (ih h2)
      have := hinc h1
      rwa [List.filter_append, show [Parse.Item.leaf .terminator ['\n']].filter Parse.Item.functional = [] by
        simp [Parse.Item.functional], List.append_nil] at this

/-- **C73**: a program of lines with expressions (those of `C72_arithmetic`, with texts and functions), assignments (`=`, `||=`), compound assignments
(`+=` and so on), `++` and `--`, spaces and comments is answered line by line with what the lines
mean, where each line sees the variables as the lines before it left them.  At the end the variables
hold what they were last given; variables that do not occur, and everything else, are as before.  The
numbers an operator is applied to have at most `k` digits above and below the line, where `3k+1` is
at most the precision. -/
theorem C73_program (hvars : HasVariables c) {k : ℕ} (hk : 3 * k + 1 ≤ p)
    (powF : ℚ → ℚ → Except Err ℚ) (word alpha : Char → Bool)
    (hw : ∀ c, c.toNat < 128 → word c = Parse.asciiWord c)
    (ha : ∀ c, c.toNat < 128 → alpha c = Parse.isLetter c)
    (names : List Text) (fi : Finish S U Ref) (nothing : S)
    (others : String → List (Opd S U Ref) → Act (St S U τ) (Opd S U Ref))
    (words : Parse.Item → Act (St S U τ) (Opd S U Ref)) (mkErr : ExecErr → Opd S U Ref)
    {base : S → ℕ} {offset : S → ℤ} {rounding : Bool}
    (hround : rounding = true → ∀ w, Q w → base w = 10 ∧ offset w = 0) (hshow : rounding = true → ShowsWhole k num? Q T)
    (funcs : String → Option (FuncDef (Opd S U Ref) (St S U τ)))
    {env env' : Env} {s : St S U τ} (henv : Holds num? Q asBool T env s) (hclean : Clean s)
    {n : ℕ} {t : Text} {st : List (List Parse.Item)} {as : List (Option Spec.Plain)}
    (hx : Parse.Spec.Program (fullLex p powF word alpha) names n (fun _ => True) t st)
    (hm : LinesMean p k rounding env st as env') (ht : t ≠ []) (extra : ℕ) :
    ∃ rs s', calculateText (shippedCfg (fullLex p powF word alpha) names
          (Parse.incomplete (progEngine p num? ofNum ua asBool ofBool T powF c others mkErr base offset funcs)))
        (progEngine p num? ofNum ua asBool ofBool T powF c others mkErr base offset funcs)
        (wordVal p ofNum ofBool T nothing words) (finalize fi) (n + extra + 1) t none s
        = some (.ran rs .done, none, s') ∧
      List.Forall₂ (fun r a => Reports num? Q asBool T r.answer a) rs as ∧
      Holds num? Q asBool T env' s' ∧ s'.rest = s.rest ∧
      ∀ n : String, (∀ its ∈ st, Parse.Item.leaf .var n.toList ∉ its) → s'.vars n = s.vars n := by
  obtain ⟨rs, s', e1, e2, e3, _, e4, e5⟩ := lines_run ho hvars hk powF fi nothing others words mkErr hround hshow funcs hm 0
    henv hclean
  refine ⟨rs, s', ?_, e2, e3, e4, e5⟩
  rw [calculateText, if_neg ht, C69_statements hw ha names
    (Parse.incomplete (progEngine p num? ofNum ua asBool ofBool T powF c others mkErr base offset funcs))
    (fun _ h => h.elim) (program_complete (fun hl => line_complete _ _ _ _ _ hl) hx hm) extra]
  simp only [e1]

end

/-! ## Non-vacuity -/

/-- The lines of the example. -/
def progItems : List (List Parse.Item) :=
  [[.leaf .var "width".toList, .leaf .op ['='], .leaf .num ['7'], .leaf .terminator ['\n']],
   [.leaf .var "width".toList, .leaf .op ['/', '='], .leaf .num ['2'], .leaf .terminator ['\n']],
   testItems]

theorem prog_line (o : Text) (c d : Char) (hd : d.isDigit = true) (h1 : o ∈ asciiFull.ops)
    (h2 : asciiFull.ops.all (fun o' => !((o ++ [d]).isPrefixOf o')) = true) (hc : o.head? = some c)
    (h3 : c.toNat < 128) (h4 : Parse.asciiWord c = false)
    (h5 : asciiFull.unitNames.all (fun o => !(("width".toList ++ [c]).isPrefixOf o)) = true)
    (h6 : asciiFull.unitSymbols.all (fun o => !(("width".toList ++ [c]).isPrefixOf o)) = true)
    (h7 : c ≠ '(') :
    Parse.Spec.Line (Parse.Spec.Reading asciiFull [] 1 false) true ("width".toList ++ (o ++ ([d] ++ [])))
      [.leaf .var "width".toList, .leaf .op o, .leaf .num [d]] (some '\n') := by
  have hh : ((o ++ ([d] ++ [])).head?.or (some '\n')) = some c := by
    cases o with
    | nil => cases hc
    | cons a t => simpa using hc
  refine Parse.Spec.Line.cons (.inl ⟨_, rfl, ?_⟩) ?_
  · rw [hh]
    exact .var isVar_width (demo_ends c h3 h4) (by simpa using h7)
      (demo_longer _ _ _ h5) (demo_longer _ _ _ h6)
  refine Parse.Spec.Line.cons (.inl ⟨_, rfl, ?_⟩) ?_
  · refine demo_op o d h1 h2 ?_ false
    cases o with
    | nil => rfl
    | cons a t =>
      have e : a = c := by simpa using hc
      subst e
      have : Parse.asciiWord a = (Parse.isLetter a || a.isDigit || a = '_') := rfl
      rw [h4] at this
      simp only [List.headD_cons]
      cases hl : Parse.isLetter a with
      | false => rfl
      | true => rw [hl] at this; simp at this
  refine Parse.Spec.Line.cons (.inl ⟨_, rfl, .num (demo_digit d hd) ?_⟩) .nil
  intro c hc
  cases hc
  decide

theorem prog_written : Parse.Spec.Program asciiFull [] 1 (fun _ => True)
    "width=7\nwidth/=2\n2*(width -1)>=5".toList progItems := by
  refine .more (t := "width=7".toList) (ts := "width/=2\n2*(width -1)>=5".toList)
    (its := [.leaf .var "width".toList, .leaf .op ['='], .leaf .num ['7']]) ?_ trivial
    (.more (t := "width/=2".toList) (ts := "2*(width -1)>=5".toList)
      (its := [.leaf .var "width".toList, .leaf .op ['/', '='], .leaf .num ['2']]) ?_ trivial (.last test_written))
  · exact prog_line ['='] '=' '7' (by decide) (by decide +kernel) (by decide +kernel) rfl (by decide) (by decide)
      (by decide +kernel) (by decide +kernel) (by decide)
  · exact prog_line ['/', '='] '/' '2' (by decide) (by decide +kernel) (by decide +kernel) rfl (by decide)
      (by decide) (by decide +kernel) (by decide +kernel) (by decide)

theorem prog_means : LinesMean 30 9 true (fun _ => none) progItems
    [some (.num (7 : ℕ)), some (.num (7 / 2)), some (.truth true)] widthEnv := by
  have digit : ∀ (env : Env) (c : Char) (d : ℕ), digitValue c = some d → d < 10 →
      Says 30 9 true env [.leaf .num [c], .leaf .terminator ['\n']] (.num d) := by
    intro env c d h hd
    refine .phrase (toks := [.val (.num d)]) (.word rfl ?_ (.skip (by decide) .nil)) ?_
    · have := Word.number (p := 30) (env := env) (neg := false) (whole := [c]) (frac := [])
        (ip := [d]) (fp := []) (.cons ⟨h, hd⟩ .nil) (by simp) .nil (by norm_num)
      simpa [onlyWords, positionalQ, positional] using this
    · have : ∀ j, Spec.Reads documented (school 9 true) (0 + j) [.val (.num (d : ℚ))] (.num d) := by
        intro j
        induction j with
        | zero => exact .atom _
        | succ j ih => exact .up ih
      exact this 16
  have change : ∀ (o : Text) (rest : List Parse.Item), Change (.leaf .var "width".toList :: .leaf .op o :: rest) "width"
      (String.ofList o) rest := by
    intro o rest
    exact Change.mk (a := []) (b := []) (x := "width".toList) (fun _ h => by cases h) (fun _ h => by cases h)
  refine .cons (.assign (change ['='] _) (digit _ '7' 7 (by decide) (by norm_num))) ?_
  refine .cons (.update (o := "/") (u := .num (7 : ℕ)) (w := .num (7 / 2)) (by decide) (change ['/', '='] _)
    (digit _ '2' 2 (by decide) (by norm_num)) rfl ?_) ?_
  · simp only [school, short]
    rw [if_neg (by norm_num), if_pos ⟨by decide +kernel, by decide +kernel⟩]
    norm_num
  have : Store.set (Store.set (fun _ => none) "width" (.num (7 : ℕ))) "width" (.num (7 / 2)) = widthEnv := by
    funext n
    unfold Store.set widthEnv
    split <;> rfl
  rw [this]
  exact .cons (.value test_means) .nil

/-- Non-vacuity: three lines that set, change and use a variable, from a state without variables. -/
example : ∃ rs s', calculateText (shippedCfg asciiFull []
      (Parse.incomplete (progEngine (τ := ℕ) 30 AS.num? AS.ofNum noAlgebra AS.asBool AS.b AS.texts (fun _ _ => .ok 0) quietCalc
        (fun _ _ s => (.error (.calc "no"), s)) (fun _ => ⟨.sc (.b false), none, none, none⟩) AS.base (fun _ => 0) (fun _ => none))))
    (progEngine 30 AS.num? AS.ofNum noAlgebra AS.asBool AS.b AS.texts (fun _ _ => .ok 0) quietCalc
      (fun _ _ s => (.error (.calc "no"), s)) (fun _ => ⟨.sc (.b false), none, none, none⟩) AS.base (fun _ => 0) (fun _ => none))
    (wordVal 30 AS.ofNum AS.b AS.texts (.b false) (fun _ s => (.error (.calc "no"), s)))
    (finalize ⟨true, fun _ => false, fun v _ => .ok (v, none)⟩) 2
    "width=7\nwidth/=2\n2*(width -1)>=5".toList none ⟨fun _ => none, 5⟩ = some (.ran rs .done, none, s') ∧
    List.Forall₂ (fun r a => Reports AS.num? AS.Ten AS.asBool AS.texts r.answer a) rs
      [some (.num (7 : ℕ)), some (.num (7 / 2)), some (.truth true)] ∧
    Holds AS.num? AS.Ten AS.asBool AS.texts widthEnv s' ∧ s'.rest = 5 := by
  obtain ⟨rs, s', h1, h2, h3, h4, _⟩ := C73_program quietCalc_arithmetical rfl (k := 9) (by norm_num)
    (fun _ _ => .ok 0) Parse.asciiWord Parse.isLetter (fun _ _ => rfl) (fun _ _ => rfl) []
    ⟨true, fun _ => false, fun v _ => .ok (v, none)⟩ (.b false)
    (fun _ _ s => (.error (.calc "no"), s)) (fun _ s => (.error (.calc "no"), s))
    (fun _ => ⟨.sc (.b false), none, none, none⟩) (rounding := true) (fun _ => ten_base) (fun _ => AS.shows 9) (fun _ => none) (env := fun _ => none)
    (s := (⟨fun _ => none, 5⟩ : St AS Empty ℕ)) (fun n v h => by cases h) (fun n v u h => by cases h)
    prog_written prog_means (by decide) 0
  exact ⟨rs, s', h1, h2, h3, h4⟩

end MC.Props
