import Verif.Model.Operation
import Mathlib.Tactic.Common

/-!
# What the engine does to the state follows from what its parts do

`Keeps rel act`: running `act` takes every state to a related one.  If `rel` is reflexive and
transitive and all operands, operators and functions keep it, so does every calculation.
-/

namespace MC

variable {V σ A α : Type} {rel : σ → σ → Prop}

/-- Running `act` from any state ends in a related state. -/
def Keeps (rel : σ → σ → Prop) (act : Act σ α) : Prop := ∀ s, rel s (act s).2

section engine
variable {cfg : Config V σ}
variable (hr : ∀ s, rel s s) (ht : ∀ {a b c}, rel a b → rel b c → rel a c)
include hr ht

omit ht in
theorem execOp_keeps (hops : ∀ o d, opsList cfg o = some d → ∀ ins, Keeps rel (d.call ins))
    (sym : String) (items : List (Item V)) (i : ℕ) (item : Item V) (w : ℕ) :
    Keeps rel (execOp cfg sym items i item w) := by
  intro s
  unfold execOp
  cases ho : opsList cfg sym with
  | none => exact hr s
  | some d =>
    simp only
    split
    · exact hr s
    · split
      · exact hr s
      · split
        · exact hr s
        · rename_i inputs _
          have := hops sym d ho inputs s
          cases hc : d.call inputs s with
          | mk r s' =>
            rw [hc] at this
            cases r with
            | ok v => exact this
            | error e => cases e <;> exact this

theorem loop_keeps (hops : ∀ o d, opsList cfg o = some d → ∀ ins, Keeps rel (d.call ins)) :
    ∀ (fuel : ℕ) (items : List (Item V)) (s : σ) (r : Except Raise V × σ),
    loop cfg fuel items s = some r → rel s r.2 := by
  intro fuel
  induction fuel with
  | zero =>
    intro items s r h
    rw [loop] at h
    cases hs : step cfg items with
    | none => rw [hs] at h; simp only [Option.some.injEq] at h; subst h; exact hr s
    | some act => rw [hs] at h; simp at h
  | succ n ih =>
    intro items s r h
    rw [loop] at h
    cases hs : step cfg items with
    | none => rw [hs] at h; simp only [Option.some.injEq] at h; subst h; exact hr s
    | some act =>
      rw [hs] at h
      simp only at h
      have hact : Keeps rel act := by
        unfold step at hs
        split at hs
        · simp at hs
        · split at hs
          · simp at hs
          · simp only [Option.some.injEq] at hs
            subst hs
            exact execOp_keeps hr hops _ _ _ _ _
      have h1 := hact s
      cases ha : act s with
      | mk res s' =>
        rw [ha] at h h1
        cases res with
        | ok items' => exact ht h1 (ih items' s' r h)
        | error e => simp only [Option.some.injEq] at h; subst h; exact h1

omit hr ht in
theorem execOperand_keeps (i : ℕ) {result : Act σ V} (h : Keeps rel result) :
    Keeps rel (execOperand cfg i result) := by
  intro s
  have h1 := h s
  unfold execOperand
  cases ha : result s with
  | mk res s' =>
    rw [ha] at h1
    cases res with
    | ok v => exact h1
    | error e => cases e <;> exact h1

theorem execOperands_keeps : ∀ (items : List (Src V σ)) (i : ℕ),
    (∀ r, Src.operand r ∈ items → Keeps rel r) → Keeps rel (execOperands cfg i items)
  | [], i, _ => fun s => by rw [execOperands]; exact hr s
  | .op o :: rest, i, h => fun s => by
    have ih := execOperands_keeps rest (i + 1) (fun r hm => h r (List.mem_cons_of_mem _ hm)) s
    rw [execOperands]
    cases ha : execOperands cfg (i + 1) rest s with
    | mk res s' => rw [ha] at ih; cases res <;> exact ih
  | .operand r :: rest, i, h => fun s => by
    rw [execOperands]
    have h1 := execOperand_keeps (cfg := cfg) i (h r (List.mem_cons_self ..)) s
    cases ha : execOperand cfg i r s with
    | mk res s' =>
      rw [ha] at h1
      cases res with
      | error e => exact h1
      | ok v =>
        have ih := execOperands_keeps rest (i + 1)
          (fun r hm => h r (List.mem_cons_of_mem _ hm)) s'
        simp only
        cases hb : execOperands cfg (i + 1) rest s' with
        | mk res2 s'' => rw [hb] at ih; cases res2 <;> exact ht h1 ih

theorem execute_keeps (hops : ∀ o d, opsList cfg o = some d → ∀ ins, Keeps rel (d.call ins))
    (items : List (Src V σ)) (h : ∀ r, Src.operand r ∈ items → Keeps rel r) :
    Keeps rel (execute cfg items) := by
  intro s
  unfold execute
  cases he : executeF cfg items.length items s with
  | none => exact hr s
  | some r =>
    simp only [Option.getD_some]
    unfold executeF at he
    cases items with
    | nil => simp only [Option.some.injEq] at he; subst he; exact hr s
    | cons x xs =>
      simp only at he
      have h1 := execOperands_keeps (cfg := cfg) hr ht (x :: xs) 0 h s
      cases ha : execOperands cfg 0 (x :: xs) s with
      | mk res s' =>
        rw [ha] at he h1
        cases res with
        | error e => simp only [Option.some.injEq] at he; subst he; exact h1
        | ok its => exact ht h1 (loop_keeps hr ht hops _ _ _ _ he)

theorem argVals_keeps (canBeExc : Bool) : ∀ (runs : List (Act σ V)),
    (∀ r ∈ runs, Keeps rel r) → Keeps rel (argVals cfg canBeExc runs)
  | [], _ => fun s => by rw [argVals]; exact hr s
  | run :: rest, h => fun s => by
    have h1 := h run (List.mem_cons_self ..) s
    rw [argVals]
    cases ha : run s with
    | mk res s' =>
      rw [ha] at h1
      cases res with
      | error e => exact h1
      | ok v =>
        simp only
        split
        · exact h1
        · exact h1
        · have ih := argVals_keeps canBeExc rest (fun r hm => h r (List.mem_cons_of_mem _ hm)) s'
          cases hb : argVals cfg canBeExc rest s' with
          | mk res2 s'' => rw [hb] at ih; cases res2 <;> exact ht h1 ih

theorem funcVal_keeps
    (hfuncs : ∀ n f, cfg.funcs n = some f → ∀ ins, Keeps rel (f.call ins))
    (name : String) (runs : List (Act σ V)) (h : ∀ r ∈ runs, Keeps rel r) :
    Keeps rel (funcVal cfg name runs) := by
  intro s
  unfold funcVal
  cases hf : cfg.funcs name with
  | none => exact hr s
  | some f =>
    simp only
    have h1 := argVals_keeps (cfg := cfg) hr ht f.canBeExc runs h s
    cases ha : argVals cfg f.canBeExc runs s with
    | mk res s' =>
      rw [ha] at h1
      cases res with
      | error e => exact h1
      | ok vs => exact ht h1 (hfuncs name f hf vs s')

omit hr ht in
theorem innerVal_keeps {run : Act σ V} (h : Keeps rel run) : Keeps rel (innerVal cfg run) := by
  intro s
  have h1 := h s
  unfold innerVal
  cases ha : run s with
  | mk res s' =>
    rw [ha] at h1
    cases res with
    | error e => exact h1
    | ok v => simp only; split <;> exact h1

section nodes
set_option linter.unusedSectionVars false
variable {atomVal : A → Act σ V}
variable (hops : ∀ o d, opsList cfg o = some d → ∀ ins, Keeps rel (d.call ins))
variable (hfuncs : ∀ n f, cfg.funcs n = some f → ∀ ins, Keeps rel (f.call ins))
variable (hatoms : ∀ a, Keeps rel (atomVal a))
include hops hfuncs hatoms

mutual
theorem src_keeps : ∀ (n : Node A) (r : Act σ V), n.src cfg atomVal = some (.operand r) →
    Keeps rel r
  | .op s, r, h => by simp [Node.src] at h
  | .skip _, r, h => by simp [Node.src] at h
  | .atom a, r, h => by
    simp only [Node.src, Option.some.injEq, Src.operand.injEq] at h
    subst h; exact hatoms a
  | .inner items, r, h => by
    simp only [Node.src, Option.some.injEq, Src.operand.injEq] at h
    subst h
    exact innerVal_keeps (execute_keeps hr ht hops _ (srcs_keeps items))
  | .func name args, r, h => by
    simp only [Node.src, Option.some.injEq, Src.operand.injEq] at h
    subst h
    exact funcVal_keeps hr ht hfuncs name _ (runs_keeps args)
theorem srcs_keeps : ∀ (ns : List (Node A)) (r : Act σ V),
    Src.operand r ∈ Node.srcs cfg atomVal ns → Keeps rel r
  | [], r, h => by simp [Node.srcs] at h
  | n :: ns, r, h => by
    rw [Node.srcs] at h
    cases hn : n.src cfg atomVal with
    | none => rw [hn] at h; exact srcs_keeps ns r h
    | some x =>
      rw [hn] at h
      rcases List.mem_cons.mp h with h | h
      · exact src_keeps n r (by rw [hn, h])
      · exact srcs_keeps ns r h
theorem runs_keeps : ∀ (as : List (List (Node A))) (r : Act σ V),
    r ∈ Node.runs cfg atomVal as → Keeps rel r
  | [], r, h => by simp [Node.runs] at h
  | a :: as, r, h => by
    rw [Node.runs] at h
    rcases List.mem_cons.mp h with h | h
    · subst h; exact execute_keeps hr ht hops _ (srcs_keeps a)
    · exact runs_keeps as r h
end

theorem executeNodes_keeps (items : List (Node A)) :
    Keeps rel (executeNodes cfg atomVal items) :=
  execute_keeps hr ht hops _ (srcs_keeps hr ht hops hfuncs hatoms items)

theorem stmt_keeps {finalize : V → Act σ V} (hfin : ∀ v, Keeps rel (finalize v))
    (items : List (Node A)) : Keeps rel (stmt cfg atomVal finalize items) := by
  intro s
  unfold stmt
  split
  · exact hr s
  · have h1 := executeNodes_keeps hr ht hops hfuncs hatoms items s
    cases ha : executeNodes cfg atomVal items s with
    | mk res s' =>
      rw [ha] at h1
      cases res with
      | error e => exact h1
      | ok v =>
        simp only
        split
        · exact h1
        · have h2 := hfin v s'
          cases hb : finalize v s' with
          | mk res2 s'' => rw [hb] at h2; cases res2 <;> exact ht h1 h2

theorem calculate_keeps {finalize : V → Act σ V} (hfin : ∀ v, Keeps rel (finalize v)) :
    ∀ (sts : List (List (Node A))) (i : ℕ) (s : σ),
    rel s (calculate cfg atomVal finalize i sts s).2.2
  | [], i, s => by rw [calculate]; exact hr s
  | items :: rest, i, s => by
    rw [calculate]
    have h1 := stmt_keeps hr ht hops hfuncs hatoms hfin items s
    cases ha : stmt cfg atomVal finalize items s with
    | mk res s' =>
      rw [ha] at h1
      cases res with
      | ok a => exact ht h1 (calculate_keeps hfin rest (i + 1) s')
      | error e => cases e <;> exact h1

end nodes
end engine

/-! ## Operations -/

section operation
variable {S U R K : Type} {c : Calc S U R K} {op : Operation S U R σ}

/-- No value of the list is an exception. -/
def NoExc (xs : List (Opd S U R)) : Prop := ∀ x ∈ xs, x.value.err? = none

theorem convertFrom_noExc : ∀ {xs : List (Opd S U R)} (i : ℕ), NoExc xs →
    NoExc (convertFrom c op i xs)
  | [], i, _ => by simp [convertFrom, NoExc]
  | x :: xs, i, h => by
    rw [convertFrom]
    intro y hy
    rcases List.mem_cons.mp hy with rfl | hy
    · split
      · rfl
      · exact h x (List.mem_cons_self ..)
    · exact convertFrom_noExc (i + 1) (fun z hz => h z (List.mem_cons_of_mem _ hz)) y hy

theorem setNumbers_noExc : ∀ {xs : List (Opd S U R)} (vs : List (S × Option U)), NoExc xs →
    NoExc (setNumbers xs vs)
  | [], vs, h => by cases vs <;> simpa [setNumbers] using h
  | x :: xs, [], h => by simpa [setNumbers] using h
  | x :: xs, v :: vs, h => by
    rw [setNumbers]
    intro y hy
    rcases List.mem_cons.mp hy with rfl | hy
    · rfl
    · exact setNumbers_noExc vs (fun z hz => h z (List.mem_cons_of_mem _ hz)) y hy

theorem normaliseArrays_noExc : ∀ {xs : List (Opd S U R)} {i : ℕ} {ru : Option U} {k : Option K}
    {q}, NoExc xs → normaliseArrays c op i ru k xs = .ok q → NoExc q.1
  | [], i, ru, k, q, _, hq => by
    simp only [normaliseArrays, Except.ok.injEq] at hq
    subst hq; simp [NoExc]
  | z :: zs, i, ru, k, q, h, hq => by
    have htail : NoExc zs := fun y hy => h y (List.mem_cons_of_mem _ hy)
    rw [normaliseArrays] at hq
    have plain : ∀ ru k, (match normaliseArrays c op (i + 1) ru k zs with
        | .error e => (.error e : Except Raise (List (Opd S U R) × Option U × Option K))
        | .ok (ys, r) => .ok (z :: ys, r)) = .ok q → NoExc q.1 := by
      intro ru k hq
      cases hn : normaliseArrays c op (i + 1) ru k zs with
      | error e => rw [hn] at hq; simp at hq
      | ok q' =>
        rw [hn] at hq
        simp only [Except.ok.injEq] at hq
        subst hq
        intro y hy
        rcases List.mem_cons.mp hy with rfl | hy
        · exact h _ (List.mem_cons_self ..)
        · exact normaliseArrays_noExc htail hn y hy
    cases hv : z.value with
    | sc v => rw [hv] at hq; exact plain _ _ hq
    | exc e => rw [hv] at hq; exact plain _ _ hq
    | arr els =>
      rw [hv] at hq
      simp only at hq
      split at hq
      · split at hq
        · simp at hq
        · split at hq
          · simp at hq
          · split at hq
            · simp at hq
            · rename_i hn
              simp only [Except.ok.injEq] at hq
              subst hq
              intro y hy
              rcases List.mem_cons.mp hy with rfl | hy
              · rfl
              · exact normaliseArrays_noExc htail hn y hy
      · exact plain _ _ hq

theorem prepare_noExc {xs ys : List (Opd S U R)} {q} (h : NoExc xs)
    (hp : prepare c op xs = .ok (ys, q)) : NoExc ys := by
  have hys : NoExc (if op.convertIn then convertFrom c op 0 xs else xs) := by
    split
    · exact convertFrom_noExc 0 h
    · exact h
  unfold prepare at hp
  simp only at hp
  split at hp
  · split at hp
    · split at hp
      · split at hp
        · simp at hp
        · simp only [Except.ok.injEq, Prod.mk.injEq] at hp
          rw [← hp.1]; exact setNumbers_noExc _ hys
      · simp only [Except.ok.injEq, Prod.mk.injEq] at hp
        rw [← hp.1]; exact hys
    · simp only [Except.ok.injEq, Prod.mk.injEq] at hp
      rw [← hp.1]; exact hys
  · exact normaliseArrays_noExc hys hp

/-- The implementation, with what happens to its result, keeps `rel`. -/
def RefKeeps (rel : σ → σ → Prop) (op : Operation S U R σ) : Prop :=
  ∀ ys s, (op.canBeExc = false → NoExc ys) →
    match op.ref ys s with
    | (.error _, s') => rel s s'
    | (.ok res, s') => ∀ r : Opd S U R, r.value.err? = res.value.err? → rel s (op.after ys r s')

theorem finishResult_err (ru : Option U) (k : Option K) (res : OpResult S U R) :
    (finishResult c op ru k res).value.err? = res.value.err? := by
  unfold finishResult
  cases hv : res.value with
  | sc x => simp only; split <;> (try split) <;> rfl
  | arr xs => rfl
  | exc e => rfl

theorem find_noExc {xs : List (Opd S U R)} :
    xs.find? (fun x => x.value.err?.isSome) = none ↔ NoExc xs := by
  rw [List.find?_eq_none]
  constructor
  · intro h x hx; simpa using h x hx
  · intro h x hx; simp [h x hx]

section keeps
variable (hr : ∀ s, rel s s)
include hr

theorem callScalar_keeps (h : RefKeeps rel op) (xs : List (Opd S U R)) :
    Keeps rel (callScalar c op xs) := by
  intro s
  unfold callScalar
  cases hf : (if op.canBeExc then none else xs.find? (fun x => x.value.err?.isSome)) with
  | some x => exact hr s
  | none =>
    simp only
    have hx : op.canBeExc = false → NoExc xs := by
      intro hb
      rw [hb] at hf
      exact find_noExc.mp (by simpa using hf)
    have h1 : rel s (attempt c op xs s).2 := by
      unfold attempt
      cases hv : validate c op xs with
      | error e => exact hr s
      | ok u =>
        simp only
        cases hp : prepare c op xs with
        | error e => exact hr s
        | ok q =>
          obtain ⟨ys, ru, k⟩ := q
          simp only
          have h2 := h ys s (fun hb => prepare_noExc (hx hb) hp)
          cases ho : op.ref ys s with
          | mk res s' =>
            rw [ho] at h2
            cases res with
            | error e => exact h2
            | ok res => exact h2 _ (finishResult_err ru k res)
    cases ha : attempt c op xs s with
    | mk res s' => rw [ha] at h1; cases res <;> exact h1

variable (ht : ∀ {a b c}, rel a b → rel b c → rel a c)
include ht

theorem eachRow_keeps {f : List (Opd S U R) → Act σ (Opd S U R)} (h : ∀ xs, Keeps rel (f xs))
    (mk : ℕ → List (Opd S U R)) : ∀ ks, Keeps rel (eachRow f mk ks)
  | [] => fun s => by rw [eachRow]; exact hr s
  | k :: ks => fun s => by
    rw [eachRow]
    have h1 := h (mk k) s
    cases ha : f (mk k) s with
    | mk res s' =>
      rw [ha] at h1
      have ih := eachRow_keeps h mk ks s'
      cases res with
      | ok r =>
        simp only
        cases hb : eachRow f mk ks s' with
        | mk res2 s'' => rw [hb] at ih; cases res2 <;> exact ht h1 ih
      | error e =>
        cases e with
        | py m => exact h1
        | exec m =>
          simp only
          cases hb : eachRow f mk ks s' with
          | mk res2 s'' => rw [hb] at ih; cases res2 <;> exact ht h1 ih
        | «calc» m w =>
          simp only
          cases hb : eachRow f mk ks s' with
          | mk res2 s'' => rw [hb] at ih; cases res2 <;> exact ht h1 ih

theorem eachCollected_keeps {f : List (Opd S U R) → Act σ (Opd S U R)}
    (h : ∀ xs, Keeps rel (f xs)) (mk : ℕ → List (Opd S U R)) :
    ∀ ks, Keeps rel (eachCollected f mk ks)
  | [] => fun s => by rw [eachCollected]; exact hr s
  | k :: ks => fun s => by
    rw [eachCollected]
    have h1 := h [Opd.pure (.arr (mk k))] s
    cases ha : f [Opd.pure (.arr (mk k))] s with
    | mk res s' =>
      rw [ha] at h1
      cases res with
      | error e => exact h1
      | ok r =>
        simp only
        split
        · exact h1
        · have ih := eachCollected_keeps h mk ks s'
          cases hb : eachCollected f mk ks s' with
          | mk res2 s'' => rw [hb] at ih; cases res2 <;> exact ht h1 ih

theorem callF_keeps (h : RefKeeps rel op) : ∀ (f : ℕ) (xs : List (Opd S U R)),
    Keeps rel (callF c op f xs) := by
  have last : ∀ (f : ℕ) (xs : List (Opd S U R)) (s : σ), spreads op 0 xs = [] →
      rel s (callF c op f xs s).2 := by
    intro f xs s hs
    rw [callF, hs]
    simp only
    split
    · split
      · split
        · exact callScalar_keeps hr h _ s
        · rename_i l ls _
          have h1 := eachCollected_keeps hr ht (fun xs => callScalar_keeps (c := c) hr h xs)
            (fun k => collect k xs) (List.range l.length) s
          cases hb : eachCollected (callScalar c op) (fun k => collect k xs)
              (List.range l.length) s with
          | mk res s' => rw [hb] at h1; cases res <;> exact h1
      · exact hr s
    · exact callScalar_keeps hr h _ s
  intro f
  induction f with
  | zero =>
    intro xs s
    rw [callF]
    cases hs : spreads op 0 xs with
    | nil => have := last 0 xs s hs; rw [callF, hs] at this; exact this
    | cons l ls => simp only; split <;> exact hr s
  | succ f ih =>
    intro xs s
    rw [callF]
    cases hs : spreads op 0 xs with
    | nil => have := last (f + 1) xs s hs; rw [callF, hs] at this; exact this
    | cons l ls =>
      simp only
      split
      · have h1 := eachRow_keeps hr ht ih (fun k => row op k 0 xs) (List.range l.length) s
        cases hb : eachRow (callF c op f) (fun k => row op k 0 xs) (List.range l.length) s with
        | mk res s' => rw [hb] at h1; cases res <;> exact h1
      · exact hr s

/-- If the implementation keeps `rel`, so does calling the operation, on arrays too. -/
theorem call_keeps (h : RefKeeps rel op) (xs : List (Opd S U R)) : Keeps rel (call c op xs) :=
  callF_keeps hr ht h _ xs

end keeps

/-! ## Results that are exceptions -/

theorem callScalar_noExc (hord : op.canBeExc = false)
    (href : ∀ ys s res s', op.ref ys s = (.ok res, s') → res.value.err? = none)
    {xs : List (Opd S U R)} (hxs : NoExc xs) {s s' : σ} {r : Opd S U R}
    (h : callScalar c op xs s = (.ok r, s')) : r.value.err? = none := by
  unfold callScalar at h
  rw [hord] at h
  simp only [Bool.false_eq_true, if_false, find_noExc.mpr hxs] at h
  unfold attempt at h
  cases hv : validate c op xs with
  | error e => rw [hv] at h; simp at h
  | ok u =>
    rw [hv] at h
    simp only at h
    cases hp : prepare c op xs with
    | error e => rw [hp] at h; simp at h
    | ok q =>
      obtain ⟨ys, ru, k⟩ := q
      rw [hp] at h
      simp only at h
      cases ho : op.ref ys s with
      | mk res s1 =>
        rw [ho] at h
        cases res with
        | error e => simp at h
        | ok res =>
          simp only [Prod.mk.injEq, Except.ok.injEq] at h
          rw [← h.1, finishResult_err]
          exact href ys s res s1 ho

theorem callF_noExc (hord : op.canBeExc = false)
    (href : ∀ ys s res s', op.ref ys s = (.ok res, s') → res.value.err? = none)
    {f : ℕ} {xs : List (Opd S U R)} (hxs : NoExc xs) {s s' : σ} {r : Opd S U R}
    (h : callF c op f xs s = (.ok r, s')) : r.value.err? = none := by
  rw [callF] at h
  cases hs : spreads op 0 xs with
  | cons l ls =>
    rw [hs] at h
    simp only at h
    split at h
    · split at h
      · simp at h
      · split at h
        · simp only [Prod.mk.injEq, Except.ok.injEq] at h
          rw [← h.1]; rfl
        · simp at h
    · simp at h
  | nil =>
    rw [hs] at h
    simp only at h
    split at h
    · split at h
      · split at h
        · exact callScalar_noExc hord href (by simp [NoExc, Opd.pure, Val.err?]) h
        · split at h
          · simp only [Prod.mk.injEq, Except.ok.injEq] at h
            rw [← h.1]; rfl
          · simp at h
      · simp at h
    · exact callScalar_noExc hord href hxs h

/-- An ordinary operation whose implementation gives no exception gives one only if an input
is one. -/
theorem call_noExc (hord : op.canBeExc = false)
    (href : ∀ ys s res s', op.ref ys s = (.ok res, s') → res.value.err? = none)
    {xs : List (Opd S U R)} (hxs : NoExc xs) {s s' : σ} {r : Opd S U R}
    (h : call c op xs s = (.ok r, s')) : r.value.err? = none :=
  callF_noExc hord href hxs h

end operation

end MC
