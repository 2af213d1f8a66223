import Verif.Props.State

/-!
# C34, C35, C36: what calculations do to the variables
-/

namespace MC.Props
open MC MC.State

variable {S U K τ : Type} {c : Calc S U Ref K}

/-- An ordinary operation: it does not change variables, and neither takes nor gives
errors. -/
structure Ordinary (op : Operation S U Ref (St S U τ)) : Prop where
  noExc : op.canBeExc = false
  vars : ∀ ys s, (op.ref ys s).2.vars = s.vars
  after : op.after = fun _ _ s => s
  result : ∀ ys s r s', op.ref ys s = (.ok r, s') → ∀ e, r.value ≠ .exc e

/-- The operators of `features/state`, all of them: `=`, `||=`, the compound assignments and
`++`, `--`, with or without the flag `stateless`. -/
inductive StateOp (c : Calc S U Ref K) (stateless : Bool) : Operation S U Ref (St S U τ) → Prop
  | set : StateOp c stateless (opSet stateless)
  | setIfEmpty : StateOp c stateless (opSetIfEmpty stateless)
  | compound (symbol : String) (op : Operation S U Ref (St S U τ)) (h : Ordinary op) :
      StateOp c stateless (opCompound c symbol op stateless)
  | step (symbol : String) (op : Operation S U Ref (St S U τ)) (one : S) (h : Ordinary op) :
      StateOp c stateless (opStep c symbol op one stateless)

/-! ## C34 -/

/-- The variables are the same. -/
def SameVars (s s' : St S U τ) : Prop := s'.vars = s.vars

theorem sameVars_refl (s : St S U τ) : SameVars s s := rfl
theorem sameVars_trans {a b c : St S U τ} (h1 : SameVars a b) (h2 : SameVars b c) :
    SameVars a c := h2.trans h1

theorem stateless_assignment (op : Operation S U Ref (St S U τ)) (x v : Opd S U Ref)
    (s : St S U τ) : ∃ e, assignmentOperator c op true x v s = (.error e, s) := by
  unfold assignmentOperator
  cases target x with
  | error e => exact ⟨e, rfl⟩
  | ok n => exact ⟨_, rfl⟩

/-- **C34**: with the flag `stateless`, no operator changes a variable, whatever its inputs
(arrays included). -/
theorem C34_operators {op : Operation S U Ref (St S U τ)} (h : StateOp c true op)
    (xs : List (Opd S U Ref)) (s : St S U τ) : (call c op xs s).2.vars = s.vars := by
  refine call_keeps (rel := SameVars) sameVars_refl sameVars_trans ?_ xs s
  intro ys s _
  cases h with
  | set =>
    rcases ys with _ | ⟨x, _ | ⟨v, ys⟩⟩
    · exact rfl
    · exact rfl
    · simp only [opSet]
      cases target x with
      | error e => exact rfl
      | ok n => exact fun _ _ => rfl
  | setIfEmpty =>
    rcases ys with _ | ⟨x, _ | ⟨v, ys⟩⟩
    · exact rfl
    · exact rfl
    · simp only [opSetIfEmpty]
      cases target x with
      | error e => exact rfl
      | ok n => exact fun _ _ => rfl
  | compound symbol op h =>
    rcases ys with _ | ⟨x, _ | ⟨v, ys⟩⟩
    · exact rfl
    · exact rfl
    · obtain ⟨e, he⟩ := stateless_assignment (c := c) op x v s
      simp only [opCompound, he]
      exact rfl
  | step symbol op one h =>
    rcases ys with _ | ⟨x, ys⟩
    · exact rfl
    · obtain ⟨e, he⟩ := stateless_assignment (c := c) op x ⟨.sc one, none, none, none⟩ s
      simp only [opStep, he]
      exact rfl

section calculation
variable {A : Type} {cfg : Config (Opd S U Ref) (St S U τ)}
  {atomVal : A → Act (St S U τ) (Opd S U Ref)}
  {finalize : Opd S U Ref → Act (St S U τ) (Opd S U Ref)}

/-- **C34**, the part that holds: a stateless calculation leaves every variable alone if its
functions do.  Its operators are the assigning ones above and others that leave variables
alone.  What is missing: `reset` and `delete` do not look at the flag
(`C34_reset_violation`, `C34_delete_violation`). -/
theorem C34_calculation_partial
    (hops : ∀ o d, opsList cfg o = some d →
      (∃ op, StateOp c true op ∧ d.call = call c op) ∨ ∀ ins s, (d.call ins s).2.vars = s.vars)
    (hfuncs : ∀ n f, cfg.funcs n = some f → ∀ ins s, (f.call ins s).2.vars = s.vars)
    (hatoms : ∀ a s, (atomVal a s).2.vars = s.vars)
    (hfin : ∀ v s, (finalize v s).2.vars = s.vars)
    (statements : List (List (Node A))) (i : ℕ) (s : St S U τ) :
    (calculate cfg atomVal finalize i statements s).2.2.vars = s.vars := by
  refine calculate_keeps (rel := SameVars) sameVars_refl sameVars_trans ?_ hfuncs hatoms hfin
    statements i s
  intro o d ho ins s
  rcases hops o d ho with ⟨op, h1, h2⟩ | h
  · rw [h2]; exact C34_operators h1 ins s
  · exact h ins s

/-- **C34 fails for `reset()`**: it removes the variables, stateless or not. -/
theorem C34_reset_violation (nothing : S) (hn : EmptyNormal c) (s : St S U τ) {n : String}
    (h : s.vars n ≠ none) :
    (call c (funcReset nothing) [] s).2.vars n = none ∧
    (call c (funcReset nothing) [] s).2.vars ≠ s.vars := by
  have key : (call c (funcReset nothing) [] s).2.vars = fun _ => none := by
    rw [none_call hn rfl rfl rfl rfl rfl]
    rfl
  refine ⟨by rw [key], ?_⟩
  intro he
  rw [key] at he
  exact h (by rw [← he])

/-- **C34 fails for `delete(x)`**: it removes `x`, stateless or not. -/
theorem C34_delete_violation (nothing : S) (c : Calc S U Ref K) (s : St S U τ) {n : String}
    {v : S} {u : Option U} (h : s.vars n = some (.sc v, u)) :
    (call c (funcDelete nothing) [⟨.sc v, u, some (.var n), none⟩] s).2.vars ≠ s.vars := by
  have key : (call c (funcDelete nothing) [⟨.sc v, u, some (.var n), none⟩] s).2.vars n = none := by
    rw [one_call rfl rfl rfl rfl rfl (by simp) (by simp)]
    simp [funcDelete, target, h]
  intro he
  rw [he, h] at key
  simp at key

end calculation

/-! ## C35 -/

/-- **C35**, the part that holds for functions written `{...}`: after the call the variables are
exactly those before, whether the call succeeds or fails, if the body has a statement and its
statements raise no other errors than the calculator's `ExecuteException`. -/
theorem C35_inline_partial (body : List (Act (St S U τ) (Opd S U Ref)))
    (hne : body ≠ [])
    (hexec : ∀ run ∈ body, ∀ s e s', run s = (.error e, s') → ∃ x, e = .exec x)
    (xs : List (Opd S U Ref)) (s : St S U τ) : (doInline body xs s).2.vars = s.vars := by
  have hlast : ∀ (body : List (Act (St S U τ) (Opd S U Ref))) (last : Option (Opd S U Ref))
      (s : St S U τ), (∀ run ∈ body, ∀ s e s', run s = (.error e, s') → ∃ x, e = .exec x) →
      (body ≠ [] ∨ last ≠ none) →
      (∃ v s', runBody body last s = (.ok (some v), s')) ∨
      (∃ x s', runBody body last s = (.error (.exec x), s')) := by
    intro body
    induction body with
    | nil =>
      intro last s _ h
      rcases h with h | h
      · exact absurd rfl h
      · obtain ⟨v, rfl⟩ := Option.ne_none_iff_exists'.mp h
        exact Or.inl ⟨v, s, rfl⟩
    | cons run rest ih =>
      intro last s hex _
      rw [runBody]
      cases hr : run s with
      | mk res s' =>
        cases res with
        | error e =>
          obtain ⟨x, rfl⟩ := hex run (List.mem_cons_self ..) s e s' hr
          exact Or.inr ⟨x, s', rfl⟩
        | ok v =>
          exact ih (some v) s' (fun r hm => hex r (List.mem_cons_of_mem _ hm)) (Or.inr (by simp))
  unfold doInline
  rcases hlast body none (setParams 1 xs s) hexec (Or.inl hne) with ⟨v, s', h⟩ | ⟨x, s', h⟩
  · simp only [h]
    cases v.value <;> rfl
  · simp only [h]

/-- **C35 fails for `{}`**: calling a function with an empty body leaves its arguments behind
as variables (and fails). -/
theorem C35_empty_body_violation (x : Opd S U Ref) (s : St S U τ) (h : s.vars "PARAM1" = none) :
    (doInline [] [x] s).2.vars "PARAM1" = some (x.value, x.unit) ∧
    (doInline [] [x] s).2.vars ≠ s.vars := by
  have key : (doInline [] [x] s).2.vars "PARAM1" = some (x.value, x.unit) := by
    have : ("PARAM" ++ toString 1 : String) = "PARAM1" := by decide
    simp only [doInline, runBody, setParams, setVar, this, if_true]
  refine ⟨key, ?_⟩
  intro he
  rw [he, h] at key
  simp at key

/-- **C35** for functions in files: always, whatever the file does. -/
theorem C35_external (run : Act (St S U τ) (Option (Val S U Ref × Option U)))
    (xs : List (Opd S U Ref)) (s : St S U τ) : (doExternal run xs s).2.vars = s.vars := by
  unfold doExternal
  cases run (setParams 1 xs { s with vars := fun _ => none }) with
  | mk res s' =>
    cases res with
    | error e => rfl
    | ok o => cases o <;> rfl

/-- **C35** as the user sees it: the call of a pointer to a function, on any inputs, spread over
arrays if they are arrays, leaves the variables as they were. -/
theorem C35_call (name : String) (rs : List Restriction) (us : List (UnitRestriction U))
    (run : List (Opd S U Ref) → Act (St S U τ) (OpResult S U Ref))
    (hrun : (∃ f, run = doExternal f) ∨ ∃ body, run = doInline body ∧ body ≠ [] ∧
      ∀ r ∈ body, ∀ s e s', r s = (.error e, s') → ∃ x, e = .exec x)
    (xs : List (Opd S U Ref)) (s : St S U τ) :
    (call c (userFunc name rs us run) xs s).2.vars = s.vars := by
  refine call_keeps (rel := SameVars) sameVars_refl sameVars_trans ?_ xs s
  intro ys s _
  have h : (run ys s).2.vars = s.vars := by
    rcases hrun with ⟨f, rfl⟩ | ⟨body, rfl, h1, h2⟩
    · exact C35_external f ys s
    · exact C35_inline_partial body h1 h2 ys s
  simp only [userFunc]
  cases hr : run ys s with
  | mk res s' =>
    rw [hr] at h
    cases res with
    | error e => exact h
    | ok r => exact fun _ _ => h

/-! ## C36 -/

/-- No variable holds an error. -/
def Clean (s : St S U τ) : Prop := ∀ n v u, s.vars n = some (v, u) → ∀ e, v ≠ .exc e

/-- From a state in which no variable holds an error to another one. -/
def ToClean (s s' : St S U τ) : Prop := Clean s → Clean s'

theorem toClean_refl (s : St S U τ) : ToClean s s := id
theorem toClean_trans {a b c : St S U τ} (h1 : ToClean a b) (h2 : ToClean b c) : ToClean a c :=
  fun h => h2 (h1 h)

theorem toClean_of_vars {s s' : St S U τ} (h : s'.vars = s.vars) : ToClean s s' := by
  intro hs n v u hv
  rw [h] at hv
  exact hs n v u hv

theorem err_none_iff {v : Val S U Ref} : v.err? = none ↔ ∀ e, v ≠ .exc e := by
  cases v <;> simp [Val.err?]

theorem clean_setVar {s : St S U τ} (hs : Clean s) {n : String} {v : Val S U Ref} {u : Option U}
    (hv : v.err? = none) : Clean (setVar s n v u) := by
  intro m w u' h
  simp only [setVar] at h
  split at h
  · obtain ⟨rfl, -⟩ := Prod.mk.inj (Option.some.inj h)
    exact err_none_iff.mp hv
  · exact hs m w u' h

theorem ordinary_keeps {op : Operation S U Ref (St S U τ)} (h : Ordinary op) :
    RefKeeps SameVars op := by
  intro ys s _
  have hv := h.vars ys s
  cases hr : op.ref ys s with
  | mk res s' =>
    rw [hr] at hv
    cases res with
    | error e => exact hv
    | ok r => rw [h.after]; exact fun _ _ => hv

theorem assignment_clean {op : Operation S U Ref (St S U τ)} (h : Ordinary op) {x v : Opd S U Ref}
    (hv : v.value.err? = none) {s : St S U τ} (hs : Clean s) :
    match assignmentOperator c op false x v s with
    | (.error _, s') => Clean s'
    | (.ok r, s') => Clean s' ∧ r.value.err? = none := by
  unfold assignmentOperator
  cases target x with
  | error e => exact hs
  | ok n =>
    simp only [Bool.false_eq_true, if_false]
    cases hn : s.vars n with
    | none => exact hs
    | some q =>
      obtain ⟨v0, u0⟩ := q
      simp only
      have h1 := call_keeps (c := c) (rel := SameVars) sameVars_refl sameVars_trans
        (ordinary_keeps h) [⟨v0, u0, none, none⟩, v] s
      cases hr : call c op [⟨v0, u0, none, none⟩, v] s with
      | mk res s' =>
        rw [hr] at h1
        cases res with
        | error e => exact toClean_of_vars h1 hs
        | ok r =>
          have hr' : r.value.err? = none := by
            refine call_noExc h.noExc (fun ys s res s' hh => err_none_iff.mpr
              (h.result ys s res s' hh)) ?_ hr
            intro y hy
            rcases List.mem_cons.mp hy with rfl | hy
            · exact err_none_iff.mpr (hs n v0 u0 hn)
            · rw [List.mem_singleton.mp hy]; exact hv
          exact ⟨clean_setVar (toClean_of_vars h1 hs) hr', hr'⟩

theorem writeBack_clean {xs : List (Opd S U Ref)} {r : Opd S U Ref} {s : St S U τ} (hs : Clean s)
    (hr : r.value.err? = none) : Clean (writeBack false xs r s) := by
  unfold writeBack
  cases xs with
  | nil => exact hs
  | cons x xs =>
    simp only
    cases target x with
    | error e => exact hs
    | ok n => exact clean_setVar hs hr

/-- **C36** for the operators: no assignment stores an error, whatever its inputs. -/
theorem C36_operators {op : Operation S U Ref (St S U τ)} {b : Bool} (h : StateOp c b op)
    (xs : List (Opd S U Ref)) (s : St S U τ) (hs : Clean s) : Clean (call c op xs s).2 := by
  cases b with
  | true => exact toClean_of_vars (C34_operators h xs s) hs
  | false =>
  refine call_keeps (rel := ToClean) toClean_refl toClean_trans ?_ xs s hs
  intro ys s hx
  cases h with
  | set =>
    have hx := hx rfl
    rcases ys with _ | ⟨x, _ | ⟨v, ys⟩⟩
    · exact id
    · exact id
    · simp only [opSet]
      cases target x with
      | error e => exact id
      | ok n => exact fun _ _ hs => clean_setVar hs (hx v (by simp))
  | setIfEmpty =>
    have hx := hx rfl
    rcases ys with _ | ⟨x, _ | ⟨v, ys⟩⟩
    · exact id
    · exact id
    · simp only [opSetIfEmpty]
      cases target x with
      | error e => exact id
      | ok n =>
        intro _ _ hs
        simp only [Bool.false_eq_true, if_false]
        split
        · exact hs
        · exact clean_setVar hs (hx v (by simp))
  | compound symbol op h =>
    have hx := hx rfl
    rcases ys with _ | ⟨x, _ | ⟨v, ys⟩⟩
    · exact id
    · exact id
    · have ha := fun hs : Clean s => assignment_clean (c := c) h (x := x) (hx v (by simp)) hs
      simp only [opCompound]
      cases hr : assignmentOperator c op false x v s with
      | mk res s' =>
        cases res with
        | error e =>
          intro hs
          have := ha hs
          rw [hr] at this
          exact this
        | ok r =>
          intro r' hr' hs
          have := ha hs
          rw [hr] at this
          exact writeBack_clean this.1 (hr'.trans this.2)
  | step symbol op one h =>
    rcases ys with _ | ⟨x, ys⟩
    · exact id
    · have ha := fun hs : Clean s => assignment_clean (c := c) h (x := x)
        (v := ⟨.sc one, none, none, none⟩) rfl hs
      simp only [opStep]
      cases hr : assignmentOperator c op false x ⟨.sc one, none, none, none⟩ s with
      | mk res s' =>
        cases res with
        | error e =>
          intro hs
          have := ha hs
          rw [hr] at this
          exact this
        | ok r =>
          intro r' hr' hs
          have := ha hs
          rw [hr] at this
          exact writeBack_clean this.1 (hr'.trans this.2)

theorem clean_setParams : ∀ (xs : List (Opd S U Ref)) (i : ℕ) (s : St S U τ), NoExc xs → Clean s →
    Clean (setParams i xs s)
  | [], _, _, _, hs => hs
  | x :: xs, i, s, hx, hs => by
    rw [setParams]
    exact clean_setParams xs (i + 1) _ (fun y hy => hx y (List.mem_cons_of_mem _ hy))
      (clean_setVar hs (hx x (List.mem_cons_self ..)))

theorem clean_runBody : ∀ (body : List (Act (St S U τ) (Opd S U Ref))) (last : Option (Opd S U Ref))
    (s : St S U τ), (∀ run ∈ body, ∀ s, Clean s → Clean (run s).2) → Clean s →
    Clean (runBody body last s).2
  | [], _, _, _, hs => hs
  | run :: rest, last, s, hb, hs => by
    have h1 := hb run (List.mem_cons_self ..) s hs
    rw [runBody]
    cases hr : run s with
    | mk res s' =>
      rw [hr] at h1
      cases res with
      | error e => exact h1
      | ok v => exact clean_runBody rest (some v) s' (fun r hm => hb r (List.mem_cons_of_mem _ hm)) h1

/-- **C36** for the calls of user-defined functions, also those that leave variables behind. -/
theorem C36_functions (name : String) (rs : List Restriction) (us : List (UnitRestriction U))
    (run : List (Opd S U Ref) → Act (St S U τ) (OpResult S U Ref))
    (hrun : (∃ f, run = doExternal f) ∨ ∃ body, run = doInline body ∧
      ∀ r ∈ body, ∀ s, Clean s → Clean (r s).2)
    (xs : List (Opd S U Ref)) (s : St S U τ) (hs : Clean s) :
    Clean (call c (userFunc name rs us run) xs s).2 := by
  refine call_keeps (rel := ToClean) toClean_refl toClean_trans ?_ xs s hs
  intro ys s hx
  replace hx : NoExc ys := hx rfl
  have h : Clean s → Clean (run ys s).2 := by
    intro hs
    rcases hrun with ⟨f, rfl⟩ | ⟨body, rfl, hb⟩
    · exact toClean_of_vars (C35_external f ys s) hs
    · have h2 := clean_runBody body none (setParams 1 ys s) hb (clean_setParams ys 1 s hx hs)
      unfold doInline
      simp only
      cases hr : runBody body none (setParams 1 ys s) with
      | mk res s' =>
        rw [hr] at h2
        have hback : Clean (τ := τ) { s' with vars := s.vars } :=
          toClean_of_vars (s := s) rfl hs
        cases res with
        | error e => cases e <;> first | exact hback | exact h2
        | ok o =>
          cases o with
          | none => exact h2
          | some v =>
            simp only
            cases v.value <;> exact hback
  simp only [userFunc]
  cases hr : run ys s with
  | mk res s' =>
    rw [hr] at h
    cases res with
    | error e => exact h
    | ok r => exact fun _ _ => h

theorem C36_reset (nothing : S) (s : St S U τ) (xs : List (Opd S U Ref)) (hs : Clean s) :
    Clean (call c (funcReset nothing) xs s).2 := by
  refine call_keeps (rel := ToClean) toClean_refl toClean_trans ?_ xs s hs
  intro ys s _
  exact fun _ _ _ n v u h => by simp [funcReset] at h

theorem C36_delete (nothing : S) (s : St S U τ) (xs : List (Opd S U Ref)) (hs : Clean s) :
    Clean (call c (funcDelete nothing) xs s).2 := by
  refine call_keeps (rel := ToClean) toClean_refl toClean_trans ?_ xs s hs
  intro ys s _
  rcases ys with _ | ⟨x, ys⟩
  · exact id
  · simp only [funcDelete]
    cases target x with
    | error e => exact id
    | ok n =>
      simp only
      cases s.vars n with
      | none => exact id
      | some q =>
        intro _ _ hs m v u h
        simp only at h
        split at h
        · simp at h
        · exact hs m v u h

section history
variable {A : Type} {cfg : Config (Opd S U Ref) (St S U τ)}
  {atomVal : A → Act (St S U τ) (Opd S U Ref)}
  {finalize : Opd S U Ref → Act (St S U τ) (Opd S U Ref)}

/-- The state after calculating one text after the other; a failed calculation keeps what its
statements did before. -/
def afterAll (cfg : Config (Opd S U Ref) (St S U τ))
    (atomVal : A → Act (St S U τ) (Opd S U Ref))
    (finalize : Opd S U Ref → Act (St S U τ) (Opd S U Ref)) :
    List (List (List (Node A))) → St S U τ → St S U τ
  | [], s => s
  | text :: texts, s =>
    afterAll cfg atomVal finalize texts (calculate cfg atomVal finalize 0 text s).2.2

/-- What may change variables: the operators and functions of `features/state`, calls of
user-defined functions whose bodies do the same, and anything that leaves them alone. -/
inductive KnownEffect (c : Calc S U Ref K) :
    (List (Opd S U Ref) → Act (St S U τ) (Opd S U Ref)) → Prop
  | operator {op} {b} (h : StateOp c b op) : KnownEffect c (call c op)
  | reset (nothing : S) : KnownEffect c (call c (funcReset nothing))
  | delete (nothing : S) : KnownEffect c (call c (funcDelete nothing))
  | external (name : String) (rs) (us) (f) : KnownEffect c (call c (userFunc name rs us (doExternal f)))
  | inline (name : String) (rs) (us) (body)
      (h : ∀ r ∈ body, ∀ s, Clean s → Clean (r s).2) :
      KnownEffect c (call c (userFunc name rs us (doInline body)))
  | none {f} (h : ∀ xs s, (f xs s).2.vars = s.vars) : KnownEffect c f

theorem knownEffect_clean {f : List (Opd S U Ref) → Act (St S U τ) (Opd S U Ref)}
    (h : KnownEffect c f) (xs : List (Opd S U Ref)) : Keeps ToClean (f xs) := by
  intro s hs
  cases h with
  | operator h => exact C36_operators h xs s hs
  | reset nothing => exact C36_reset nothing s xs hs
  | delete nothing => exact C36_delete nothing s xs hs
  | external name rs us f => exact C36_functions name rs us _ (Or.inl ⟨f, rfl⟩) xs s hs
  | inline name rs us body h => exact C36_functions name rs us _ (Or.inr ⟨body, rfl, h⟩) xs s hs
  | none h => exact toClean_of_vars (h xs s) hs

/-- **C36**: from a state without variables (or any in which none holds an error), no sequence
of calculations, failed ones included, makes a variable hold an error. -/
theorem C36_history
    (hops : ∀ o d, opsList cfg o = some d → KnownEffect c d.call)
    (hfuncs : ∀ n f, cfg.funcs n = some f → KnownEffect c f.call)
    (hatoms : ∀ a s, (atomVal a s).2.vars = s.vars)
    (hfin : ∀ v s, (finalize v s).2.vars = s.vars) :
    ∀ (texts : List (List (List (Node A)))) (s : St S U τ), Clean s →
      Clean (afterAll cfg atomVal finalize texts s)
  | [], _, hs => hs
  | text :: texts, s, hs => by
    rw [afterAll]
    exact C36_history hops hfuncs hatoms hfin texts _
      (calculate_keeps (rel := ToClean) toClean_refl toClean_trans
        (fun o d ho ins => knownEffect_clean (hops o d ho) ins)
        (fun n f hf ins => knownEffect_clean (hfuncs n f hf) ins)
        (fun a s => toClean_of_vars (hatoms a s)) (fun v s => toClean_of_vars (hfin v s))
        text 0 s hs)

/-- The bodies of inline functions are executions of the same engine, so they qualify for
`KnownEffect.inline`. -/
theorem C36_body
    (hops : ∀ o d, opsList cfg o = some d → KnownEffect c d.call)
    (hfuncs : ∀ n f, cfg.funcs n = some f → KnownEffect c f.call)
    (hatoms : ∀ a s, (atomVal a s).2.vars = s.vars) (items : List (Node A)) (s : St S U τ)
    (hs : Clean s) : Clean (executeNodes cfg atomVal items s).2 :=
  executeNodes_keeps (rel := ToClean) toClean_refl toClean_trans
    (fun o d ho ins => knownEffect_clean (hops o d ho) ins)
    (fun n f hf ins => knownEffect_clean (hfuncs n f hf) ins)
    (fun a s => toClean_of_vars (hatoms a s)) items s hs

end history

end MC.Props
