import Verif.Lemmas.State

/-!
# C33, C34, C35, C36, C37, C59: variables

`St.vars` is what the user sees as the variables: name to value and unit.
-/

namespace MC.Props
open MC MC.State

variable {S U K τ : Type} {c : Calc S U Ref K}

/-! ## C33 -/

/-- `s'` is `s` with variable `n` set to the value `v` with unit `u`, and nothing else
changed. -/
def SetTo (s s' : St S U τ) (n : String) (v : Val S U Ref) (u : Option U) : Prop :=
  s'.vars n = some (v, u) ∧ (∀ m, m ≠ n → s'.vars m = s.vars m) ∧ s'.rest = s.rest

/-- `setVar` is what `SetTo` describes. -/
theorem setTo_iff {s s' : St S U τ} {n : String} {v : Val S U Ref} {u : Option U} :
    SetTo s s' n v u ↔ s' = setVar s n v u := by
  constructor
  · rintro ⟨h1, h2, h3⟩
    cases s'
    simp only [setVar] at *
    simp only [St.mk.injEq]
    refine ⟨?_, h3⟩
    funext m
    by_cases hm : m = n
    · rw [hm, if_pos rfl, h1]
    · rw [if_neg hm, h2 m hm]
  · rintro rfl
    exact ⟨by simp [setVar], fun m hm => by simp [setVar, hm], rfl⟩

/-- An array made by the calculator: its elements are not in the middle of a normalisation. -/
def Settled (v : Val S U Ref) : Prop := ∀ l, v = .arr l → ∀ x ∈ l, x.orig = none

theorem map_restore {l : List (Opd S U Ref)} (h : ∀ x ∈ l, x.orig = none) : l.map restore = l := by
  conv_rhs => rw [← List.map_id l]
  apply List.map_congr_left
  intro x hx
  simp [restore, h x hx]

/-- **C33**: `x = v` succeeds with the value and unit of `v`, sets exactly `x`, and then `x`
reads as `v`.  `x` may hold an array or nothing before; `v` may be an array. -/
theorem C33_assign (hc : HasVariables c) {x v : Opd S U Ref} {n : String}
    (hr : x.ref = some (.var n)) (hx : ∀ e, x.value ≠ .exc e) (hv : ∀ e, v.value ≠ .exc e)
    (hs : Settled v.value) (nothing : S) (s : St S U τ) :
    ∃ s', call c (opSet false) [x, v] s = (.ok ⟨v.value, v.unit, none, none⟩, s') ∧
      SetTo s s' n v.value v.unit ∧
      readVar nothing n s' = (.ok ⟨v.value, v.unit, some (.var n), none⟩, s') := by
  have hx' : x.value.err? = none := by
    cases h : x.value with
    | exc e => exact absurd h (hx e)
    | _ => rfl
  have hv' : v.value.err? = none := by
    cases h : v.value with
    | exc e => exact absurd h (hv e)
    | _ => rfl
  refine ⟨setVar s n v.value v.unit, ?_, setTo_iff.mpr rfl, by simp [readVar, setVar]⟩
  rw [set_call hc rfl rfl rfl rfl rfl hr hx' hv']
  have htg : target x = .ok n := by simp [target, hr]
  simp only [opSet, htg, Bool.false_eq_true, if_false]
  unfold finishResult
  cases h : v.value with
  | exc e => exact absurd h (hv e)
  | sc y => rfl
  | arr l => simp [map_restore (hs l h)]

/-- **C33**: `x ||= v` assigns when `x` is not set, and changes nothing when it is.  In both
cases its own value is `v`. -/
theorem C33_if_empty (hc : HasVariables c) {x v : Opd S U Ref} {n : String}
    (hr : x.ref = some (.var n)) (hx : ∀ e, x.value ≠ .exc e) (hv : ∀ e, v.value ≠ .exc e)
    (hs : Settled v.value) (s : St S U τ) :
    ∃ s', call c (opSetIfEmpty false) [x, v] s = (.ok ⟨v.value, v.unit, none, none⟩, s') ∧
      (s.vars n = none → SetTo s s' n v.value v.unit) ∧ (s.vars n ≠ none → s' = s) := by
  have hx' : x.value.err? = none := by
    cases h : x.value with
    | exc e => exact absurd h (hx e)
    | _ => rfl
  have hv' : v.value.err? = none := by
    cases h : v.value with
    | exc e => exact absurd h (hv e)
    | _ => rfl
  refine ⟨if (s.vars n).isSome then s else setVar s n v.value v.unit, ?_, ?_, ?_⟩
  · rw [set_call hc rfl rfl rfl rfl rfl hr hx' hv']
    have htg : target x = .ok n := by simp [target, hr]
    simp only [opSetIfEmpty, htg, Bool.false_eq_true, if_false]
    unfold finishResult
    cases h : v.value with
    | exc e => exact absurd h (hv e)
    | sc y => rfl
    | arr l => simp [map_restore (hs l h)]
  · intro h
    rw [setTo_iff, h]
    rfl
  · intro h
    rw [if_pos (Option.isSome_iff_ne_none.mpr h)]

/-- **C33**: a failed right-hand side is the result, and nothing is assigned. -/
theorem C33_failed {x v : Opd S U Ref} {n : String} {e : Raise}
    (hr : x.ref = some (.var n)) (hx : ∀ e, x.value ≠ .exc e) (hv : v.value = .exc e)
    (op : Operation S U Ref (St S U τ)) (hop : op = opSet false ∨ op = opSetIfEmpty false)
    (s : St S U τ) : call c op [x, v] s = (.ok v, s) := by
  have hx' : x.value.err? = none := by
    cases h : x.value with
    | exc e => exact absurd h (hx e)
    | _ => rfl
  have key : ∀ op : Operation S U Ref (St S U τ), op.values = setTypes → op.maxParams = some 2 →
      op.canBeExc = false → call c op [x, v] s = (.ok v, s) := by
    intro op ht h2 h3
    rw [call_eq, set_spreads ht (by rw [hr]; rfl)]
    simp only
    rw [if_neg (by rw [h2]; simp)]
    unfold callScalar
    have hv' : v.value.err? = some e := by rw [hv]; rfl
    simp [h3, hx', hv']
  rcases hop with rfl | rfl
  · exact key _ rfl rfl rfl
  · exact key _ rfl rfl rfl

section expression
variable {cfg : Config (Opd S U Ref) (St S U τ)} {d : OpDef (Opd S U Ref) (St S U τ)}

/-- **C33** for the expression `n = e`, where `e` is any operand (a literal, a bracketed
expression, a function call...): if `e` gives the value `v`, then so does the assignment, and
the state is that after `e` with exactly `n` set to `v`.  If `e` fails, nothing is
assigned. -/
theorem C33_expression (hc : HasVariables c) (hb : Binary cfg "=" d)
    (hd : d.call = call c (opSet false)) (nothing : S) (n : String)
    (e : Act (St S U τ) (Opd S U Ref)) (s s1 : St S U τ)
    (hclean : ∀ v u, s.vars n = some (v, u) → ∀ e, v ≠ .exc e) :
    (∀ v : Opd S U Ref, e s = (.ok v, s1) → (∀ e, v.value ≠ .exc e) → Settled v.value →
      ∃ s2, execute cfg [.operand (readVar nothing n), .op "=", .operand e] s
          = (.ok ⟨v.value, v.unit, none, none⟩, s2) ∧ SetTo s1 s2 n v.value v.unit) ∧
    (∀ (v : Opd S U Ref) (err : Raise), e s = (.ok v, s1) → v.value = .exc err →
      execute cfg [.operand (readVar nothing n), .op "=", .operand e] s = (.ok v, s1)) ∧
    (∀ err : Raise, (∀ x, (cfg.mkErr x).value = .exc (.exec x)) → e s = (.error err, s1) →
      (execute cfg [.operand (readVar nothing n), .op "=", .operand e] s).2 = s1) := by
  obtain ⟨x, hrd, hxr, hxv⟩ : ∃ x : Opd S U Ref, readVar nothing n s = (.ok x, s) ∧
      x.ref = some (.var n) ∧ ∀ e, x.value ≠ .exc e := by
    unfold readVar
    cases h : s.vars n with
    | none => exact ⟨_, rfl, rfl, fun e => by simp⟩
    | some q => exact ⟨_, rfl, rfl, hclean _ _ h⟩
  have h0 : execOperand cfg 0 (readVar nothing n) s = (.ok x, s) := by
    unfold execOperand; rw [hrd]
  refine ⟨?_, ?_, ?_⟩
  · intro v he hv hs
    have h2 : execOperand cfg 2 e s = (.ok v, s1) := by unfold execOperand; rw [he]
    obtain ⟨s2, hcall, hset, -⟩ := C33_assign hc hxr hxv hv hs nothing s1
    exact ⟨s2, by rw [execute_binary hb h0 h2, hd, hcall]; rfl, hset⟩
  · intro v err he hv
    have h2 : execOperand cfg 2 e s = (.ok v, s1) := by unfold execOperand; rw [he]
    rw [execute_binary hb h0 h2, hd, C33_failed hxr hxv hv _ (Or.inl rfl)]
    rfl
  · intro err hmk he
    cases err with
    | py m =>
      have h2 : execOperand cfg 2 e s = (.error (.py m), s1) := by unfold execOperand; rw [he]
      simp [execute, executeF, execOperands, h0, h2]
    | exec y =>
      have h2 : execOperand cfg 2 e s
          = (.ok (cfg.mkErr ⟨y.msg, 2 + y.count, y.truncated⟩), s1) := by
        unfold execOperand; rw [he]
      rw [execute_binary hb h0 h2, hd, C33_failed hxr hxv (hmk _) _ (Or.inl rfl)]
      rfl
    | «calc» m b =>
      have h2 : execOperand cfg 2 e s = (.ok (cfg.mkErr ⟨m, 2, false⟩), s1) := by
        unfold execOperand; rw [he]
      rw [execute_binary hb h0 h2, hd, C33_failed hxr hxv (hmk _) _ (Or.inl rfl)]
      rfl

end expression

end MC.Props
