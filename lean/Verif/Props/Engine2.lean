import Verif.Props.Engine

/-!
# C28, C32: non-functional items, statements
-/

namespace MC.Props
open MC

variable {V σ A : Type} (cfg : Config V σ) (atomVal : A → Act σ V)

mutual
/-- An item without the spaces and comments inside it; `none` if it is one. -/
def strip1 : Node A → Option (Node A)
  | .skip _ => none
  | .op s => some (.op s)
  | .atom a => some (.atom a)
  | .inner items => some (.inner (strip items))
  | .func name args => some (.func name (stripArgs args))
/-- The items without any non-functional item, at any depth. -/
def strip : List (Node A) → List (Node A)
  | [] => []
  | n :: ns => match strip1 n with
    | some m => m :: strip ns
    | none => strip ns
def stripArgs : List (List (Node A)) → List (List (Node A))
  | [] => []
  | a :: as => strip a :: stripArgs as
end

mutual
theorem src_strip1 : ∀ n : Node A,
    (strip1 n).bind (Node.src cfg atomVal) = Node.src cfg atomVal n
  | .skip _ => by simp [strip1, Node.src]
  | .op s => by simp [strip1, Node.src]
  | .atom a => by simp [strip1, Node.src]
  | .inner items => by simp [strip1, Node.src, srcs_strip items]
  | .func name args => by simp [strip1, Node.src, runs_strip args]
theorem srcs_strip : ∀ ns : List (Node A),
    Node.srcs cfg atomVal (strip ns) = Node.srcs cfg atomVal ns
  | [] => by simp [strip]
  | n :: ns => by
    have h1 := src_strip1 n
    have h2 := srcs_strip ns
    unfold strip
    rw [Node.srcs]
    cases hs : strip1 n with
    | none =>
      rw [hs] at h1
      simp only [Option.bind_none] at h1
      simp only [← h1, h2]
    | some m =>
      rw [hs] at h1
      simp only [Option.bind_some] at h1
      simp only [Node.srcs, h1, h2]
theorem runs_strip : ∀ as : List (List (Node A)),
    Node.runs cfg atomVal (stripArgs as) = Node.runs cfg atomVal as
  | [] => by simp [stripArgs]
  | a :: as => by simp [stripArgs, Node.runs, srcs_strip a, runs_strip as]
end

/-- **C28.**  Two lists of items that differ only in non-functional items (spaces, comments),
anywhere and at any depth, have the same value or error and leave the same state. -/
theorem C28_spaces (a b : List (Node A)) (h : strip a = strip b) (s : σ) :
    executeNodes cfg atomVal a s = executeNodes cfg atomVal b s := by
  unfold executeNodes
  rw [← srcs_strip cfg atomVal a, ← srcs_strip cfg atomVal b, h]

theorem strip_append (x y : List (Node A)) : strip (x ++ y) = strip x ++ strip y := by
  induction x with
  | nil => simp [strip]
  | cons n x ih =>
    rw [List.cons_append]
    conv_lhs => rw [strip]
    conv_rhs => rw [strip]
    cases strip1 n with
    | none => simpa using ih
    | some m => simp [ih]

/-- **C28**, inserting one space or comment. -/
theorem C28_insert (x y : List (Node A)) (text : String) (s : σ) :
    executeNodes cfg atomVal (x ++ .skip text :: y) s = executeNodes cfg atomVal (x ++ y) s := by
  apply C28_spaces
  rw [strip_append, strip_append, strip, strip1]

/-- **C28** for whole calculations: results, error and state are those of the statements
without spaces and comments. -/
theorem C28_calculate (finalize : V → Act σ V) : ∀ (stmts : List (List (Node A))) (i : ℕ) (s : σ),
    calculate cfg atomVal finalize i (stmts.map strip) s
      = calculate cfg atomVal finalize i stmts s
  | [], _, _ => rfl
  | st :: rest, i, s => by
    have h : stmt cfg atomVal finalize (strip st) = stmt cfg atomVal finalize st := by
      funext s
      unfold stmt
      rw [srcs_strip, C28_spaces cfg atomVal (strip st) st]
      rw [← strip_idem st]
    rw [List.map_cons, calculate, calculate, h]
    simp only [C28_calculate finalize rest]
where
  strip_idem : ∀ st : List (Node A), strip st = strip (strip st) := idem
  idem1 : ∀ n : Node A, (strip1 n).bind strip1 = strip1 n := by
    intro n
    cases n with
    | skip => simp [strip1]
    | op => simp [strip1]
    | atom => simp [strip1]
    | inner items => simp [strip1, ← idem items]
    | func name args => simp [strip1, ← idemArgs args]
  idem : ∀ st : List (Node A), strip st = strip (strip st)
    | [] => by simp [strip]
    | n :: ns => by
      have h1 := idem1 n
      have h2 := idem ns
      rw [strip]
      cases hs : strip1 n with
      | none => exact h2
      | some m =>
        rw [hs] at h1
        simp only [Option.bind_some] at h1
        simp only [strip, h1, ← h2]
  idemArgs : ∀ as : List (List (Node A)), stripArgs as = stripArgs (stripArgs as)
    | [] => by simp [stripArgs]
    | a :: as => by simp [stripArgs, ← idem a, ← idemArgs as]

/-! Non-vacuity: `f(2 * 3) + 1` with and without spaces. -/

def demoFunc : FuncDef ℤ Unit := ⟨false, fun ins s => (.ok (ins.length + 10), s)⟩

def demo2 : Config ℤ Unit :=
  { demo with funcs := fun n => if n = "f" then some demoFunc else none }

example : strip [Node.func "f" [[.skip "(", .atom (2 : ℤ), .skip " ", .op "*", .atom 3]],
      .skip " ", .op "+", .skip "# comment", .atom 1]
    = strip [.func "f" [[.atom 2, .op "*", .atom 3]], .op "+", .atom 1] := by
  simp [strip, strip1, stripArgs]

/-- **C28 does not hold in one place.**  A space between the brackets of a call without
arguments counts as an argument, an empty one: `f( )` fails where `f()` gives a value.  (The
two lists are what the parser puts between the brackets.) -/
theorem C28_blank_argument_violation :
    (executeNodes demo2 (fun a s => (.ok a, s)) [parsedFunc "f" [[]]] () = (.ok 10, ())) ∧
    (executeNodes demo2 (fun a s => (.ok a, s)) [parsedFunc "f" [[.skip " "]]] ()
      = (.ok (demo2.mkErr ⟨"Empty expression", 1, true⟩), ())) := by
  constructor <;> rfl

/-! ## C32 -/

section C32
variable {cfg atomVal}
variable (exec1 : List (Node A) → σ → Except Raise (Option V) × σ)

/-- Specification: the statements run one after the other, all successfully, from state `s`
to state `s'`, each giving one result with the state after it. -/
inductive RunsTo : σ → List (List (Node A)) → List (StmtResult V σ) → σ → Prop
  | nil (s : σ) : RunsTo s [] [] s
  | cons {s s' s'' : σ} {st : List (Node A)} {a : Option V} {rest rs}
      (h : exec1 st s = (.ok a, s')) (t : RunsTo s' rest rs s'') :
      RunsTo s (st :: rest) (⟨a, s'⟩ :: rs) s''

variable {exec1}

theorem RunsTo.length {s s' : σ} {sts : List (List (Node A))} {rs : List (StmtResult V σ)}
    (h : RunsTo exec1 s sts rs s') : rs.length = sts.length := by
  induction h with
  | nil => rfl
  | cons h t ih => simp [ih]

/-- **C32**, success: the response has one result per statement, in order, each computed in
the state left by the statements before it. -/
theorem C32_success (finalize : V → Act σ V) : ∀ (sts : List (List (Node A))) (i : ℕ) (s s' : σ)
    (rs : List (StmtResult V σ)), calculate cfg atomVal finalize i sts s = (rs, .done, s') ↔
    RunsTo (stmt cfg atomVal finalize) s sts rs s'
  | [], i, s, s', rs => by
    simp only [calculate, Prod.mk.injEq, true_and]
    constructor
    · rintro ⟨rfl, rfl⟩; exact .nil s
    · intro h; cases h; exact ⟨rfl, rfl⟩
  | st :: rest, i, s, s', rs => by
    rw [calculate]
    cases h : stmt cfg atomVal finalize st s with
    | mk res s1 =>
      cases res with
      | error e =>
        constructor
        · intro hh; cases e <;> simp at hh
        · intro hh
          cases hh with
          | cons h' t => rw [h] at h'; simp at h'
      | ok a =>
        simp only
        cases hc : calculate cfg atomVal finalize (i + 1) rest s1 with
        | mk rs1 oc =>
          obtain ⟨o, s2⟩ := oc
          simp only [Prod.mk.injEq]
          constructor
          · rintro ⟨rfl, rfl, rfl⟩
            exact .cons h ((C32_success finalize rest (i + 1) s1 s2 rs1).mp hc)
          · intro hh
            cases hh with
            | cons h' t =>
              rw [h] at h'
              simp only [Prod.mk.injEq, Except.ok.injEq] at h'
              obtain ⟨rfl, rfl⟩ := h'
              have := (C32_success finalize rest (i + 1) _ _ _).mpr t
              rw [hc] at this
              simp only [Prod.mk.injEq] at this
              obtain ⟨rfl, rfl, rfl⟩ := this
              exact ⟨rfl, rfl, rfl⟩

/-- The error that `calculate` reports for an exception of a statement. -/
def reported : Raise → Option ExecErr
  | .exec e => some e
  | .calc m _ => some ⟨m, 0, false⟩
  | .py _ => none

/-- **C32**, failure: if the calculation fails at statement number `k`, the response holds
exactly the results of the `k` statements before it, which all succeeded; statement `k` then
failed in the state they left, and the state is what that statement left; later statements did
not run. -/
theorem C32_failure (finalize : V → Act σ V) : ∀ (sts : List (List (Node A))) (i : ℕ) (s s' : σ)
    (rs : List (StmtResult V σ)) (k : ℕ) (e : ExecErr),
    calculate cfg atomVal finalize i sts s = (rs, .failed k e, s') →
    ∃ before st after s1 r, sts = before ++ st :: after ∧ i + before.length = k ∧
      RunsTo (stmt cfg atomVal finalize) s before rs s1 ∧
      stmt cfg atomVal finalize st s1 = (.error r, s') ∧ reported r = some e
  | [], i, s, s', rs, k, e, h => by simp [calculate] at h
  | st :: rest, i, s, s', rs, k, e, h => by
    rw [calculate] at h
    cases hs : stmt cfg atomVal finalize st s with
    | mk res s1 =>
      rw [hs] at h
      cases res with
      | error r =>
        cases r <;> simp only [Prod.mk.injEq, Outcome.failed.injEq, reduceCtorEq, false_and,
          and_false] at h
        all_goals
          obtain ⟨rfl, ⟨rfl, rfl⟩, rfl⟩ := h
          exact ⟨[], st, rest, s, _, rfl, by simp, .nil s, hs, rfl⟩
      | ok a =>
        simp only at h
        cases hc : calculate cfg atomVal finalize (i + 1) rest s1 with
        | mk rs1 oc =>
          obtain ⟨o, s2⟩ := oc
          rw [hc] at h
          simp only [Prod.mk.injEq] at h
          obtain ⟨rfl, rfl, rfl⟩ := h
          obtain ⟨before, st', after, s3, r, h1, h2, h3, h4, h5⟩ :=
            C32_failure finalize rest (i + 1) s1 s2 rs1 k e hc
          exact ⟨st :: before, st', after, s3, r, by simp [h1], by simp; omega,
            .cons hs h3, h4, h5⟩

/-- **C32**: conversely, if the first `k` statements succeed and the next one fails with a
calculator error, that is what the caller sees. -/
theorem C32_failure_reported (finalize : V → Act σ V) {before : List (List (Node A))}
    {s s1 s' : σ} {rs : List (StmtResult V σ)} {st : List (Node A)} {r : Raise} {e : ExecErr}
    (after : List (List (Node A)))
    (h : RunsTo (stmt cfg atomVal finalize) s before rs s1)
    (hf : stmt cfg atomVal finalize st s1 = (.error r, s')) (he : reported r = some e) (i : ℕ) :
    calculate cfg atomVal finalize i (before ++ st :: after) s
      = (rs, .failed (i + before.length) e, s') := by
  induction h generalizing i with
  | nil s =>
    rw [List.nil_append, calculate, hf]
    cases r <;> simp [reported] at he <;> subst he <;> rfl
  | cons h t ih =>
    rw [List.cons_append, calculate, h]
    simp only [ih hf (i + 1), List.length_cons]
    congr 3
    omega

/-- The statements of a response are independent of what follows: a prefix of the statements
gives a prefix of the results. -/
theorem C32_prefix (finalize : V → Act σ V) {before after : List (List (Node A))} {s s1 : σ}
    {rs : List (StmtResult V σ)} (h : RunsTo (stmt cfg atomVal finalize) s before rs s1) (i : ℕ) :
    calculate cfg atomVal finalize i (before ++ after) s =
      let q := calculate cfg atomVal finalize (i + before.length) after s1
      (rs ++ q.1, q.2) := by
  induction h generalizing i with
  | nil s => simp
  | cons h t ih =>
    rw [List.cons_append, calculate, h]
    simp only [ih (i + 1), List.length_cons, List.cons_append]
    rw [show ∀ m, i + 1 + m = i + (m + 1) by omega]

end C32

/-! Non-vacuity: `1 + 2` succeeds, then `^` fails, `5` is not reached. -/
example : calculate demo (fun a s => (.ok a, s)) (fun v s => (.ok v, s)) 0
    [[.atom 1, .op "+", .atom 2], [.op "^"], [.atom 5]] ()
    = ([⟨some 3, ()⟩], .failed 1 ⟨"Missing left operands for operator ^", 0, false⟩, ()) := by
  rfl

end MC.Props
