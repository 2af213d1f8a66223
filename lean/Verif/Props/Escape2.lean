import Verif.Props.Escape
import Verif.Props.Operation2
import Verif.Model.Numerical

/-! # C58: an error of Python that leaves `calculate`, and cases of the theorems -/

namespace MC.Props
open MC.Arrays MC.Escape

/-- The operators of the example: division as shipped; no other is used. -/
def faultCall (o : String) (ins : List (Opd AS Bool Unit)) : Act ℕ (Opd AS Bool Unit) :=
  if o = "/" then call arrCalc demoDivide ins else fun s => (.error (.calc "unused" false), s)

/-- The functions `element` and `abs` as shipped. -/
def faultFuncs : String → Option (FuncDef (Opd AS Bool Unit) ℕ)
  | "element" => some ⟨false, call arrCalc (opElement 30 AS.num?)⟩
  | "abs" => some ⟨false, call arrCalc (Numerical.opAbs 30 AS.num? (fun n => .n n none))⟩
  | _ => none

def excOf (v : Opd AS Bool Unit) : Option Raise :=
  match v.value with
  | .exc e => some e
  | _ => none

def faultCfg : Config (Opd AS Bool Unit) ℕ :=
  shipped faultCall (fun _ => false) (fun e => ⟨.exc (.exec e), none, none, none⟩) excOf faultFuncs

/-- `abs(element(1/[0], 1))` -/
def faulty : List (Node (Opd AS Bool Unit)) :=
  [.func "abs" [[.func "element" [[.atom (numV 1), .op "/",
    .atom ⟨.arr [numV 0], none, none, none⟩], [.atom (numV 1)]]]]]

/-- `element(1/[1], 1)` -/
def fine : List (Node (Opd AS Bool Unit)) :=
  [.func "abs" [[.func "element" [[.atom (numV 1), .op "/",
    .atom ⟨.arr [numV 1], none, none, none⟩], [.atom (numV 1)]]]]]

/-- How the calculation ended, as text. -/
def ending : Outcome → String
  | .done => "done"
  | .failed _ e => "failed: " ++ e.msg
  | .escaped m => "escaped: " ++ m

def isEscape (m : String) : Outcome → Bool
  | .escaped m' => m' == m
  | _ => false

theorem isEscape_eq {m : String} {o : Outcome} (h : isEscape m o = true) : o = .escaped m := by
  cases o with
  | done => cases h
  | failed => cases h
  | escaped m' =>
    have h' : m' = m := beq_iff_eq.mp h
    rw [h']

/-- **C58 is violated**: `abs(element(1/[0], 1))`.  Division by zero makes the element of `1/[0]` an
exception which is not an `ExecuteException`; given to `abs`, it makes `FunctionItem.value` fail
with an `AttributeError`, which leaves `calculate`. -/
theorem C58_argument_violation :
    (calculate faultCfg (fun a s => (.ok a, s)) (fun v s => (.ok v, s)) 0 [faulty] 0).2.1
      = .escaped "AttributeError: items" :=
  isEscape_eq (by decide +kernel)

/-- The same statement with `[1]` in place of `[0]` succeeds. -/
example : ending (calculate faultCfg (fun a s => (.ok a, s)) (fun v s => (.ok v, s)) 0 [fine] 0).2.1
    = "done" := by decide +kernel

theorem arrCalc_shows : Shows arrCalc := by
  intro x
  exact ⟨_, rfl⟩

/-- Every operation of the example's calculator raises only the calculator's own errors ... -/
theorem fault_quiet (op : Operation AS Bool Unit ℕ) (ins : List (Opd AS Bool Unit)) :
    Quiet (call arrCalc op ins) := by
  intro s m h
  obtain ⟨a, b, h⟩ := C58_operation_partial arrCalc_shows ins s h
  cases h

/-- ... so the hypotheses of `C58_engine_partial` hold of it. -/
theorem fault_ops : ∀ o ins, Quiet (faultCall o ins) := by
  intro o ins
  unfold faultCall
  split
  · exact fault_quiet _ _
  · intro s m h; cases h

theorem fault_funcs : ∀ n f, faultFuncs n = some f → ∀ ins, Quiet (f.call ins) := by
  intro n f h ins
  unfold faultFuncs at h
  split at h
  · cases h; exact fault_quiet _ _
  · cases h; exact fault_quiet _ _
  · cases h

example : KnownAll faultCfg faulty := by
  simp only [faulty, KnownAll, Known, KnownArgs, and_true]
  exact ⟨rfl, rfl⟩

/-- For C31: `element(1/[0], 1)` evaluates its arguments to an array and a number, neither of which
is an exception; the next function gets an exception and is not called. -/
example : Evaluates (σ := ℕ) [fun s => (.ok (numV 1), s + 1), fun s => (.ok (numV 2), s + 1)] 0
    [numV 1, numV 2] 2 := .cons rfl (.cons rfl (.nil _))

example (e : ExecErr) : ∃ e', funcVal faultCfg "abs"
    ([] ++ (fun s => (.ok ⟨.exc (.exec e), none, none, none⟩, s + 1)) ::
      [fun s => (.ok (numV 2), s + 1)]) 0 = (.error e', 1) ∧
      ∀ x, Raise.exec e = .exec x → e' = .exec ⟨x.msg, 1, true⟩ :=
  (C31_arguments (cfg := faultCfg) (name := "abs") rfl (.nil 0)).2 rfl (by simp) _ _ _ _ _ rfl rfl

end MC.Props
