import Verif.Model.Arithmetic

/-!
# Model of the assignment operators as the engine calls them

`features/state/assignment.py` and `features/state/assignmentoperators.py`, on the arithmetic of
`Model/Arithmetic.lean`.
-/

namespace MC.Numerical
open MC.State

variable {S U K τ : Type} (p : ℕ) (num? : S → Option Number) (ofNum : Number → S)
  (ua : UnitAlgebra S U)

/-- The operators of the last row of the table (`assignment.py:32-49`,
`assignmentoperators.py:29-108`), with the operation each of them looks up in `ops_list`
(`assignmentoperators.py:110-142`); `others` is for the rest. -/
def assignCalls (powF : ℚ → ℚ → Except Err ℚ) (c : Calc S U Ref K) (stateless : Bool)
    (others : String → List (Opd S U Ref) → Act (St S U τ) (Opd S U Ref)) (o : String) :
    List (Opd S U Ref) → Act (St S U τ) (Opd S U Ref) :=
  match o with
  | "=" => call c (opSet stateless)
  | "||=" => call c (opSetIfEmpty stateless)
  | "+=" => call c (opCompound c "+=" (opAdd p num? ofNum) stateless)
  | "-=" => call c (opCompound c "-=" (opSubtract p num? ofNum) stateless)
  | "*=" => call c (opCompound c "*=" (opMultiply p num? ofNum ua) stateless)
  | "/=" => call c (opCompound c "/=" (opDivide p num? ofNum ua) stateless)
  | "^=" => call c (opCompound c "^=" (opPower p num? ofNum ua powF) stateless)
  | "%=" => call c (opCompound c "%=" (opModulus p num? ofNum) stateless)
  | "\\=" => call c (opCompound c "\\="
      (opIntDivide p num? ofNum c (opDivide p num? ofNum ua)) stateless)
  | "++" => call c (opStep c "++" (opAdd p num? ofNum) (ofNum ⟨1, 1⟩) stateless)
  | "--" => call c (opStep c "--" (opSubtract p num? ofNum) (ofNum ⟨1, 1⟩) stateless)
  | o => others o

end MC.Numerical
