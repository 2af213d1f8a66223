import Verif.Model.Arrays
import Verif.Model.Engine
import Verif.Model.Strings

/-!
# The table of functions for arrays

`features/arrays/arrayfunctions.py`, `features/numerical/statisticalfunctions.py` and
`features/strings/stringarrayfunctions.py`; the functions themselves are in `Model/Arrays.lean` and
`Model/Strings.lean`.
-/

namespace MC.Arrays

variable {S U R K σ : Type}

/-- Functions for arrays by their names (`statisticalfunctions.py:31-89`, `arrayfunctions.py:29-89`,
`stringarrayfunctions.py:29-49`); `others` is for the rest.  Their inputs cannot be errors (`operators.py:54`). -/
def listFuncs (p : ℕ) (num? : S → Option Number) (ofNum : Number → S) (asBool : S → Option Bool)
    (T : Strings.Texts S U R) (c : Calc S U R K)
    (others : String → Option (FuncDef (Opd S U R) σ)) (w : String) : Option (FuncDef (Opd S U R) σ) :=
  match w with
  | "sum" => some ⟨false, call c (opSum p num? ofNum)⟩
  | "count" => some ⟨false, call c (opCount p ofNum)⟩
  | "reverse" => some ⟨false, call c opReverse⟩
  | "concat" => some ⟨false, call c opConcat⟩
  | "min" => some ⟨false, call c (opMin p num?)⟩
  | "max" => some ⟨false, call c (opMax p num?)⟩
  | "sort" => some ⟨false, call c (opSort p num?)⟩
  | "mean" => some ⟨false, call c (opMean p num? ofNum)⟩
  | "median" => some ⟨false, call c (opMedian p num? ofNum)⟩
  | "mode" => some ⟨false, call c (opMode p num? ofNum)⟩
  | "element" => some ⟨false, call c (opElement p num?)⟩
  | "filter" => some ⟨false, call c (opFilter asBool)⟩
  | "split" => some ⟨false, call c (Strings.opSplit T)⟩
  | "join" => some ⟨false, call c (Strings.opJoin T)⟩
  | w => others w

end MC.Arrays
