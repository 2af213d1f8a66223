import Verif.Model.Units

/-!
# The sum of an array of quantities

In exact arithmetic; `Model/Arrays.lean` has the operation with its rounding.
-/

namespace MC.Unit

variable {U D K : Type} [DecidableEq U] [DecidableEq D] [Field K] [DecidableEq K]
variable (pw : K → ℚ → K) (N : Norm U D K)

/-- `sum` (`statisticalfunctions.py:31-39`, `102-107`) of an array of numbers: the units of the elements are normalised, not as
differences (`operators.py:172-176`), and the result gets the common unit (`operators.py:225-229`). -/
def evalSum (fuel : ℕ) (xs : List (K × Option (PL U))) : Option (Except Raise (Arg U K)) :=
  match normaliseInputs pw N fuel false false xs with
  | none => none
  | some (.error e) => some (.error e)
  | some (.ok (ys, ru)) => some (.ok (.num (ys.map (·.1)).sum ru))

/-- `x + y + ... + z`, from left to right. -/
def evalAdds (fuel : ℕ) (x : K × Option (PL U)) : List (K × Option (PL U)) → Option (Except Raise (Arg U K))
  | [] => some (.ok (.num x.1 x.2))
  | y :: ys =>
    match evalAdd pw N fuel x y with
    | none => none
    | some (.error e) => some (.error e)
    | some (.ok (.num v u)) => evalAdds fuel (v, u) ys
    | some (.ok (.unit _)) => none

end MC.Unit
