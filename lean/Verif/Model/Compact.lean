import Verif.Model.To

/-! # `compact`: `features/units/unitfunctions.py:42-49`, `110-114` -/

namespace MC.Unit.To
variable {U D K R σ : Type} [DecidableEq U] [DecidableEq D] [Field K] [DecidableEq K] (pw : K → ℚ → K) (N : Norm U D K)

/-- `func_compact` (`unitfunctions.py:110-114`) as registered (`42-49`).  The normaliser does not run before it, since its parameter is of
type `number with unit`, not `number` (`operators.py:172`).  `no_simplify` is not looked at. -/
def opCompact (fuel : ℕ) : Operation K (UnitObj U) R σ where
  name := "compact"
  minParams := some 1
  maxParams := some 1
  values := [⟨0, some 0, [.ty "number with unit"]⟩]
  units := []
  ref := fun xs s =>
    match xs with
    | ⟨.sc v, some o, _, _⟩ :: _ =>
      match simplifyUnits pw N fuel v o.list with
      | some (.ok (w, u)) => (.ok { value := .sc w, unit := some (u.map (fun l => ⟨l, false⟩)) }, s)
      | some (.error e) => (.error e, s)
      | none => (.error (.py "out of steps"), s)
    | _ => (.error (.py "IndexError"), s)

end MC.Unit.To
