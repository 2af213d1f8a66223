import Verif.Model.Units

/-!
# Model of the check of dimensions

`check_unit_dimensions` and what it uses (`services/unitnormaliser.py:382-406`).
-/

namespace MC.Unit

variable {U D K : Type} [DecidableEq D]

/-- `check_unit_dimensions` (`unitnormaliser.py:382-406`).  `dims` are the registered dimensions, and the
relationship is a list of pairs here; the code has one flat list, of which it makes the pairs (`384-386`).
The two lists are compared entry by entry, in their order. -/
def checkUnitDimensions (N : Norm U D K) (dims : List D) (relationship : PL D) (unit : Option (PL U)) :
    Except Raise Bool :=
  if relationship.any (fun o => !dims.contains o.1) then .error (.py "Dimension not found")  -- 387-388
  else
    match unit with
    | none => .ok false                                                                      -- 393-394
    | some l => .ok (decide (dimList N l = relationship))                                    -- 406

end MC.Unit
