import Verif.Model.UnitTable

/-!
# What the shipped registrations register

`services/unitnormaliser.py:38-88` on the registrations of `Model/UnitTable.lean`.
-/

namespace MC.Unit.Table
open MC.Parse (Text)
open MC.Unit.Registry (Op Def)

/-- The units that one registration makes: `add_unit` (`unitnormaliser.py:44-58`) or
`add_prefixed_unit` (`61-69`). -/
def Line.made : Line → List Made
  | .unit d c p s => [c.make d p s]
  | .prefixed d c lo hi =>
    (prefixes.filter (fun p => lo.all (fun l => l ≤ p.scale) && hi.all (fun h => p.scale ≤ h))).map
      (fun p => c.make d (some p) none)
  | _ => []

/-- `systems.append(system)` on the unit with this name (`data.py:41`, `50`). -/
def appendSystem (unit system : String) (u : Made) : Made :=
  if (u.names.map lowerText).contains (lowerText unit.toList) then
    { u with systems := u.systems ++ [system] }
  else u

/-- The same on a registration that was made before; the unit is shared. -/
def appendSystemOp (unit system : String) : Op Made → Op Made
  | .unit d u => .unit d (appendSystem unit system u)
  | o => o

/-- One registration after others. -/
def register (acc : List (Op Made)) : Line → List (Op Made)
  | .dim d _ => acc ++ [.dim d]
  | .unit d c p s => acc ++ (Line.unit d c p s).made.map (.unit d)
  | .prefixed d c lo hi => acc ++ (Line.prefixed d c lo hi).made.map (.unit d)
  | .system n s => acc.map (appendSystemOp n s)
  | .amb names symbols units => acc ++ [.amb names symbols units]
  | .multi _ _ => acc

/-- The shipped registrations. -/
def ops : List (Op Made) := lines.foldl register []

/-- The shipped units, in the order of registration. -/
def units : List Made :=
  ops.filterMap (fun o => match o with | .unit _ u => some u | _ => none)

/-- What lookup reads from a unit. -/
def info (u : Made) : Def :=
  ⟨u.names.map String.ofList, u.symbols.map String.ofList, u.systems⟩

/-- `str.lower` on ASCII. -/
def lower (s : String) : String := String.ofList (lowerText s.toList)

/-- `systems_preference` (`systems.py:33`). -/
def preference : List String := ["gregorian", "si", "us", "uk", "asu", "nautical", "iec"]

end MC.Unit.Table
