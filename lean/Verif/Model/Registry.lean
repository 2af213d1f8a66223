import Verif.Model.Engine

/-!
# Model of the unit registry (`services/unitnormaliser.py:36-118`, `objects/units.py:7-69`)

Generic in the type `U` of unit definitions.  Simplifications: `lower` stands for `str.lower`; a
dictionary is a list of pairs in which the newest entry for a key comes first; the maximal lengths
of names and symbols and the grouping by dimension, which `get_unit` does not read, are left out;
`add_prefixed_unit` is a sequence of `add_unit` calls (61-69).
-/

namespace MC.Unit.Registry

/-- What `AbstractUnitDefinition` says about a unit (`units.py:7-55`): its names, its symbols and,
for a `UnitDefinition`, its systems. -/
structure Def where
  names : List String
  symbols : List String
  systems : List String

/-- `AmbiguousUnitDefinition` (`units.py:58-69`): the members by system. -/
structure Amb (U : Type) where
  names : List String
  symbols : List String
  members : List (String × U)

/-- A value of the dictionaries `unitnames` and `unitsymbols`. -/
inductive Entry (U : Type) where
  | unit (u : U)
  | amb (a : Amb U)

/-- The attributes of `UnitNormaliser` that lookup reads (`unitnormaliser.py:12-29`). -/
structure Reg (U : Type) where
  dims : List String
  prefs : List String
  ambiguous : List (Amb U)
  names : List (String × Entry U)
  symbols : List (String × Entry U)

section
variable {U : Type} (lower : String → String) (info : U → Def)

/-- `isunit` (`units.py:23-24`). -/
def isUnit (names symbols : List String) (n : String) : Bool :=
  (names.map lower).contains (lower n) || symbols.contains n

/-- `get_preferred_system` (`unitnormaliser.py:109-113`) on the systems of the members. -/
def preferredSystem (prefs systems : List String) : Option String :=
  prefs.find? (fun s => systems.contains s)

/-- `get_preferred_unit` (`unitnormaliser.py:115-117`): a missing system is a `KeyError`. -/
def preferredUnit (prefs : List String) (a : Amb U) : Except Raise U :=
  match preferredSystem prefs (a.members.map (·.1)) with
  | none => .error (.py "KeyError: None")
  | some s =>
    match a.members.lookup s with
    | none => .error (.py "KeyError")
    | some u => .ok u

/-- `get_unit` (`unitnormaliser.py:90-98`). -/
def getUnit (r : Reg U) (n : String) : Except Raise (Option (Entry U)) :=
  match r.ambiguous.find? (fun a => isUnit lower a.names a.symbols n) with
  | some a => do return some (.unit (← preferredUnit r.prefs a))
  | none =>
    match r.names.lookup (lower n) with
    | some e => .ok (some e)
    | none => .ok (r.symbols.lookup n)

/-- Lines 51-58 and 75-82: enter a definition under all its names and symbols. -/
def enter (names symbols : List String) (e : Entry U) (r : Reg U) : Reg U :=
  { r with
    names := names.foldl (fun d n => (lower n, e) :: d) r.names
    symbols := symbols.foldl (fun d s => (s, e) :: d) r.symbols }

/-- `add_unit` (`unitnormaliser.py:44-58`). -/
def addUnit (dim : String) (u : U) (r : Reg U) : Except Raise (Reg U) :=
  if !r.dims.contains dim then .error (.py "Dimension not found")
  else .ok (enter lower (info u).names (info u).symbols (.unit u) r)

/-- The loop of `AmbiguousUnitDefinition.add_unit` (`units.py:65-69`). -/
def addSystems (u : U) : List String → List (String × U) → Except Raise (List (String × U))
  | [], ms => .ok ms
  | s :: ss, ms =>
    if (ms.lookup s).isSome then .error (.py "Already have a unit for system")
    else addSystems u ss (ms ++ [(s, u)])

/-- The loop 72-73: `None` and an ambiguous unit have no `systems`. -/
def addMembers (r : Reg U) : List String → List (String × U) → Except Raise (List (String × U))
  | [], ms => .ok ms
  | n :: ns, ms => do
    match ← getUnit lower r n with
    | some (.unit u) => addMembers r ns (← addSystems u (info u).systems ms)
    | _ => .error (.py "object has no attribute 'systems'")

/-- `add_ambiguous_unit` (`unitnormaliser.py:71-82`). -/
def addAmbiguous (names symbols units : List String) (r : Reg U) : Except Raise (Reg U) := do
  let ms ← addMembers lower info r units []
  let a : Amb U := ⟨names, symbols, ms⟩
  return enter lower names symbols (.amb a) { r with ambiguous := r.ambiguous ++ [a] }

/-- A registration. -/
inductive Op (U : Type) where
  | dim (d : String)
  | unit (d : String) (u : U)
  | amb (names symbols units : List String)

/-- Perform one registration; for a dimension `add_dimension` (`unitnormaliser.py:38-42`). -/
def applyOp (r : Reg U) : Op U → Except Raise (Reg U)
  | .dim d => .ok { r with dims := d :: r.dims }
  | .unit d u => addUnit lower info d u r
  | .amb names symbols units => addAmbiguous lower info names symbols units r

/-- The registry of a new normaliser with these preferred systems, after some registrations. -/
def build (prefs : List String) (ops : List (Op U)) : Except Raise (Reg U) :=
  ops.foldlM (applyOp lower info) ⟨[], prefs, [], [], []⟩

end
end MC.Unit.Registry
