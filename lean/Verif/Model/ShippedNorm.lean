import Verif.Model.UnitRegs

/-!
# The unit normaliser with the shipped units

What `services/unitnormaliser.py:12-88` holds after the registrations of `Model/UnitTable.lean`.

Simplification: `get_unit` in `make_multiunit` (`unitnormaliser.py:135-139`) takes the unit that has
the name; for the two multi-units shipped no other unit has it (C68).
-/

namespace MC.Unit.Table

/-- The shipped units. -/
abbrev Shipped := { u : Made // u ∈ units }

/-- `relationships` (`unitnormaliser.py:38-42`). -/
def relOf (d : String) : Option (PL String) :=
  lines.findSome? (fun l => match l with
    | .dim n r => if n = d ∧ r ≠ [] then some (r.map (fun o => (o.1, (o.2 : ℚ)))) else none
    | _ => none)

/-- `dimensions`, in the order of registration (`unitnormaliser.py:39`). -/
def dimNames : List String :=
  lines.filterMap (fun l => match l with | .dim n _ => some n | _ => none)

/-- The shipped unit with this name. -/
def byName (n : String) : Option Shipped :=
  units.attach.find? (fun u => (u.1.names.map lowerText).contains (lowerText n.toList))

/-- `make_multiunit` (`unitnormaliser.py:135-139`). -/
def multiOf (l : List (String × ℤ)) : PL Shipped :=
  l.filterMap (fun o => (byName o.1).map (fun u => (u, (o.2 : ℚ))))

variable (K : Type) [Field K]

/-- The attributes of a shipped unit (`objects/units.py:71-86`). -/
def normInfo (u : Made) : Info String K where
  kind := u.cls.kind
  scale := (u.scale : K)
  dim := u.dim
  systems := u.systems
  relevant := u.cls.relevant
  useForCondense := u.cls.condense
  prefixed := (u.pre.bind (·.name)).isSome

/-- The normaliser (`unitnormaliser.py:12-34`) after the registrations. -/
def norm (closer : K → K → Except Raise Bool) (simpler : K → K → Bool) : Norm Shipped String K where
  info u := normInfo K u.1
  rel := relOf
  units := dimNames.map (fun d => (d, units.attach.filter (fun u => u.1.dim = d)))
  multiunits d := lines.filterMap (fun l => match l with
    | .multi n us => if n = d then some (multiOf us) else none
    | _ => none)
  allowPrefixed := true
  closer := closer
  simpler := simpler

end MC.Unit.Table
