import Mathlib.Algebra.Order.Floor.Defs
import Mathlib.Data.List.Sort
import Verif.Model.ShippedNorm

/-!
# `format`: a quantity written with several units

`features/units/unitfunctions.py:50-104`, `services/unitnormaliser.py:100-113`.

Simplifications: numbers are exact and compared exactly (the code compares `to_decimal()`); a unit
object is compared by its value (`==` on `UnitDefinition` is identity; no two shipped units have the
same value).
-/

namespace MC.Unit.Format
open MC.Parse (Text)

/-- What `format` reads from a unit besides its `Info`: `use` (`units.py:78`), `namelist[0]`
(`units.py:13`), `plural()` and `singular()` (`units.py:32-36`). -/
structure Face (U : Type) where
  use : U → Bool
  kind : U → Text
  plural : U → Text
  singular : U → Text

variable {U D K : Type} [DecidableEq U] [DecidableEq D]
variable [Field K] [LinearOrder K] [FloorRing K] (pw : K → ℚ → K) (N : Norm U D K) (F : Face U)

/-- `u.convertfrom(Number(1), False)` (`unitnormaliser.py:108`); a conversion with power -1 never
raises. -/
def sortKey (u : U) : K :=
  match convert pw (N.info u) 1 (-1) false with
  | .ok k => k
  | .error _ => 0

/-- `get_system` with a dimension (`unitnormaliser.py:100-108`); `sorted` with `reverse=True` keeps the
order of units of the same size. -/
def systemUnits (system : String) (d : D) : List U :=
  (((N.units.filter (fun e => e.1 = d)).flatMap (fun e => e.2)).filter
    (fun u => (N.info u).systems.contains system && F.use u)).insertionSort
      (fun a b => sortKey pw N b ≤ sortKey pw N a)

/-- `get_preferred_system` (`unitnormaliser.py:110-114`). -/
def preferredSystem (prefs systems : List String) : Option String :=
  prefs.find? (fun s => systems.contains s)

/-- The loop of `find_first_unit_prefix_at_least_one` (`unitfunctions.py:101-104`).  When no unit is
taken the function returns `None`, which the caller unpacks. -/
def firstOf (last : Option U) (old : K) : List U → Except Raise (K × U)
  | [] => .error (.py "cannot unpack non-iterable NoneType object")
  | s :: ss => do
    let n ← convert pw (N.info s) old 1 false
    if 1 ≤ n ∨ some s = last then return (n, s) else firstOf last old ss

/-- `find_first_unit_prefix_at_least_one` (`unitfunctions.py:98-104`). -/
def firstAtLeastOne (sys : List U) (num : K) (u : U) : Except Raise (K × U) := do
  let old ← convert pw (N.info u) num (-1) false
  firstOf pw N sys.getLast? old (sys.filter (fun s => F.kind s = F.kind u))

/-- `parts.append` unless the count is zero (`unitfunctions.py:91-92`). -/
def addPart (p : K × U) (ps : List (K × U)) : List (K × U) := if p.1 ≠ 0 then p :: ps else ps

/-- The loop `unitfunctions.py:73-92` over the units without a prefix; the parts as counts with units.
`last` is `nonprefixedsystemunits[-1]`. -/
def loop (sys : List U) (last : Option U) : List U → K → U → Except Raise (List (K × U))
  | [], _, _ => .ok []
  | s :: ss, num, unit => do
    let num ← convert pw (N.info unit) num (-1) false                    -- 74
    let num ← convert pw (N.info s) num 1 false                          -- 75-76
    if 1 ≤ num ∨ some s = last then                                      -- 77-78
      if some s = last then                                              -- 79-80
        let p ← firstAtLeastOne pw N F sys num s
        return addPart p (← loop sys last ss num p.2)
      else
        let p ← firstAtLeastOne pw N F sys ((⌊num⌋ : ℤ) : K) s           -- 82-83
        if p.2 = s then                                                  -- 84-85
          return addPart p (← loop sys last ss (num - p.1) s)
        else                                                             -- 86-90
          let num ← convert pw (N.info s) num (-1) false
          let num ← convert pw (N.info p.2) num 1 false
          return addPart p (← loop sys last ss (num - p.1) p.2)
    else loop sys last ss num s

/-- `func_format` (`unitfunctions.py:50-96`) on a value with a unit, and possibly a system: the parts of
the text.  `none`: the bound on the number of steps of the simplification was too small. -/
def format (prefs : List String) (fuel : ℕ) (v : K) (l : PL U) (system : Option String) :
    Option (Except Raise (List (K × U))) :=
  match simplifyUnits pw N fuel v l with                                 -- 52
  | none => none
  | some (.error e) => some (.error e)
  | some (.ok (_, none)) => some (.error (.calc "Input must have a unit"))   -- 53-54
  | some (.ok (num, some [(u, p)])) =>
    if p ≠ 1 then some (.error (.calc "Unit must have power of 1"))      -- 57-59
    else
      match system, (N.info u).systems with                              -- 62-67
      | none, [] => some (.error (.calc "Unit is not part of a measuring system"))
      | system, systems =>
        let sys := match system with
          | some s => systemUnits pw N F s (N.info u).dim
          | none => match preferredSystem prefs systems with
            | some s => systemUnits pw N F s (N.info u).dim
            | none => []
        if sys.isEmpty then                                              -- 69-71
          some (.error (.calc "No units in system found for dimension"))
        else
          let bases := sys.filter (fun s => !(N.info s).prefixed)        -- 72
          some (loop pw N F sys bases.getLast? bases num u)
  | some (.ok (_, some _)) => some (.error (.calc "Can only format single units"))  -- 55-56

/-- Lines 91-95: the text; `shows` is `to_string` of a count. -/
def text (shows : K → Text) (ps : List (K × U)) : Text :=
  (", ".toList).intercalate (ps.map (fun p =>
    shows p.1 ++ [' '] ++ (if p.1 = 1 then F.singular p.2 else F.plural p.2)))

end MC.Unit.Format

namespace MC.Unit.Table
open MC.Unit.Format

/-- What `format` reads from a shipped unit. -/
def face : Face Shipped where
  use u := u.1.cls.use
  kind u := (u.1.cls.names.headD "").toList
  plural u := u.1.names.headD []
  singular u := u.1.names[1]?.getD []

end MC.Unit.Table
