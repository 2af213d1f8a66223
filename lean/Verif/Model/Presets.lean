import Verif.Model.Install

/-!
# Presets (`features/presets.py`, `modularcalculator.py:68-72`)
-/

namespace MC.Install

/-- `presets['Basic']` (`presets.py:6-10`). -/
def basic : List String :=
  ["numerical.basicarithmetic", "numerical.decimalnumbers", "structure.operators"]

/-- `presets['Advanced']` (`presets.py:12-19`). -/
def advanced : List String := basic ++
  ["nonfunctional.space", "numerical.advancedarithmetic", "state.assignment",
    "state.assignmentoperators", "structure.innerexpressions", "structure.terminator"]

/-- `presets['Scientific']` (`presets.py:21-44`). -/
def scientific : List String := advanced ++
  ["arrays.arrays", "arrays.arrayfunctions", "numerical.decimalfunction",
    "numerical.numericalrepresentation", "numerical.expnumbers", "numerical.percentagenumbers",
    "numerical.numericalconstants", "numerical.numericalfunctions", "numerical.specialfunctions",
    "numerical.statisticalfunctions", "numerical.trigonometryfunctions",
    "state.assignmentfunctions", "state.constants", "structure.functions",
    "unitdefinitions.allunitdefinitions", "units.advancedunitprefixes", "units.basicunitprefixes",
    "units.systems", "units.unitconstants", "units.unitfunctions", "units.units",
    "units.unitsymbols"]

/-- `presets['Computing']` (`presets.py:46-65`). -/
def computing : List String := scientific ++
  ["boolean.booleans", "numerical.bitwiseoperators", "dates.datefunctions", "dates.dateoperators",
    "dates.dates", "nonfunctional.comments", "numerical.arbitrarybasenumbers", "numerical.bases",
    "numerical.binarynumbers", "numerical.hexadecimalnumbers", "numerical.octalnumbers",
    "strings.regex", "strings.stringarrayfunctions", "strings.stringcomparison",
    "strings.stringfunctions", "strings.strings", "structure.externalfunctions",
    "structure.inlinefunctions"]

/-- `presets` (`presets.py:4-65`). -/
def presets : List (String × List String) :=
  [("Basic", basic), ("Advanced", advanced), ("Scientific", scientific), ("Computing", computing)]

/-- `list_presets` (`modularcalculator.py:68-69`). -/
def listPresets : List String := presets.map (·.1)

/-- `load_preset` (`modularcalculator.py:71-72`); an unknown name is a `KeyError`. -/
def loadPreset (T : Table) (fuel : ℕ) (preset : String) : Run :=
  match presets.lookup preset with
  | some names => install T fuel names
  | none => fun st => some (.error (.py "KeyError"), st)

/-- `ModularCalculator(preset)` (`modularcalculator.py:18-32`). -/
def construct (T : Table) (fuel : ℕ) : Option String → Option (Except Raise Unit × St)
  | some preset => loadPreset T fuel preset fresh
  | none => some (.ok (), fresh)

end MC.Install
