import Verif.Model.Engine

/-!
# Model of `install_features` (`modularcalculator.py:77-130`)

What a feature's own `install` does to the calculator is not modelled, only that it is called and
returns; a feature group (`MetaFeature`, `feature.py:80-87`) installs its subfeatures by a call
of `install_features`.  The set of installed features and that of features to be installed are
lists here.  Recursion over features takes fuel: `none` means that the recursion was not over.
-/

namespace MC.Install

/-- What `install_features` asks a feature (`feature.py:28-87`); `subs` only for groups. -/
structure Feature where
  deps : List String
  after : List String
  subs : Option (List String)

/-- `feature_list` (`modularcalculator.py:21`). -/
abbrev Table := String → Option Feature

/-- What can be observed of an installation: calls of `install` of a feature, and their
returns. -/
inductive Event where
  | start (name : String)
  | done (name : String)
  deriving DecidableEq

/-- The state (`modularcalculator.py:28-29`) and the events so far. -/
structure St where
  installed : List String
  pending : List String
  log : List Event

/-- A computation that may run out of fuel or raise. -/
abbrev Run := St → Option (Except Raise Unit × St)

/-- A `for` loop. -/
def each {α : Type} (f : α → Run) : List α → Run
  | [], st => some (.ok (), st)
  | a :: as, st =>
    match f a st with
    | some (.ok (), st') => each f as st'
    | r => r

/-- One statement after another. -/
def seq (f g : Run) : Run := fun st =>
  match f st with
  | some (.ok (), st') => g st'
  | r => r

/-- `add_feature_to_be_installed` (`modularcalculator.py:120-130`).  `feature_list` holds
classes, so `isinstance(feature, MetaFeature)` (`128`) is never true and lines 129-130 never
run. -/
def mark (T : Table) : ℕ → String → Run
  | 0, _ => fun _ => none
  | fuel + 1, n => fun st =>
    if n ∈ st.pending then some (.ok (), st)
    else
      let st1 := { st with pending := n :: st.pending }
      match T n with
      | none => some (.error (.py "KeyError"), st1)
      | some f => each (mark T fuel) f.deps st1

/-- `install` of a feature: for a group, `MetaFeature.install` (`feature.py:82-84`). -/
def runSubs (rec : List String → Run) (f : Feature) : Run :=
  match f.subs with
  | some subs => rec subs
  | none => fun st => some (.ok (), st)

/-- Lines 98-117 for one name; `rec` is `install_features`. -/
def installOne (T : Table) (rec : List String → Run) (n : String) : Run := fun st =>
  if n ∈ st.installed then some (.ok (), st)
  else
    match T n with
    | none => some (.error (.calc "Feature not found"), st)
    | some f =>
      seq (each (fun b st => if b ∉ st.installed ∧ b ∈ st.pending then rec [b] st
          else some (.ok (), st)) f.after)
        (seq (each (fun d st => if d ∉ st.installed then rec [d] st
            else some (.ok (), st)) f.deps)
          (seq (fun st => some (.ok (), { st with log := st.log ++ [.start n] }))
            (seq (runSubs rec f)
              (fun st => some (.ok (), { st with
                installed := n :: st.installed, log := st.log ++ [.done n] }))))) st

/-- `install_features` (`modularcalculator.py:77-118`) without `skipMissing`.  `setup` (`118`)
only rebuilds lookup tables. -/
def install (T : Table) : ℕ → List String → Run
  | 0, _ => fun _ => none
  | fuel + 1, names =>
    seq (each (mark T (fuel + 1)) names) (each (installOne T (install T fuel)) names)

/-- `install_features` with `skipMissing` (`modularcalculator.py:81-88`). -/
def installSkip (T : Table) (fuel : ℕ) (names : List String) : Run :=
  install T fuel (names.filter (fun n => (T n).isSome))

/-- A new calculator (`modularcalculator.py:28-29`). -/
def fresh : St := ⟨[], [], []⟩

/-- The shipped features: `id`, `dependencies`, `after`, `subfeatures` of the classes in
`features/*/*.py`. -/
def shippedList : List (String × Feature) :=
  [
     ("arrays.arrayfunctions", ⟨["arrays.arrays", "structure.functions"], [], none⟩),
    ("arrays.arrays", ⟨[], [], none⟩),
    ("boolean.booleans", ⟨[], [], none⟩),
    ("dates.datefunctions", ⟨["dates.dates", "structure.functions"], [], none⟩),
    ("dates.dateoperators", ⟨["dates.dates", "structure.operators"], [], none⟩),
    ("dates.dates", ⟨["strings.strings"], [], none⟩),
    ("nonfunctional.comments", ⟨[], [], none⟩),
    ("nonfunctional.space", ⟨[], [], none⟩),
    ("numerical.advancedarithmetic", ⟨["structure.operators"], [], none⟩),
    ("numerical.arbitrarybasenumbers", ⟨["numerical.bases"], [], none⟩),
    ("numerical.bases", ⟨["structure.functions"], [], none⟩),
    ("numerical.basicarithmetic", ⟨["structure.operators"], [], none⟩),
    ("numerical.binarynumbers", ⟨["numerical.bases"], ["numerical.numericalrepresentation"],
      none⟩),
    ("numerical.bitwiseoperators", ⟨["structure.operators"], [], none⟩),
    ("numerical.decimalfunction", ⟨["numerical.decimalnumbers", "structure.functions"], [],
      none⟩),
    ("numerical.decimalnumbers", ⟨[], ["numerical.numericalrepresentation"], none⟩),
    ("numerical.expnumbers", ⟨["numerical.decimalnumbers", "structure.functions"],
      ["numerical.numericalrepresentation"], none⟩),
    ("numerical.hexadecimalnumbers", ⟨["numerical.bases"],
      ["numerical.numericalrepresentation"], none⟩),
    ("numerical.numericalconstants", ⟨["state.constants"], [], none⟩),
    ("numerical.numericalfunctions", ⟨["structure.functions"], [], none⟩),
    ("numerical.numericalrepresentation", ⟨[], [], none⟩),
    ("numerical.octalnumbers", ⟨["numerical.bases"], ["numerical.numericalrepresentation"],
      none⟩),
    ("numerical.percentagenumbers", ⟨["numerical.decimalnumbers"],
      ["numerical.numericalrepresentation"], none⟩),
    ("numerical.specialfunctions", ⟨["structure.functions"], [], none⟩),
    ("numerical.statisticalfunctions", ⟨["structure.functions", "arrays.arrays"], [], none⟩),
    ("numerical.trigonometryfunctions", ⟨["structure.functions"], [], none⟩),
    ("state.assignment", ⟨["structure.operators"], [], none⟩),
    ("state.assignmentfunctions", ⟨["state.assignment", "structure.functions"], [], none⟩),
    ("state.assignmentoperators", ⟨["state.assignment", "structure.operators"], [], none⟩),
    ("state.constants", ⟨[], [], none⟩),
    ("strings.regex", ⟨["strings.strings", "structure.functions", "arrays.arrays"], [], none⟩),
    ("strings.stringarrayfunctions", ⟨["strings.strings", "structure.functions",
      "arrays.arrays"], [], none⟩),
    ("strings.stringcomparison", ⟨["strings.strings", "boolean.booleans"], [], none⟩),
    ("strings.stringfunctions", ⟨["strings.strings", "structure.functions"], [], none⟩),
    ("strings.strings", ⟨[], [], none⟩),
    ("structure.externalfunctions", ⟨["structure.functionpointers", "strings.strings",
      "structure.terminator"], [], none⟩),
    ("structure.functionpointers", ⟨["state.assignment", "structure.functions"], [], none⟩),
    ("structure.functions", ⟨[], [], none⟩),
    ("structure.inlinefunctions", ⟨["structure.functionpointers", "structure.terminator"], [],
      none⟩),
    ("structure.innerexpressions", ⟨[], [], none⟩),
    ("structure.operators", ⟨[], [], none⟩),
    ("structure.terminator", ⟨[], [], none⟩),
    ("unitdefinitions.absorbeddose", ⟨["units.units", "units.systems",
      "unitdefinitions.distance", "unitdefinitions.time"], ["units.basicunitprefixes",
      "units.advancedunitprefixes"], none⟩),
    ("unitdefinitions.acceleration", ⟨["units.units", "units.systems",
      "unitdefinitions.distance", "unitdefinitions.time"], ["units.basicunitprefixes",
      "units.advancedunitprefixes"], none⟩),
    ("unitdefinitions.allunitdefinitions", ⟨[], [], some ["unitdefinitions.absorbeddose",
      "unitdefinitions.acceleration", "unitdefinitions.angle", "unitdefinitions.area",
      "unitdefinitions.capacitance", "unitdefinitions.catalyticactivity",
      "unitdefinitions.data", "unitdefinitions.distance",
      "unitdefinitions.electricalconductance", "unitdefinitions.electricalpotential",
      "unitdefinitions.electriccharge", "unitdefinitions.electriccurrent",
      "unitdefinitions.energy", "unitdefinitions.equivalentdose", "unitdefinitions.force",
      "unitdefinitions.frequency", "unitdefinitions.illuminance", "unitdefinitions.inductance",
      "unitdefinitions.luminousflux", "unitdefinitions.luminousintensity",
      "unitdefinitions.magneticflux", "unitdefinitions.magneticfluxdensity",
      "unitdefinitions.mass", "unitdefinitions.power", "unitdefinitions.pressure",
      "unitdefinitions.radioactivity", "unitdefinitions.resistance",
      "unitdefinitions.solidangle", "unitdefinitions.substance", "unitdefinitions.temperature",
      "unitdefinitions.time", "unitdefinitions.velocity", "unitdefinitions.volume"]⟩),
    ("unitdefinitions.angle", ⟨["units.units", "units.systems"], ["units.basicunitprefixes",
      "units.advancedunitprefixes"], none⟩),
    ("unitdefinitions.area", ⟨["units.units", "units.systems", "unitdefinitions.distance"],
      ["units.basicunitprefixes", "units.advancedunitprefixes"], none⟩),
    ("unitdefinitions.capacitance", ⟨["units.units", "units.systems",
      "unitdefinitions.electriccurrent", "unitdefinitions.distance", "unitdefinitions.time",
      "unitdefinitions.mass"], ["units.basicunitprefixes", "units.advancedunitprefixes"], none⟩),
    ("unitdefinitions.catalyticactivity", ⟨["units.units", "units.systems",
      "unitdefinitions.substance", "unitdefinitions.time"], ["units.basicunitprefixes",
      "units.advancedunitprefixes"], none⟩),
    ("unitdefinitions.data", ⟨["units.units", "units.systems"], ["units.basicunitprefixes",
      "units.advancedunitprefixes"], none⟩),
    ("unitdefinitions.distance", ⟨["units.units", "units.systems"], ["units.basicunitprefixes",
      "units.advancedunitprefixes"], none⟩),
    ("unitdefinitions.electricalconductance", ⟨["units.units", "units.systems",
      "unitdefinitions.electriccurrent", "unitdefinitions.distance", "unitdefinitions.time",
      "unitdefinitions.mass"], ["units.basicunitprefixes", "units.advancedunitprefixes"], none⟩),
    ("unitdefinitions.electricalpotential", ⟨["units.units", "units.systems",
      "unitdefinitions.electriccurrent", "unitdefinitions.distance", "unitdefinitions.time",
      "unitdefinitions.mass"], ["units.basicunitprefixes", "units.advancedunitprefixes"], none⟩),
    ("unitdefinitions.electriccharge", ⟨["units.units", "units.systems",
      "unitdefinitions.electriccurrent", "unitdefinitions.time"], ["units.basicunitprefixes",
      "units.advancedunitprefixes"], none⟩),
    ("unitdefinitions.electriccurrent", ⟨["units.units", "units.systems"],
      ["units.basicunitprefixes", "units.advancedunitprefixes"], none⟩),
    ("unitdefinitions.energy", ⟨["units.units", "units.systems", "unitdefinitions.distance",
      "unitdefinitions.time", "unitdefinitions.mass"], ["units.basicunitprefixes",
      "units.advancedunitprefixes"], none⟩),
    ("unitdefinitions.equivalentdose", ⟨["units.units", "units.systems",
      "unitdefinitions.distance", "unitdefinitions.time"], ["units.basicunitprefixes",
      "units.advancedunitprefixes"], none⟩),
    ("unitdefinitions.force", ⟨["units.units", "units.systems", "unitdefinitions.distance",
      "unitdefinitions.time", "unitdefinitions.mass"], ["units.basicunitprefixes",
      "units.advancedunitprefixes"], none⟩),
    ("unitdefinitions.frequency", ⟨["units.units", "units.systems", "unitdefinitions.time"],
      ["units.basicunitprefixes", "units.advancedunitprefixes"], none⟩),
    ("unitdefinitions.illuminance", ⟨["units.units", "units.systems",
      "unitdefinitions.luminousintensity", "unitdefinitions.solidangle",
      "unitdefinitions.distance"], ["units.basicunitprefixes", "units.advancedunitprefixes"],
      none⟩),
    ("unitdefinitions.inductance", ⟨["units.units", "units.systems",
      "unitdefinitions.electriccurrent", "unitdefinitions.distance", "unitdefinitions.time",
      "unitdefinitions.mass"], ["units.basicunitprefixes", "units.advancedunitprefixes"], none⟩),
    ("unitdefinitions.luminousflux", ⟨["units.units", "units.systems",
      "unitdefinitions.luminousintensity", "unitdefinitions.solidangle"],
      ["units.basicunitprefixes", "units.advancedunitprefixes"], none⟩),
    ("unitdefinitions.luminousintensity", ⟨["units.units", "units.systems"],
      ["units.basicunitprefixes", "units.advancedunitprefixes"], none⟩),
    ("unitdefinitions.magneticflux", ⟨["units.units", "units.systems",
      "unitdefinitions.electriccurrent", "unitdefinitions.distance", "unitdefinitions.time",
      "unitdefinitions.mass"], ["units.basicunitprefixes", "units.advancedunitprefixes"], none⟩),
    ("unitdefinitions.magneticfluxdensity", ⟨["units.units", "units.systems",
      "unitdefinitions.electriccurrent", "unitdefinitions.time", "unitdefinitions.mass"],
      ["units.basicunitprefixes", "units.advancedunitprefixes"], none⟩),
    ("unitdefinitions.mass", ⟨["units.units", "units.systems"], ["units.basicunitprefixes",
      "units.advancedunitprefixes"], none⟩),
    ("unitdefinitions.power", ⟨["units.units", "units.systems", "unitdefinitions.distance",
      "unitdefinitions.time", "unitdefinitions.mass"], ["units.basicunitprefixes",
      "units.advancedunitprefixes"], none⟩),
    ("unitdefinitions.pressure", ⟨["units.units", "units.systems", "unitdefinitions.distance",
      "unitdefinitions.time", "unitdefinitions.mass"], ["units.basicunitprefixes",
      "units.advancedunitprefixes"], none⟩),
    ("unitdefinitions.radioactivity", ⟨["units.units", "units.systems", "unitdefinitions.time"],
      ["units.basicunitprefixes", "units.advancedunitprefixes"], none⟩),
    ("unitdefinitions.resistance", ⟨["units.units", "units.systems",
      "unitdefinitions.electriccurrent", "unitdefinitions.distance", "unitdefinitions.time",
      "unitdefinitions.mass"], ["units.basicunitprefixes", "units.advancedunitprefixes"], none⟩),
    ("unitdefinitions.solidangle", ⟨["units.units", "units.systems"],
      ["units.basicunitprefixes", "units.advancedunitprefixes"], none⟩),
    ("unitdefinitions.substance", ⟨["units.units", "units.systems"], ["units.basicunitprefixes",
      "units.advancedunitprefixes"], none⟩),
    ("unitdefinitions.temperature", ⟨["units.units", "units.systems"],
      ["units.basicunitprefixes", "units.advancedunitprefixes"], none⟩),
    ("unitdefinitions.time", ⟨["units.units", "units.systems"], ["units.basicunitprefixes",
      "units.advancedunitprefixes"], none⟩),
    ("unitdefinitions.velocity", ⟨["units.units", "units.systems", "unitdefinitions.distance",
      "unitdefinitions.time"], ["units.basicunitprefixes", "units.advancedunitprefixes"], none⟩),
    ("unitdefinitions.volume", ⟨["units.units", "units.systems", "unitdefinitions.distance"],
      ["units.basicunitprefixes", "units.advancedunitprefixes"], none⟩),
    ("units.advancedunitprefixes", ⟨["units.units", "units.basicunitprefixes"], [], none⟩),
    ("units.basicunitprefixes", ⟨["units.units"], [], none⟩),
    ("units.systems", ⟨["units.units"], [], none⟩),
    ("units.unitconstants", ⟨["units.units", "numerical.numericalconstants",
      "units.basicunitprefixes", "unitdefinitions.distance", "unitdefinitions.mass",
      "unitdefinitions.time", "unitdefinitions.energy"], [], none⟩),
    ("units.unitfunctions", ⟨["units.units", "units.systems", "structure.functions"], [], none⟩),
    ("units.units", ⟨[], [], none⟩),
    ("units.unitsymbols", ⟨["units.units"], [], none⟩)  ]

/-- `feature_list` after `scan_feature_files` (`modularcalculator.py:34-58`). -/
def shipped : Table := fun n => shippedList.lookup n

end MC.Install
