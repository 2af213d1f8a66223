import Verif.Model.Terminator
import Verif.Model.UnitRegs

/-!
# The shipped parsers with the shipped units and constants
-/

namespace MC.Unit.Table
open MC.Parse (Text Lex)
open MC.Unit.Registry (Op)

/-- The names (symbols) that `add_unit` and `add_ambiguous_unit` enter (`unitnormaliser.py:51-58`,
`75-82`), in registration order. -/
def opNames : Op Made → List Text
  | .unit _ u => u.names
  | .amb names _ _ => names.map String.toList
  | .dim _ => []

def opSymbols : Op Made → List Text
  | .unit _ u => u.symbols
  | .amb _ symbols _ => symbols.map String.toList
  | .dim _ => []

/-- The keys of `unitnames` (`unitnormaliser.py:52`, `76`). -/
def unitNames : List Text := (ops.flatMap opNames).map lowerText

/-- The keys of `unitsymbols` (`unitnormaliser.py:56`, `80`). -/
def unitSymbols : List Text := ops.flatMap opSymbols

/-- `unitnamesmaxlength` (`unitnormaliser.py:53-54`, `77-78`). -/
def maxLength : ℕ := unitNames.foldl (fun a n => max a n.length) 0

/-- The names of the shipped constants (`numericalconstants.py:30-32`,
`unitconstants.py:26-39`). -/
def constantNames : List Text :=
  ["e".toList, "pi".toList, "tau".toList, "G".toList, "earthgravity".toList,
   "speedoflight".toList, "Planck".toList]

/-- The unit systems (`systems.py:26-32`). -/
def shippedSystems : List Text :=
  ["gregorian".toList, "si".toList, "us".toList, "uk".toList, "asu".toList, "nautical".toList,
   "iec".toList]

/-- The number types: the `name` of each representation (`decimalnumbers.py:54`,
`percentagenumbers.py:53`, `hexadecimalnumbers.py:68`, `octalnumbers.py:68`,
`arbitrarybasenumbers.py:65`, `binarynumbers.py:68`, `expnumbers.py:119`, `booleans.py:209`).  All of
them are different words, so their order does not matter. -/
def shippedTypes : List Text :=
  ["boolean".toList, "decimal".toList, "percentage".toList, "binary".toList, "octal".toList,
   "hexadecimal".toList, "arbitrarybase".toList, "scientific".toList]

/-- The shipped parsers with everything installed.  `word` and `alpha` (`\w` and `str.isalpha`) are
parameters; so are the words of systems and representations, which are read after units. -/
def unitLex (p : ℕ) (powF : ℚ → ℚ → Except Err ℚ) (word alpha : Char → Bool)
    (systems numTypes : List Text) : Lex :=
  { Parse.shippedLex p powF constantNames unitNames unitSymbols systems numTypes maxLength with
    word := word, alpha := alpha }

end MC.Unit.Table
