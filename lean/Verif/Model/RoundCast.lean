import Verif.Model.Notation

/-! # What `round`, `floor` and `ceil` read off the number type: `features/numerical/numericalfunctions.py:136-140` -/

namespace MC.Notation

/-- `number_cast['base']`, or 10 (`numericalfunctions.py:136-138`; `binarynumbers.py:95`, `octalnumbers.py:90`, `hexadecimalnumbers.py:90`,
`arbitrarybasenumbers.py:81`). -/
def castBase : Scal → ℕ
  | .num ⟨_, some .binary, _⟩ => 2
  | .num ⟨_, some .octal, _⟩ => 8
  | .num ⟨_, some .hexadecimal, _⟩ => 16
  | .num ⟨_, some (.arbitrary b), _⟩ => b
  | _ => 10

/-- `number_cast['places_offset']`, or 0 (`numericalfunctions.py:139-140`; `percentagenumbers.py:83`). -/
def castOffset : Scal → ℤ
  | .num ⟨_, some .percentage, _⟩ => 2
  | _ => 0

/-- The number of a number object. -/
def scalNumber : Scal → Option Number
  | .num x => some x.num
  | _ => none

/-- A result of the arithmetic of numbers. -/
def ofNumber (n : Number) : Scal := .num ⟨n, none, none⟩

end MC.Notation
