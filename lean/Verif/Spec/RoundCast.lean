import Verif.Model.Notation
import Verif.Spec.Numerical

/-! # What the digits of a notation stand for -/

namespace MC.Spec
open MC.Notation

/-- The base of the digits a number is written with. -/
def writtenBase : Option Cast → ℕ
  | some .binary => 2
  | some .octal => 8
  | some .hexadecimal => 16
  | some (.arbitrary b) => b
  | _ => 10

/-- The number that the digits stand for: with a percent sign it is a hundred times the value. -/
def writtenValue : Option Cast → ℚ → ℚ
  | some .percentage, q => 100 * q
  | _, q => q

end MC.Spec
