import Verif.Model.Display
import Verif.Model.ShippedNorm

/-!
# The shipped constants

`features/numerical/numericalconstants.py` and `features/units/unitconstants.py`.
-/

namespace MC.Constants
open MC.Unit MC.Unit.Table

/-- `Number(text)` for a text with digits (`number.py:21-55`): the text is read exactly. -/
def ofText (p : ℕ) (s : String) : Except Err Number :=
  match matchDecimal s.toList with
  | some (neg, ip, fp, []) => Number.mk' p (decimalOf neg ip fp) 1
  | _ => .error (.py "InvalidOperation")

/-- The texts of the constants and the names of their units (`numericalconstants.py:9-11`, `30-32`,
`unitconstants.py:28-46`). -/
def table : List (String × String × Option (List (String × ℤ))) :=
  [("e", "2.71828182845904523536028747135266249775724709369995", none),
   ("pi", "3.14159265358979323846264338327950288419716939937511", none),
   ("tau", "6.28318530717958647692528676655900576839433879875022", none),
   ("G", "0.0000000000667408", some [("meter", 3), ("kilogram", -1), ("second", -2)]),
   ("earthgravity", "9.80665", some [("meter", 1), ("second", -2)]),
   ("speedoflight", "299792458", some [("meter", 1), ("second", -1)]),
   ("Planck", "0.000000000000000000000000000000000662607015", some [("joule", 1), ("second", 1)])]

/-- `calculator.constants[name]`, as a number and a unit (`constants.py:48-54`, `61-64`). -/
def constant (p : ℕ) (name : String) : Option (Except Err (Number × Option (PL Shipped))) :=
  (table.lookup name).map (fun c => (ofText p c.1).map (fun n => (n, c.2.map multiOf)))

end MC.Constants
