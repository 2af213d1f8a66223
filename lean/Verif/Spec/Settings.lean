import Verif.Model.Settings

/-! # Which settings a calculator was asked for -/

namespace MC.Spec
open MC.Settings

/-- The settings of a calculator: digits, places, rounding. -/
structure Asked where
  digits : ℤ
  places : ℤ
  rounding : String
  deriving DecidableEq

/-- The numbers of digits `decimal` can work with. -/
def Workable (n : ℤ) : Prop := 1 ≤ n ∧ n ≤ 999999999999999999

instance (n : ℤ) : Decidable (Workable n) := by unfold Workable; infer_instance

/-- One event: making a calculator gives it the settings of the manual, a setting changes what it names, and a setting that
`decimal` cannot take changes nothing. -/
def ask (a : Option Asked) : Event → Option Asked
  | .create => some ⟨100, 30, "ROUND_HALF_UP"⟩
  | .size n => a.map (fun a => if Workable n then { a with digits := n } else a)
  | .places n => a.map (fun a => { a with places := n })
  | .rounding r => a.map (fun a => if r ∈ roundings then { a with rounding := r } else a)

/-- What calculator `i` was asked for, whoever asked and whatever else went on. -/
def lastAsked (i : ℕ) (h : List (ℕ × ℕ × Event)) : Option Asked :=
  (h.filter (fun e => e.2.1 = i)).foldl (fun a e => ask a e.2.2) none

end MC.Spec
