import Verif.Model.Display
import Verif.Model.Operation

/-!
# The settings for numbers, and where they are kept

`numericalengine.py` and the settings of `objects/number.py`.  A calculator keeps the number of digits and of places it was
asked for; what is used in calculations is the context of `decimal`, of which every thread has its own, and one dictionary for
the whole process.
-/

namespace MC.Settings

/-- The names of the ways of rounding that `decimal` knows; anything else is refused (`number.py:213-214`). -/
def roundings : List String :=
  ["ROUND_CEILING", "ROUND_DOWN", "ROUND_FLOOR", "ROUND_HALF_DOWN", "ROUND_HALF_EVEN", "ROUND_HALF_UP", "ROUND_UP",
   "ROUND_05UP"]

/-- The fields of a `NumericalEngine` (`numericalengine.py:14-15`). -/
structure Engine where
  size : ℤ
  prec : ℤ
  deriving DecidableEq

/-- A context of `decimal`: the two fields that are set. -/
structure Context where
  prec : ℤ
  rounding : String
  deriving DecidableEq

/-- The process: its calculators, the context of each thread, and `NUMBER['decimal_places']` (`number.py:8-10`). -/
structure World where
  engines : ℕ → Option Engine
  contexts : ℕ → Context
  places : ℤ

/-- The process before the first calculator: the contexts are those of `decimal`, the places are set in `number.py:9`. -/
def start : World := ⟨fun _ => none, fun _ => ⟨28, "ROUND_HALF_EVEN"⟩, 10⟩

/-- The precisions a context of `decimal` takes (`MIN_PREC` to `MAX_PREC`). -/
def Valid (n : ℤ) : Prop := 1 ≤ n ∧ n ≤ 999999999999999999

instance (n : ℤ) : Decidable (Valid n) := by unfold Valid; infer_instance

/-- What is done with a calculator: made (`numericalengine.py:11-20`), or one of its settings changed (`22-40`). -/
inductive Event where
  | create
  | size (n : ℤ)
  | places (n : ℤ)
  | rounding (name : String)
  deriving DecidableEq

/-- `Number.set_precision` (`number.py:209-211`) in a thread: if the context refuses, the places are not set either. -/
def setPrecision (t : ℕ) (total places : ℤ) (w : World) : Except Raise Unit × World :=
  if Valid total then
    (.ok (), { w with contexts := Function.update w.contexts t { w.contexts t with prec := total }, places := places })
  else (.error (.py "valid range for prec is [1, MAX_PREC]"), w)

/-- `Number.set_rounding` (`number.py:213-214`). -/
def setRounding (t : ℕ) (name : String) (w : World) : Except Raise Unit × World :=
  if name ∈ roundings then
    (.ok (), { w with contexts := Function.update w.contexts t { w.contexts t with rounding := name } })
  else (.error (.py "module 'decimal' has no such rounding"), w)

/-- `update_engine_prec` (`numericalengine.py:36-37`) of calculator `i`, whose fields are `e`. -/
def update (t i : ℕ) (e : Engine) (w : World) : Except Raise Unit × World :=
  setPrecision t e.size e.prec { w with engines := Function.update w.engines i (some e) }

/-- What thread `t` does with calculator `i` (`numericalengine.py:11-40`). -/
def step (t i : ℕ) (ev : Event) (w : World) : Except Raise Unit × World :=
  match ev with
  | .create =>
    match update t i ⟨100, 30⟩ w with
    | (.error e, w) => (.error e, w)
    | (.ok (), w) => setRounding t "ROUND_HALF_UP" w
  | .size n =>
    match w.engines i with
    | none => (.error (.py "NameError"), w)
    | some e => update t i { e with size := n } w
  | .places n =>
    match w.engines i with
    | none => (.error (.py "NameError"), w)
    | some e => update t i { e with prec := n } w
  | .rounding name =>
    match w.engines i with
    | none => (.error (.py "NameError"), w)
    | some _ => setRounding t name w

/-- A history: thread, calculator, event. -/
def run (h : List (ℕ × ℕ × Event)) (w : World) : World := h.foldl (fun w e => (step e.1 e.2.1 e.2.2 w).2) w

/-- `number_size_get` and `number_prec_get` (`numericalengine.py:26-27`, `33-34`). -/
def settingsOf (w : World) (i : ℕ) : Option Engine := w.engines i

/-- What a calculation in thread `t` works with, by whichever calculator: the digits, the places shown (`number.py:73`) and the
way of rounding. -/
def working (w : World) (t : ℕ) : ℤ × ℤ × String := ((w.contexts t).prec, w.places, (w.contexts t).rounding)

/-- What a calculation in thread `t` shows for the fraction of two numbers, with the rounding `ROUND_HALF_UP`, which the model of
`decimal` has. -/
def shown (w : World) (t : ℕ) (n d : ℚ) : Option (Except Err (List Char)) :=
  if (w.contexts t).rounding = "ROUND_HALF_UP" ∧ 0 ≤ w.places then
    some (do
      let x ← Number.mk' (w.contexts t).prec.toNat n d
      Number.toText (w.contexts t).prec.toNat w.places.toNat x)
  else none

end MC.Settings
