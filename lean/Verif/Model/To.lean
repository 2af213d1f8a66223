import Verif.Model.Finalize
import Verif.Model.Units

/-!
# The operator `to`, and the unit of an answer

`features/units/units.py:113-133`, `engine.py:331-333`.

Unit objects (`UnitPowerList`) carry the flag `no_simplify`, which `to` sets on the object itself.  They
are kept in a heap here: an address stands for the object.
-/

namespace MC.Unit.To

/-- A `UnitPowerList` with its flag (`objects/units.py:247-251`). -/
structure UnitObj (U : Type) where
  list : PL U
  keep : Bool
  deriving DecidableEq

/-- The unit objects. -/
abbrev Heap (U : Type) := ℕ → UnitObj U

/-- `unit.no_simplify = True`. -/
def Heap.flag {U : Type} (h : Heap U) (a : ℕ) : Heap U :=
  fun b => if b = a then ⟨(h b).list, true⟩ else h b

/-- The left operand of `to`, as validated (`units.py:52`): a number with a unit, or a unit. -/
inductive Left (K : Type) where
  | num (v : K) (unit : ℕ)
  | unit (unit : ℕ)

/-- Lines 114-116: a unit alone counts as one of it. -/
def Left.split {K : Type} [Field K] : Left K → K × ℕ
  | .num v a => (v, a)
  | .unit a => (1, a)

section
variable {U D K : Type} [DecidableEq U] [DecidableEq D] [Field K] (pw : K → ℚ → K) (N : Norm U D K)

/-- `op_unit_conversion` (`units.py:113-133`) for a right operand that is a unit, as validated: the
number and the unit object of the result.  `unit_conversion` returns the object of the left operand if
the units are equal (`unitnormaliser.py:120-121`). -/
def opTo (h : Heap U) (x : Left K) (dst : ℕ) : Except Raise (K × ℕ) × Heap U :=
  match unitConversion pw N x.split.1 (some (h x.split.2).list) (some (h dst).list) false with  -- 127
  | .error e => (.error e, h)
  | .ok (w, _) =>
    let r := if same (h x.split.2).list (h dst).list then x.split.2 else dst
    (.ok (w, r), h.flag r)                                               -- 128

/-- `finalize` on a number with a unit (`engine.py:331-333`), with `unit_simplification` on. -/
def answer [DecidableEq K] (fuel : ℕ) (h : Heap U) (v : K) (a : ℕ) : Option (Except Raise (K × Option (PL U))) :=
  if (h a).keep then some (.ok (v, some (h a).list)) else simplifyUnits pw N fuel v (h a).list

/-- What `finalize` (`engine.py:324-337`) asks the calculator, for numbers with units. -/
def unitFinish [DecidableEq K] (R : Type) (fuel : ℕ) : Finish K (UnitObj U) R where
  on := true
  keeps o := o.keep
  simplify v o :=
    match v with
    | .sc x =>
      match simplifyUnits pw N fuel x o.list with
      | some (.ok (y, u)) => .ok (.sc y, u.map (fun l => ⟨l, false⟩))
      | some (.error e) => .error e
      | none => .error (.py "out of steps")
    | _ => .error (.py "not a number")

end
end MC.Unit.To
