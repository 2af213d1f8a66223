import Mathlib.Data.Rat.Cast.Order
import Verif.Lemmas.Format
import Verif.Lemmas.ShippedNorm

/-! # `format` with the shipped units: checks of the table -/

namespace MC.Unit.Table
open MC.Unit.Format

/-- The units of a system and a dimension, largest first. -/
def sysMade (s d : String) : List Made :=
  (units.filter (fun u => decide (u.dim = d) && (u.systems.contains s && u.cls.use))).insertionSort
    (fun a b => b.scale ≤ a.scale)

/-- The smallest unit is of the kind of the smallest unit without a prefix. -/
def chained (sys : List Made) : Bool :=
  match sys.getLast?, (sys.filter (fun u => !(u.pre.bind (·.name)).isSome)).getLast? with
  | some e, some b => e.cls.names.headD "" == b.cls.names.headD ""
  | none, _ => true
  | some _, none => false

theorem all_chained : ∀ s ∈ preference, ∀ d ∈ dimNames, d ≠ "temperature" →
    chained (sysMade s d) = true := by
  decide +kernel

theorem units_nodup : units.Nodup := by decide +kernel

theorem dims_nodup : dimNames.Nodup := by decide +kernel

theorem unit_dims : ∀ u ∈ units, u.dim ∈ dimNames := by decide +kernel

theorem unit_systems : ∀ u ∈ units, ∀ s ∈ u.systems, s ∈ preference := by decide +kernel

/-- Every unit that has a system is measured with units of the one that is preferred. -/
theorem unit_preferred : ∀ u ∈ units, u.systems ≠ [] →
    (units.any (fun x => decide (x.dim = u.dim) && x.cls.use &&
      (preference.find? (fun s => u.systems.contains s)).any (fun s => x.systems.contains s))) = true := by
  decide +kernel

end MC.Unit.Table
