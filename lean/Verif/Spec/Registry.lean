import Verif.Model.Registry

/-!
# What a name should mean, from the registrations alone
-/

namespace MC.Unit.Registry.Spec

variable {U : Type}

/-- The units that were registered, in order. -/
def registered (ops : List (Op U)) : List U :=
  ops.filterMap (fun o => match o with | .unit _ u => some u | _ => none)

/-- The unit has this name, irrespective of case. -/
def named (lower : String → String) (info : U → Def) (n : String) (u : U) : Prop :=
  ∃ m ∈ (info u).names, lower m = lower n

/-- The unit has this symbol. -/
def symboled (info : U → Def) (n : String) (u : U) : Prop := n ∈ (info u).symbols

/-- `u` is the last element of the list with the property. -/
def Last (l : List U) (P : U → Prop) (u : U) : Prop :=
  ∃ pre post, l = pre ++ u :: post ∧ P u ∧ ∀ v ∈ post, ¬ P v

/-- The ambiguous unit goes by this name. -/
def goesBy (lower : String → String) (n : String) (a : Amb U) : Prop :=
  (∃ m ∈ a.names, lower m = lower n) ∨ n ∈ a.symbols

end MC.Unit.Registry.Spec
