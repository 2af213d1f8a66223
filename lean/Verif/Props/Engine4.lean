import Verif.Props.Engine3

/-! # C67: which operator applies next to units -/

namespace MC.Props
open MC MC.Spec

section
variable {V σ : Type} {cfg : Config V σ}

/-- The table has its invisible operators, and none of them can be written. -/
structure HasUnits (cfg : Config V σ) (divide assign mul div juxt : String) : Prop where
  divideOp : cfg.divideOp = some divide
  unitAssign : cfg.unitAssign = some assign
  unitMul : cfg.unitMul = some mul
  unitDiv : cfg.unitDiv = some div
  implicitMul : cfg.implicitMul = some juxt
  written : divide ≠ mul ∧ divide ≠ div ∧ divide ≠ juxt

variable {divide assign mul div juxt : String}

/-- **C67**: `/` between two units divides the units; anywhere else it is a division. -/
theorem C67_division (h : HasUnits cfg divide assign mul div juxt) (prec : Level V σ)
    (prev next : Option (Tok V)) :
    (prev.any (Tok.isUnit cfg) = true → next.any (Tok.isUnit cfg) = true →
      ruleAt cfg prec prev (.op divide) next = if prec.has div then some (div, 1) else none) ∧
    (prev.any (Tok.isUnit cfg) = false ∨ next.any (Tok.isUnit cfg) = false →
      ruleAt cfg prec prev (.op divide) next = if prec.has divide then some (divide, 1) else none) := by
  obtain ⟨h1, h2, h3, h4, h5, h6, h7, h8⟩ := h
  constructor
  · intro hp hn
    cases hd : prec.has div <;>
      simp [ruleAt, h1, h2, h3, h4, h5, hp, hn, hd, Tok.isUnit, Tok.isOp, Option.filter]
  · rintro (hp | hn)
    · cases hd : prec.has divide <;>
        simp [ruleAt, h1, h2, h3, h4, h5, hp, hd, h6, h7, h8, Tok.isUnit, Tok.isOp, Option.filter]
    · cases hd : prec.has divide <;>
        simp [ruleAt, h1, h2, h3, h4, h5, hn, hd, h6, h7, h8, Tok.isUnit, Tok.isOp, Option.filter]

/-- **C67**: a unit after a value that is not a unit is given to that value; a unit after a unit is
multiplied with it; a value that is not a unit, after any value, is multiplied with that. -/
theorem C67_adjacent (h : HasUnits cfg divide assign mul div juxt) (prec : Level V σ) (v w : V)
    (next : Option (Tok V)) :
    (cfg.isUnit v = false → cfg.isUnit w = true →
      ruleAt cfg prec (some (.val v)) (.val w) next = if prec.has assign then some (assign, 0) else none) ∧
    (cfg.isUnit v = true → cfg.isUnit w = true →
      ruleAt cfg prec (some (.val v)) (.val w) next = if prec.has mul then some (mul, 0) else none) ∧
    (cfg.isUnit w = false →
      ruleAt cfg prec (some (.val v)) (.val w) next = if prec.has juxt then some (juxt, 0) else none) := by
  obtain ⟨h1, h2, h3, h4, h5, h6, h7, h8⟩ := h
  refine ⟨?_, ?_, ?_⟩
  · intro hv hw
    cases hd : prec.has assign <;>
      simp [ruleAt, h2, h3, h4, h5, hv, hw, hd, Tok.isUnit, Tok.isOp, Option.filter]
  · intro hv hw
    cases hd : prec.has mul <;>
      simp [ruleAt, h2, h3, h4, h5, hv, hw, hd, Tok.isUnit, Tok.isOp, Option.filter]
  · intro hw
    cases hd : prec.has juxt <;>
      simp [ruleAt, h2, h3, h4, h5, hw, hd, Tok.isUnit, Tok.isOp, Option.filter]

/-- The shipped table has these operators. -/
theorem C67_shipped (call : String → List V → Act σ V) (isUnit : V → Bool) (mkErr : ExecErr → V)
    (getErr : V → Option Raise) (funcs : String → Option (FuncDef V σ)) :
    HasUnits (shipped call isUnit mkErr getErr funcs) "/" "UNIT_ASSIGNMENT" "UNIT_MULTIPLY"
      "UNIT_DIVIDE" "IMPLICIT_MULTIPLY" :=
  ⟨rfl, rfl, rfl, rfl, rfl, by decide⟩

end
end MC.Props
