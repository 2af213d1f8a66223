import Mathlib.Analysis.SpecialFunctions.Pow.Real
import Verif.Spec.Units

/-!
# A small registry for examples and counterexamples

A few of the units of `features/unitdefinitions`, with their scales, over any field.
-/

namespace MC.Unit.Demo
open Spec

inductive U where
  | second | minute | metre | foot | gram | pound | acre | litre | kelvin | celsius | fahrenheit
  | ampere
  deriving DecidableEq, Repr

inductive D where
  | time | distance | mass | temperature | current | area | volume | velocity
  deriving DecidableEq, Repr

/-- `unitscale`. -/
def scale (K : Type) [Field K] : U → K
  | .minute => 60
  | .foot => 3048 / 10000
  | .pound => 45359237 / 100000
  | .acre => 40468564224 / 10000000
  | .litre => 1 / 1000
  | _ => 1

def kind : U → Kind
  | .celsius => .celsius
  | .fahrenheit => .fahrenheit
  | _ => .scale

def dim : U → D
  | .second => .time
  | .minute => .time
  | .metre => .distance
  | .foot => .distance
  | .gram => .mass
  | .pound => .mass
  | .acre => .area
  | .litre => .volume
  | .kelvin => .temperature
  | .celsius => .temperature
  | .fahrenheit => .temperature
  | .ampere => .current

/-- The registry over a field. -/
def reg (K : Type) [Field K] : Norm U D K where
  info u := ⟨kind u, scale K u, dim u, ["si"], [], true, false⟩
  rel
    | .area => some [(.distance, 2)]
    | .volume => some [(.distance, 3)]
    | .velocity => some [(.distance, 1), (.time, -1)]
    | _ => none
  units := [(.time, [.second, .minute]), (.distance, [.metre, .foot]), (.mass, [.gram, .pound]),
    (.temperature, [.kelvin, .celsius, .fahrenheit]), (.current, [.ampere]), (.area, [.acre]),
    (.volume, [.litre]), (.velocity, [])]
  multiunits
    | .velocity => [[(.metre, 1), (.second, -1)]]
    | _ => []
  allowPrefixed := true
  closer _ _ := .ok true
  simpler _ _ := true

/-- Integer powers, for calculations with rational numbers. -/
def zpw (s : ℚ) (p : ℚ) : ℚ := s ^ p.num

/-- Powers of real numbers. -/
noncomputable def rpw (s : ℝ) (p : ℚ) : ℝ := s ^ (p : ℝ)

theorem rpw_law {s : ℝ} (h : 0 < s) : PowLaw rpw s := by
  refine ⟨by simp [rpw], ?_⟩
  intro p q
  unfold rpw
  push_cast
  exact Real.rpow_add h _ _

/-- Real powers are as they should be for all units of the registry. -/
theorem lawful : Lawful rpw (reg ℝ) := by
  refine ⟨fun p => by simp [rpw], ?_⟩
  intro u
  apply rpw_law
  cases u <;> simp [reg, stepSize, kind, scale]

theorem coherent (K : Type) [Field K] : Coherent (reg K) := by
  refine ⟨?_, ?_, ?_⟩
  · intro d l h
    cases d <;> simp only [reg, Option.some.injEq, reduceCtorEq] at h <;> subst h <;>
      refine ⟨⟨by decide, ?_⟩, by simp⟩ <;> intro o ho <;> simp at ho
    · subst ho; norm_num
    · subst ho; norm_num
    · rcases ho with rfl | rfl <;> norm_num
  · intro e he
    have : e ∈ (reg K).units := he
    simp only [reg, List.mem_cons, List.not_mem_nil, or_false] at he
    intro u hu
    rcases he with rfl | rfl | rfl | rfl | rfl | rfl | rfl | rfl <;>
      cases u <;> simp at hu <;> rfl
  · rintro ⟨d, us⟩ _ m hm
    cases d <;> simp only [reg, List.mem_singleton, List.not_mem_nil] at hm
    subst hm
    refine ⟨⟨by decide, ?_⟩, ?_⟩
    · intro o ho
      simp only [List.mem_cons, List.not_mem_nil, or_false] at ho
      rcases ho with rfl | rfl <;> norm_num
    · intro d
      cases d <;> simp [dimOf, unitDim, reg, dim, total]

theorem thermal (K : Type) [Field K] : Thermal (reg K) .temperature := by
  refine ⟨?_, rfl, ?_, ?_⟩
  · intro u hu
    cases u <;> simp [reg, dim, kind] at hu ⊢
  · intro u hu
    cases u <;> simp [reg, dim, unitDim, total] at hu ⊢
  · intro d _ m hm o ho
    cases d <;> simp only [reg, List.mem_singleton, List.not_mem_nil] at hm
    subst hm
    simp only [List.mem_cons, List.not_mem_nil, or_false] at ho
    rcases ho with rfl | rfl <;> simp [reg, dim]

end MC.Unit.Demo
