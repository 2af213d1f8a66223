import Verif.Props.Endless

/-! # C97: a line with whole powers on which the calculator never answers -/

namespace MC.Props
open MC MC.Unit MC.Unit.Table

/-- `nautical miles meters seconds^-2`. -/
def seaAcceleration : PL Shipped := [(shippedNauticalMile, 1), (shippedMeter, 1), (shippedSecond, -2)]

/-- `nautical miles seconds^-1 knots`. -/
def seaKnots : PL Shipped := [(shippedNauticalMile, 1), (shippedSecond, -1), (shippedKnot, 1)]

theorem seaAcceleration_before : ∀ e ∈ (groupsOf seaAcceleration).take 62, ∀ g ∈ e.2,
    passes flatReg (systemsOf seaAcceleration) seaAcceleration e.1 g = true := by decide +kernel

theorem seaAcceleration_at : (groupsOf seaAcceleration)[62]? =
    some (("velocity", (1 : ℚ)), [[(shippedMeter, (1 : ℚ)), (shippedSecond, -1)],
      [(shippedNauticalMile, 1), (shippedSecond, -1)]]) := by decide +kernel

theorem seaKnots_before : ∀ e ∈ (groupsOf seaKnots).take 6, ∀ g ∈ e.2,
    passes flatReg (systemsOf seaKnots) seaKnots e.1 g = true := by decide +kernel

theorem seaKnots_at : (groupsOf seaKnots)[6]? =
    some (("acceleration", (1 : ℚ)), [[(shippedSecond, (-1 : ℚ)), (shippedKnot, 1)]]) := by decide +kernel

theorem seaAcceleration_candidate : only (isOne shippedKnot) ((candidates flatReg "velocity").filter (fun c =>
    c.eligible flatReg (systemsOf seaAcceleration) (dimCount flatReg [(shippedMeter, 1), (shippedSecond, -1)]))) = true := by
  decide +kernel

theorem seaKnots_candidate : only (isMulti [(shippedMeter, 1), (shippedSecond, -2)])
    ((candidates flatReg "acceleration").filter (fun c =>
      c.eligible flatReg (systemsOf seaKnots) (dimCount flatReg [(shippedSecond, -1), (shippedKnot, 1)]))) = true := by
  decide +kernel

section
variable {K : Type} [Field K] [DecidableEq K] {closer : K → K → Except Raise Bool} {simpler : K → K → Bool}

/-- A round on the shipped units, whatever the number is, where the first group of a dimension is replaced. -/
theorem shipped_round_first (pw : K → ℚ → K) {l l' : PL Shipped} (i : ℕ) {j : String × ℚ} {g : PL Shipped} {gs : List (PL Shipped)}
    {m : ℚ} {c : Cand Shipped}
    (h1 : ∀ e ∈ (groupsOf l).take i, ∀ g ∈ e.2, passes flatReg (systemsOf l) l e.1 g = true)
    (h2 : (groupsOf l)[i]? = some (j, g :: gs)) (hm : multPower l g = .ok m) (hlen : 1 < g.length)
    (hc : (candidates flatReg j.1).filter (fun c => c.eligible flatReg (systemsOf l) (dimCount flatReg g)) = [c])
    (hg : ∀ o ∈ g ++ c.list, o.1.1.cls.kind = .scale)
    (hl : addAll c.list (j.2 * m) (without (g.map (fun u => (u.1, u.2 * m))) l) = l') (v : K) :
    ∃ w, tryDims pw (norm K closer simpler) (l.flatMap (fun u => ((norm K closer simpler).info u.1).systems)) v l
      ((simplifyJobs (norm K closer simpler)).zip (findUnits ((simplifyJobs (norm K closer simpler)).map
        (fun j => multiply j.2 (normDim (norm K closer simpler) j.1))) (subunits (norm K closer simpler) l))) =
      .ok (some (w, l')) := by
  have hsplit : groupsOf l = (groupsOf l).take i ++ (j, [] ++ g :: gs) :: (groupsOf l).drop (i + 1) := by
    obtain ⟨hi, he⟩ := List.getElem?_eq_some_iff.1 h2
    conv_lhs => rw [← List.take_append_drop i (groupsOf l), List.drop_eq_getElem_cons hi, he]
    rfl
  have := round_one pw (N := norm K closer simpler) (systems := systemsOf l) (l := l) (v := v) (j := j) (g := g) (m := m) (c := c)
    (es := (groupsOf l).take i) (post := (groupsOf l).drop (i + 1)) (gs := []) (gpost := gs)
    (fun e he g hg => (passes_flat _ _ _ _).trans (h1 e he g hg)) (by simp) hm hlen
    (by
      simp only [eligible_flat]
      exact hc)
    (fun o ho => hg o (by simp [ho])) (fun o ho => hg o (by simp [ho]))
  rw [← hsplit, hl] at this
  exact this

/-- **C97** fails for whole powers too: on `10 * nautical miles * meters / seconds^2` the calculator never answers.  The simplification
turns metres per second into knots, then knots per second into metres per second squared, and so on: whatever the number is and
however sizes are compared, no number of rounds is enough. -/
theorem C97_whole_violation (pw : K → ℚ → K) (fuel : ℕ) (v : K) :
    simplifyUnits pw (norm K closer simpler) fuel v seaAcceleration = none := by
  obtain ⟨c, hc, h1⟩ := only_eq seaAcceleration_candidate
  obtain rfl := isOne_eq h1
  obtain ⟨c, hc', h2⟩ := only_eq seaKnots_candidate
  obtain rfl := isMulti_eq h2
  have := (loop_forever pw (N := norm K closer simpler) (a := seaAcceleration) (b := seaKnots)
    (shipped_round_first pw 62 seaAcceleration_before seaAcceleration_at (m := 1) (by decide +kernel) (by decide) hc
      (by decide +kernel) (by decide +kernel))
    (shipped_round_first pw 6 seaKnots_before seaKnots_at (m := 1) (by decide +kernel) (by decide) hc'
      (by decide +kernel) (by decide +kernel)) fuel v).1
  unfold simplifyUnits
  rw [if_pos (by decide +kernel), this]

/-- How the unit comes about: the operations of `10 * nautical miles * meters / seconds^2`. -/
theorem C97_whole_reached (v : K) :
    opMultiply (.num v none) (.unit (newFromUnit shippedNauticalMile)) = .ok (.num v (some [(shippedNauticalMile, 1)])) ∧
    opMultiply (.num v (some [(shippedNauticalMile, 1)])) (.unit (newFromUnit shippedMeter)) =
      .ok (.num v (some [(shippedNauticalMile, 1), (shippedMeter, 1)])) ∧
    power 2 (newFromUnit shippedSecond) = some [(shippedSecond, 2)] ∧
    opDivide (.num v (some [(shippedNauticalMile, 1), (shippedMeter, 1)])) (.unit [(shippedSecond, 2)]) =
      .ok (.num v (some seaAcceleration)) := by
  have h1 : newList [([(shippedNauticalMile, (1 : ℚ))], 1), (newFromUnit shippedMeter, 1)] =
      some [(shippedNauticalMile, 1), (shippedMeter, 1)] := by decide +kernel
  have h2 : newList [([(shippedNauticalMile, (1 : ℚ)), (shippedMeter, 1)], 1), ([(shippedSecond, 2)], -1)] =
      some seaAcceleration := by decide +kernel
  refine ⟨?_, ?_, by decide +kernel, ?_⟩
  · simp [opMultiply, Arg.split, newFromUnit, add, find]
  · simpa [opMultiply, Arg.split] using h1
  · simpa [opDivide, Arg.split] using h2

end
end MC.Props
