import Verif.Lemmas.SimplifyEnds
import Verif.Lemmas.ShippedNorm
import Verif.Spec.UnitDemo
import Verif.Model.UnitCalc

/-!
# C97: the work on units comes to an end
-/

namespace MC.Props
open MC MC.Unit MC.Unit.Table

/-! ## A line on which the calculator never answers -/

def shippedMeter : Shipped := (byName "meter").get (by decide +kernel)
def shippedSecond : Shipped := (byName "second").get (by decide +kernel)
def shippedNauticalMile : Shipped := (byName "nautical mile").get (by decide +kernel)
def shippedKnot : Shipped := (byName "knot").get (by decide +kernel)

/-- The shipped units; the numbers play no part in what follows. -/
def flatReg : Norm Shipped String ℚ := norm ℚ (fun _ _ => .ok true) (fun _ _ => true)

/-- `nautical miles^0.5 meters seconds^-2`. -/
def rootAcceleration : PL Shipped := [(shippedNauticalMile, 1 / 2), (shippedMeter, 1), (shippedSecond, -2)]

/-- `nautical miles^0.5 seconds^-1 knots`. -/
def rootKnots : PL Shipped := [(shippedNauticalMile, 1 / 2), (shippedSecond, -1), (shippedKnot, 1)]

def groupsOf (l : PL Shipped) : List ((String × ℚ) × List (PL Shipped)) :=
  (simplifyJobs flatReg).zip
    (findUnits ((simplifyJobs flatReg).map (fun j => multiply j.2 (normDim flatReg j.1))) (subunits flatReg l))

def systemsOf (l : PL Shipped) : List String := l.flatMap (fun u => (flatReg.info u.1).systems)

theorem rootAcceleration_before : ∀ e ∈ (groupsOf rootAcceleration).take 62, ∀ g ∈ e.2,
    passes flatReg (systemsOf rootAcceleration) rootAcceleration e.1 g = true := by decide +kernel

theorem rootAcceleration_at : (groupsOf rootAcceleration)[62]? =
    some (("velocity", (1 : ℚ)), [[(shippedMeter, (1 : ℚ)), (shippedSecond, -1)]]) := by decide +kernel

theorem rootKnots_before : ∀ e ∈ (groupsOf rootKnots).take 6, ∀ g ∈ e.2,
    passes flatReg (systemsOf rootKnots) rootKnots e.1 g = true := by decide +kernel

theorem rootKnots_at : (groupsOf rootKnots)[6]? =
    some (("acceleration", (1 : ℚ)), [[(shippedSecond, (-1 : ℚ)), (shippedKnot, 1)]]) := by decide +kernel

/-- Whether a candidate is this unit, or this list. -/
def isOne (u : Shipped) : Cand Shipped → Bool
  | .one w => decide (w = u)
  | .multi _ => false

def isMulti (l : PL Shipped) : Cand Shipped → Bool
  | .one _ => false
  | .multi m => decide (m = l)

theorem isOne_eq {u : Shipped} {c : Cand Shipped} (h : isOne u c = true) : c = .one u := by
  cases c with
  | one w => simp only [isOne, decide_eq_true_eq] at h; rw [h]
  | multi l => simp [isOne] at h

theorem isMulti_eq {l : PL Shipped} {c : Cand Shipped} (h : isMulti l c = true) : c = .multi l := by
  cases c with
  | one w => simp [isMulti] at h
  | multi m => simp only [isMulti, decide_eq_true_eq] at h; rw [h]

def only (p : Cand Shipped → Bool) : List (Cand Shipped) → Bool
  | [c] => p c
  | _ => false

theorem only_eq {p : Cand Shipped → Bool} {l : List (Cand Shipped)} (h : only p l = true) : ∃ c, l = [c] ∧ p c = true := by
  unfold only at h
  split at h
  · exact ⟨_, rfl, h⟩
  · cases h

theorem rootAcceleration_candidate : only (isOne shippedKnot) ((candidates flatReg "velocity").filter (fun c =>
    c.eligible flatReg (systemsOf rootAcceleration) (dimCount flatReg [(shippedMeter, 1), (shippedSecond, -1)]))) = true := by
  decide +kernel

theorem rootKnots_candidate : only (isMulti [(shippedMeter, 1), (shippedSecond, -2)])
    ((candidates flatReg "acceleration").filter (fun c =>
      c.eligible flatReg (systemsOf rootKnots) (dimCount flatReg [(shippedSecond, -1), (shippedKnot, 1)]))) = true := by
  decide +kernel

section
variable {K : Type} [Field K] [DecidableEq K] {closer : K → K → Except Raise Bool} {simpler : K → K → Bool}

theorem eligible_flat (systems : List String) (n : ℕ) (c : Cand Shipped) :
    c.eligible (norm K closer simpler) systems n = c.eligible flatReg systems n := by
  cases c <;> rfl

theorem passes_flat (systems : List String) (l : PL Shipped) (j : String × ℚ) (g : PL Shipped) :
    passes (norm K closer simpler) systems l j g = passes flatReg systems l j g := by
  unfold passes
  simp only [eligible_flat]
  rfl

/-- A round on the shipped units, whatever the number is. -/
theorem shipped_round (pw : K → ℚ → K) {l l' : PL Shipped} (i : ℕ) {j : String × ℚ} {g : PL Shipped} {m : ℚ} {c : Cand Shipped}
    (h1 : ∀ e ∈ (groupsOf l).take i, ∀ g ∈ e.2, passes flatReg (systemsOf l) l e.1 g = true)
    (h2 : (groupsOf l)[i]? = some (j, [g])) (hm : multPower l g = .ok m) (hlen : 1 < g.length)
    (hc : (candidates flatReg j.1).filter (fun c => c.eligible flatReg (systemsOf l) (dimCount flatReg g)) = [c])
    (hg : ∀ o ∈ g ++ c.list, o.1.1.cls.kind = .scale)
    (hl : addAll c.list (j.2 * m) (without (g.map (fun u => (u.1, u.2 * m))) l) = l') (v : K) :
    ∃ w, tryDims pw (norm K closer simpler) (l.flatMap (fun u => ((norm K closer simpler).info u.1).systems)) v l
      ((simplifyJobs (norm K closer simpler)).zip (findUnits ((simplifyJobs (norm K closer simpler)).map
        (fun j => multiply j.2 (normDim (norm K closer simpler) j.1))) (subunits (norm K closer simpler) l))) =
      .ok (some (w, l')) := by
  have hsplit : groupsOf l = (groupsOf l).take i ++ (j, [] ++ g :: []) :: (groupsOf l).drop (i + 1) := by
    obtain ⟨hi, he⟩ := List.getElem?_eq_some_iff.1 h2
    conv_lhs => rw [← List.take_append_drop i (groupsOf l), List.drop_eq_getElem_cons hi, he]
    rfl
  have := round_one pw (N := norm K closer simpler) (systems := systemsOf l) (l := l) (v := v) (j := j) (g := g) (m := m) (c := c)
    (es := (groupsOf l).take i) (post := (groupsOf l).drop (i + 1)) (gs := []) (gpost := [])
    (fun e he g hg => (passes_flat _ _ _ _).trans (h1 e he g hg)) (by simp) hm hlen
    (by
      simp only [eligible_flat]
      exact hc)
    (fun o ho => hg o (by simp [ho])) (fun o ho => hg o (by simp [ho]))
  rw [← hsplit, hl] at this
  exact this

/-- **C97** fails: on `10 * nautical miles^0.5 * meters / seconds^2` the calculator never answers.  The simplification of the unit
turns metres per second into knots, then knots per second into metres per second squared, and so on: whatever the number is, no
number of rounds is enough. -/
theorem C97_simplify_violation (pw : K → ℚ → K) (fuel : ℕ) (v : K) :
    simplifyUnits pw (norm K closer simpler) fuel v rootAcceleration = none := by
  obtain ⟨c, hc, h1⟩ := only_eq rootAcceleration_candidate
  obtain rfl := isOne_eq h1
  obtain ⟨c, hc', h2⟩ := only_eq rootKnots_candidate
  obtain rfl := isMulti_eq h2
  have := (loop_forever pw (N := norm K closer simpler) (a := rootAcceleration) (b := rootKnots)
    (shipped_round pw 62 rootAcceleration_before rootAcceleration_at (m := 1) (by decide +kernel) (by decide) hc
      (by decide +kernel) (by decide +kernel))
    (shipped_round pw 6 rootKnots_before rootKnots_at (m := 1) (by decide +kernel) (by decide) hc'
      (by decide +kernel) (by decide +kernel)) fuel v).1
  unfold simplifyUnits
  rw [if_pos (by decide +kernel), this]

/-- How the unit comes about: the operations of `10 * nautical miles^0.5 * meters / seconds^2`, where a unit alone is an operand. -/
theorem C97_reached (v : K) :
    power (1 / 2) (newFromUnit shippedNauticalMile) = some [(shippedNauticalMile, 1 / 2)] ∧
    opMultiply (.num v none) (.unit [(shippedNauticalMile, 1 / 2)]) = .ok (.num v (some [(shippedNauticalMile, 1 / 2)])) ∧
    opMultiply (.num v (some [(shippedNauticalMile, 1 / 2)])) (.unit (newFromUnit shippedMeter)) =
      .ok (.num v (some [(shippedNauticalMile, 1 / 2), (shippedMeter, 1)])) ∧
    power 2 (newFromUnit shippedSecond) = some [(shippedSecond, 2)] ∧
    opDivide (.num v (some [(shippedNauticalMile, 1 / 2), (shippedMeter, 1)])) (.unit [(shippedSecond, 2)]) =
      .ok (.num v (some rootAcceleration)) := by
  have h1 : newList [([(shippedNauticalMile, (1 / 2 : ℚ))], 1), (newFromUnit shippedMeter, 1)] =
      some [(shippedNauticalMile, 1 / 2), (shippedMeter, 1)] := by decide +kernel
  have h2 : newList [([(shippedNauticalMile, (1 / 2 : ℚ)), (shippedMeter, 1)], 1), ([(shippedSecond, 2)], -1)] =
      some rootAcceleration := by decide +kernel
  refine ⟨by decide +kernel, ?_, ?_, by decide +kernel, ?_⟩
  · simp [opMultiply, Arg.split]
  · simpa [opMultiply, Arg.split] using h1
  · simpa [opDivide, Arg.split] using h2

end
end MC.Props

namespace MC.Props
open MC MC.Unit MC.Unit.Table MC.Unit.Spec

/-! ## What comes to an end -/

section
variable {U D K : Type} [DecidableEq U] [DecidableEq D] [Field K] [DecidableEq K] (pw : K → ℚ → K) (N : Norm U D K)

/-- **C97**, for the operands: bringing any number of operands to common units ends, with an answer or an error, whatever the numbers
and powers are.  The operands are values of the calculator, which name no unit twice; the dimensions of the registry are made of
others with powers that are not zero.  The number of steps of each loop is not bounded by the model: from some number on the answer
is the same. -/
theorem C97_normalise (hR : ∀ d l, N.rel d = some l → Proper l ∧ l ≠ []) (multi relative : Bool)
    {xs : List (K × Option (PL U))} (hx : ∀ x ∈ xs, ∀ l, x.2 = some l → (l.map (·.1)).Nodup) :
    ∃ n0 r, ∀ n ≥ n0, normaliseInputs pw N n multi relative xs = some r := by
  obtain ⟨r, n0, h⟩ := normaliseInputs_settles (pw := pw) (N := N) hR multi relative (xs := xs) (by
    intro b hb
    unfold Distinct
    cases h : b.2 with
    | none => simp
    | some l => exact hx b hb l h)
  exact ⟨n0, r, h⟩

/-- So every `+`, `-`, `*` and `/` of two quantities ends. -/
theorem C97_operations (hR : ∀ d l, N.rel d = some l → Proper l ∧ l ≠ []) {x y : K × Option (PL U)}
    (hx : ∀ l, x.2 = some l → (l.map (·.1)).Nodup) (hy : ∀ l, y.2 = some l → (l.map (·.1)).Nodup) :
    ∃ n0, (∃ r, ∀ n ≥ n0, evalAdd pw N n x y = some r) ∧ (∃ r, ∀ n ≥ n0, evalSub pw N n x y = some r) ∧
      (∃ r, ∀ n ≥ n0, evalMul pw N n x y = some r) ∧ ∃ r, ∀ n ≥ n0, evalDiv pw N n x y = some r := by
  have key : ∀ multi relative f, ∃ n0 r, ∀ n ≥ n0, callBinary pw N n multi relative f x y = some r := by
    intro multi relative f
    obtain ⟨n0, r, h⟩ := C97_normalise pw N hR multi relative (xs := [x, y]) (by
      intro b hb
      rcases List.mem_cons.1 hb with rfl | hb
      · exact hx
      · rw [List.mem_singleton.1 hb]; exact hy)
    refine ⟨n0, ?_⟩
    cases r with
    | error e => exact ⟨.error e, fun n hn => by unfold callBinary; rw [h n hn]⟩
    | ok a =>
      obtain ⟨ys, ru⟩ := a
      obtain ⟨a, b, rfl⟩ := List.length_eq_two.1 (normaliseInputs_length (h n0 le_rfl))
      exact ⟨f a b ru, fun n hn => by unfold callBinary; rw [h n hn]⟩
  obtain ⟨n1, r1, h1⟩ := key false true (fun x y ru => .ok (.num (x.1 + y.1) ru))
  obtain ⟨n2, r2, h2⟩ := key false true (fun x y ru => .ok (.num (x.1 - y.1) ru))
  obtain ⟨n3, r3, h3⟩ := key true true (fun x y _ => opMultiply (.num x.1 x.2) (.num y.1 y.2))
  obtain ⟨n4, r4, h4⟩ := key true true (fun x y _ => opDivide (.num x.1 x.2) (.num y.1 y.2))
  exact ⟨n1 + n2 + n3 + n4, ⟨r1, fun n hn => h1 n (by omega)⟩, ⟨r2, fun n hn => h2 n (by omega)⟩,
    ⟨r3, fun n hn => h3 n (by omega)⟩, ⟨r4, fun n hn => h4 n (by omega)⟩⟩

/-- **C97**, for the units of an answer, in part: where no dimension is shown as a product of units (the registry has no
multi-units), the simplification ends, as long as the negative powers that come up are whole.  Missing: products of units, with which
it may go on for ever (`C97_simplify_violation`), and broken negative powers. -/
theorem C97_simplify_partial (hR : ∀ d l, N.rel d = some l → Proper l ∧ l ≠ []) (hM : ∀ d, N.multiunits d = []) {v : K} {l : PL U}
    (hl : (l.map (·.1)).Nodup)
    (hw : ∀ s, Relation.ReflTransGen (fun a b => turn pw N a = .ok (some b)) (v, l) s →
      ∀ o ∈ s.2, o.2 < 0 → ∃ z : ℤ, o.2 = z) :
    ∃ n0 r, ∀ n ≥ n0, simplifyUnits pw N n v l = some r := by
  obtain ⟨m, hm⟩ := exists_nat_gt (sizes l)
  obtain ⟨a, ha⟩ := loop_settles (pw := pw) (N := N) hR hM m (s := (v, l)) hl hw hm
  unfold simplifyUnits
  split
  · refine ⟨2 * m, ?_⟩
    cases a with
    | error e => exact ⟨.error e, fun n hn => by rw [ha n hn]⟩
    | ok s => exact ⟨_, fun n hn => by rw [ha n hn]⟩
  · exact ⟨0, _, fun _ _ => rfl⟩

end

/-- The dimensions of the calculator are as required. -/
theorem C97_shipped {K : Type} [Field K] [DecidableEq K] (pw : K → ℚ → K) (closer : K → K → Except Raise Bool) (simpler : K → K → Bool)
    (multi relative : Bool) {xs : List (K × Option (PL Shipped))}
    (hx : ∀ x ∈ xs, ∀ l, x.2 = some l → (l.map (·.1)).Nodup) :
    ∃ n0 r, ∀ n ≥ n0, normaliseInputs pw (norm K closer simpler) n multi relative xs = some r :=
  C97_normalise pw _ rel_proper multi relative hx

/-- Even the unit that cannot be simplified can be brought to others: `nautical miles^0.5 meters seconds^-2` and knots. -/
example : ∃ n0 r, ∀ n ≥ n0, normaliseInputs Demo.zpw flatReg n false true
    [(3, some rootAcceleration), (2, some rootKnots), (1, none)] = some r :=
  C97_shipped _ _ _ _ _ (by
    intro x hx l hl
    simp only [List.mem_cons, List.not_mem_nil, or_false] at hx
    rcases hx with rfl | rfl | rfl <;> cases hl <;> decide +kernel)

/-- A registry without products of units. -/
def plainReg : Norm Demo.U Demo.D ℚ := { Demo.reg ℚ with multiunits := fun _ => [] }

theorem plainReg_turn : turn Demo.zpw plainReg (2, [(.metre, 1), (.acre, 1), (.second, -1)]) =
    .ok (some (40468564224 / 5000, [(.second, -1), (.litre, 1)])) := by decide +kernel

theorem plainReg_stop : turn Demo.zpw plainReg (40468564224 / 5000, [(.second, -1), (.litre, 1)]) = .ok none := by decide +kernel

/-- The rounds of `metre acre second^-1`: one, after which nothing is left to do. -/
theorem plainReg_reach {s : ℚ × PL Demo.U}
    (h : Relation.ReflTransGen (fun a b => turn Demo.zpw plainReg a = .ok (some b)) (2, [(.metre, 1), (.acre, 1), (.second, -1)]) s) :
    s = (2, [(.metre, 1), (.acre, 1), (.second, -1)]) ∨ s = (40468564224 / 5000, [(.second, -1), (.litre, 1)]) := by
  rcases h.cases_head with h | ⟨b, h1, h2⟩
  · exact .inl h.symm
  · rw [plainReg_turn] at h1
    cases h1
    rcases h2.cases_head with h | ⟨b, h1, -⟩
    · exact .inr h.symm
    · rw [plainReg_stop] at h1
      cases h1

example : ∃ n0 r, ∀ n ≥ n0, simplifyUnits Demo.zpw plainReg n 2 [(.metre, 1), (.acre, 1), (.second, -1)] = some r := by
  refine C97_simplify_partial Demo.zpw plainReg (fun d l h => (Demo.coherent ℚ).1 d l h) (fun _ => rfl) (by decide) ?_
  intro s hs o ho hneg
  rcases plainReg_reach hs with rfl | rfl
  · simp only [List.mem_cons, List.not_mem_nil, or_false] at ho
    rcases ho with rfl | rfl | rfl
    · exact ⟨1, by norm_num⟩
    · exact ⟨1, by norm_num⟩
    · exact ⟨-1, by norm_num⟩
  · simp only [List.mem_cons, List.not_mem_nil, or_false] at ho
    rcases ho with rfl | rfl
    · exact ⟨-1, by norm_num⟩
    · exact ⟨1, by norm_num⟩

end MC.Props
