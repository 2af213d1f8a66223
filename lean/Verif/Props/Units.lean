import Verif.Lemmas.UnitDedup
import Verif.Lemmas.UnitPart
import Verif.Spec.UnitDemo

/-! # C42-C44, C47-C49: conversion, exponents, dimensions, the search -/

set_option linter.unusedSectionVars false

namespace MC.Props
open MC.Unit MC.Unit.Spec

section
variable {U D K : Type} [DecidableEq U] [DecidableEq D] [Field K]
variable {pw : K → ℚ → K} {N : Norm U D K}

theorem unitConversion_cases {a b : PL U} {r : Bool} {v : K} {w : K × Option (PL U)}
    (h : unitConversion pw N v (some a) (some b) r = .ok w) :
    (a.Perm b ∧ w = (v, some a)) ∨
    (same (dimList N a) (dimList N b) = true ∧ ¬ a.Perm b ∧ ∃ x y,
      convertList pw N.info a v (-1) r = .ok x ∧ convertList pw N.info b x 1 r = .ok y ∧
      w = (y, some b)) := by
  unfold unitConversion at h
  simp only at h
  split at h
  · rename_i hs
    cases h
    exact .inl ⟨same_iff.1 hs, rfl⟩
  · rename_i hs
    split at h
    · exact absurd h (by simp)
    · rename_i hd
      right
      refine ⟨by simpa using hd, fun hp => hs (same_iff.2 hp), ?_⟩
      cases h1 : convertList pw N.info a v (-1) r with
      | error e => rw [h1] at h; exact absurd h (by simp [bind, Except.bind])
      | ok x =>
        rw [h1] at h
        simp only [bind, Except.bind] at h
        cases h2 : convertList pw N.info b x 1 r with
        | error e => rw [h2] at h; exact absurd h (by simp)
        | ok y =>
          rw [h2] at h
          cases h
          exact ⟨x, y, rfl, h2, rfl⟩

/-- C42, value: a successful conversion gives the same quantity, in the unit asked for. -/
theorem C42_conversion_value (hL : Lawful pw N) {a b : PL U} {r : Bool}
    (ha : Proportional N r a) (hb : Proportional N r b) {v w : K} {u : Option (PL U)}
    (h : unitConversion pw N v (some a) (some b) r = .ok (w, u)) :
    w * size pw N b = v * size pw N a ∧ ∃ l, u = some l ∧ l.Perm b := by
  rcases unitConversion_cases h with ⟨hp, e⟩ | ⟨_, _, x, y, h1, h2, e⟩
  · cases e
    exact ⟨by rw [size_perm hp], a, rfl, hp⟩
  · cases e
    rw [convertList_ok hL a v (-1) r ha] at h1
    cases h1
    rw [convertList_ok hL b _ 1 r hb] at h2
    cases h2
    rw [size_multiply_neg hL, multiply_one]
    have := size_ne hL b
    refine ⟨?_, b, rfl, List.Perm.refl _⟩
    field_simp

/-- C42, round trip: converting back gives the original value. -/
theorem C42_conversion_back (hL : Lawful pw N) {a b : PL U} {r : Bool}
    (ha : Proportional N r a) (hb : Proportional N r b) {v w : K} {u : Option (PL U)}
    (h : unitConversion pw N v (some a) (some b) r = .ok (w, u)) :
    ∃ u', unitConversion pw N w (some b) (some a) r = .ok (v, u') := by
  rcases unitConversion_cases h with ⟨hp, e⟩ | ⟨hd, hp, x, y, h1, h2, e⟩
  · cases e
    refine ⟨some b, ?_⟩
    unfold unitConversion
    simp only
    rw [if_pos (same_iff.2 hp.symm)]
  · refine ⟨some a, ?_⟩
    have hv := (C42_conversion_value hL ha hb h).1
    unfold unitConversion
    simp only
    rw [if_neg (fun hs => hp (same_iff.1 hs).symm),
      if_neg (by simp [same_iff.2 (same_iff.1 hd).symm]),
      convertList_ok hL b w (-1) r hb]
    simp only [bind, Except.bind]
    rw [convertList_ok hL a _ 1 r ha]
    simp only
    rw [size_multiply_neg hL, multiply_one]
    have := size_ne hL a
    have e : w / (size pw N b)⁻¹ / size pw N a = v := by
      rw [div_inv_eq_mul, hv]
      field_simp
    rw [e]
    rfl

/-- C42, transitivity: converting via a third unit gives the same value as converting directly. -/
theorem C42_conversion_via (hL : Lawful pw N) {a b c : PL U} {r : Bool}
    (ha : Proportional N r a) (hb : Proportional N r b) (hc : Proportional N r c)
    {v w x y : K} {u₁ u₂ u₃ : Option (PL U)}
    (h1 : unitConversion pw N v (some a) (some b) r = .ok (w, u₁))
    (h2 : unitConversion pw N w (some b) (some c) r = .ok (x, u₂))
    (h3 : unitConversion pw N v (some a) (some c) r = .ok (y, u₃)) : x = y := by
  have k1 := (C42_conversion_value hL ha hb h1).1
  have k2 := (C42_conversion_value hL hb hc h2).1
  have k3 := (C42_conversion_value hL ha hc h3).1
  have := size_ne hL c
  apply mul_right_cancel₀ this
  rw [k2, k1, k3]

/-- C42, identity: converting to the same unit, whatever the order of its parts, changes nothing.
This holds for all units, including temperatures. -/
theorem C42_conversion_same {a b : PL U} (h : a.Perm b) (r : Bool) (v : K) :
    unitConversion pw N v (some a) (some b) r = .ok (v, some a) := by
  unfold unitConversion
  simp only
  rw [if_pos (same_iff.2 h)]

/-! ### C49: dimensions -/

omit [DecidableEq U] [DecidableEq D] [Field K] in
theorem contributions_eq (l : PL U) : contributions N l
    = l.flatMap (fun u => (normDim N (N.info u.1).dim).map (fun d => (d.1, d.2 * u.2))) := by
  unfold contributions
  congr 1
  funext o
  unfold normDim
  cases N.rel (N.info o.1).dim with
  | some r => rfl
  | none => simp

theorem total_contributions (l : PL U) (d : D) : total (contributions N l) d = dimOf N l d := by
  rw [contributions_eq]
  induction l with
  | nil => rfl
  | cons o l ih =>
    rw [List.flatMap_cons, total_append, dimOf_cons, ih, ← total_normDim, ← total_multiply]
    rfl

/-- C49, for the lists the code handles correctly: when no base dimension comes up again after
the powers so far have cancelled, the combined dimension has, for each base dimension, the sum of
the contributions of all units, each once and none zero.  Missing: the other lists, for which the
claim is false (`C49_dimension_violation`). -/
theorem C49_dimension_partial {l : PL U} (h : Steady (contributions N l)) :
    Proper (dimList N l) ∧ ∀ d, total (dimList N l) d = dimOf N l d := by
  unfold dimList
  rw [← contributions_eq]
  obtain ⟨h1, h2⟩ := deduplicate_ok h
  exact ⟨h1, fun d => (h2 d).trans (total_contributions l d)⟩

/-- C49 is false in general. -/
theorem C49_dimension_violation :
    total (dimList (Demo.reg ℚ) [(.metre, 1), (.foot, -1), (.acre, 1), (.litre, 1)]) .distance = 2 ∧
    dimOf (Demo.reg ℚ) [(.metre, 1), (.foot, -1), (.acre, 1), (.litre, 1)] .distance = 5 := by
  constructor <;> decide +kernel

/-- C49 is false in general: a dimension can come up twice. -/
theorem C49_repeated_violation :
    dimList (Demo.reg ℚ) [(.metre, 1), (.foot, -1), (.second, 1), (.acre, 1), (.minute, 1)]
      = [(.time, 1), (.distance, 2), (.time, 1)] ∧
    dimOf (Demo.reg ℚ) [(.metre, 1), (.foot, -1), (.second, 1), (.acre, 1), (.minute, 1)] .time
      = 2 := by
  constructor <;> decide +kernel

/-- Lists in which every base dimension has contributions of one sign only, or one contribution,
are handled correctly, whatever their length. -/
theorem C49_one_sign_partial {l : PL U}
    (h : ∀ d, (∀ o ∈ contributions N l, o.1 = d → 0 < o.2) ∨
      (∀ o ∈ contributions N l, o.1 = d → o.2 < 0)) :
    Proper (dimList N l) ∧ ∀ d, total (dimList N l) d = dimOf N l d :=
  C49_dimension_partial (steady_of_sign h)

/-! ### C43: dimensions are not mixed -/

/-- C43, for the lists the code handles correctly: a conversion that succeeds is between units of
the same dimension, and one between units of different dimensions is rejected with an error of the
calculator.  Missing: the lists of `C49_dimension_partial`; for those, see
`C43_wrong_dimension_violation`. -/
theorem C43_conversion_partial {a b : PL U} (ha : Steady (contributions N a))
    (hb : Steady (contributions N b)) (v : K) (r : Bool) :
    (∀ w, unitConversion pw N v (some a) (some b) r = .ok w → ∀ d, dimOf N a d = dimOf N b d) ∧
    ((∃ d, dimOf N a d ≠ dimOf N b d) →
      ∃ m, unitConversion pw N v (some a) (some b) r = .error (.calc m)) := by
  obtain ⟨a1, a2⟩ := C49_dimension_partial ha
  obtain ⟨b1, b2⟩ := C49_dimension_partial hb
  constructor
  · intro w hw d
    rcases unitConversion_cases hw with ⟨hp, _⟩ | ⟨hd, _⟩
    · exact dimOf_perm hp d
    · rw [← a2, ← b2]
      exact (same_iff_total a1 b1).1 hd d
  · rintro ⟨d, hd⟩
    refine ⟨"Can't convert units", ?_⟩
    unfold unitConversion
    simp only
    rw [if_neg (fun hs => hd (dimOf_perm (same_iff.1 hs) d)), if_pos]
    rw [Bool.not_eq_true', Bool.eq_false_iff]
    intro hs
    exact hd (by rw [← a2, ← b2]; exact (same_iff_total a1 b1).1 hs d)

/-- C43, the other direction: between proportional units of the same dimension the conversion
succeeds. -/
theorem C43_same_dimension_partial (hL : Lawful pw N) {a b : PL U}
    (ha : Steady (contributions N a)) (hb : Steady (contributions N b)) {r : Bool}
    (pa : Proportional N r a) (pb : Proportional N r b) (h : ∀ d, dimOf N a d = dimOf N b d)
    (v : K) : ∃ w, unitConversion pw N v (some a) (some b) r = .ok w := by
  obtain ⟨a1, a2⟩ := C49_dimension_partial ha
  obtain ⟨b1, b2⟩ := C49_dimension_partial hb
  unfold unitConversion
  simp only
  by_cases hs : same a b = true
  · rw [if_pos hs]; exact ⟨_, rfl⟩
  · rw [if_neg hs, if_neg, convertList_ok hL a v (-1) r pa]
    · simp only [bind, Except.bind]
      rw [convertList_ok hL b _ 1 r pb]
      exact ⟨_, rfl⟩
    · rw [Bool.not_eq_true', Bool.eq_false_iff, not_not, same_iff_total a1 b1]
      intro d
      rw [a2, b2, h]

/-- C43: a number without a unit converts to no unit, and nothing converts to no unit. -/
theorem C43_missing_unit (v : K) (a : PL U) (r : Bool) :
    (∃ m, unitConversion pw N v none (some a) r = .error (.calc m)) ∧
    (∃ m, unitConversion pw N v (some a) none r = .error (.calc m)) ∧
    unitConversion pw N v none none r = .ok (v, none) := ⟨⟨_, rfl⟩, ⟨_, rfl⟩, rfl⟩

/-- C43 is false in general: a volume (here of dimension length to the fifth) is converted to an
area. -/
theorem C43_wrong_dimension_violation :
    (∃ w, unitConversion Demo.zpw (Demo.reg ℚ) 1
      (some [(.metre, 1), (.foot, -1), (.acre, 1), (.litre, 1)]) (some [(.acre, 1)]) false
        = .ok w) ∧
    dimOf (Demo.reg ℚ) [(.metre, 1), (.foot, -1), (.acre, 1), (.litre, 1)] .distance
      ≠ dimOf (Demo.reg ℚ) [(.acre, 1)] .distance := by
  constructor
  · exact ⟨(5 / 1524, some [(.acre, 1)]), by decide +kernel⟩
  · decide +kernel

/-- C43 is false in general: a conversion between units of the same dimension is rejected. -/
theorem C43_same_dimension_violation :
    (∃ m, unitConversion Demo.zpw (Demo.reg ℚ) 1
      (some [(.metre, 1), (.foot, -1), (.second, 1), (.acre, 1), (.minute, 1)])
      (some [(.metre, 2), (.second, 2)]) false = .error (.calc m)) ∧
    ∀ d, dimOf (Demo.reg ℚ) [(.metre, 1), (.foot, -1), (.second, 1), (.acre, 1), (.minute, 1)] d
      = dimOf (Demo.reg ℚ) [(.metre, 2), (.second, 2)] d := by
  constructor
  · exact ⟨"Can't convert units", by decide +kernel⟩
  · intro d
    cases d <;> decide +kernel

/-! ### C44: exponents -/

/-- C44, `*`: numbers are multiplied and exponents added; no unit appears twice or with exponent
zero if that was so before. -/
theorem C44_multiply (v w : K) {a b : Option (PL U)} (ha : a ≠ some []) (hb : b ≠ some []) :
    ∃ u, opMultiply (.num v a) (.num w b) = .ok (.num (v * w) u) ∧ u ≠ some [] ∧
      (∀ k, totalO u k = totalO a k + totalO b k) ∧
      (Proper (a.getD []) → Proper (b.getD []) → Proper (u.getD [])) := by
  cases a with
  | none =>
    cases b with
    | none => exact ⟨none, rfl, by simp, by simp [totalO], fun h _ => h⟩
    | some b => exact ⟨some b, rfl, hb, by simp [totalO], fun _ h => h⟩
  | some a =>
    cases b with
    | none => exact ⟨some a, rfl, ha, by simp [totalO], fun h _ => h⟩
    | some b =>
      refine ⟨newList [(a, 1), (b, 1)], rfl, ?_, ?_, ?_⟩
      · intro e
        exact (checkEmpty_some e).2 rfl
      · intro k
        rw [total_newList]
        simp [totalO]
      · intro ha hb
        cases hn : newList [(a, 1), (b, 1)] with
        | none => exact proper_nil
        | some l => exact proper_newList ha.2 hb.2 one_ne_zero one_ne_zero hn

/-- C44, `/`: numbers are divided and exponents subtracted; no unit appears twice or with exponent
zero if that was so before. -/
theorem C44_divide [DecidableEq K] (v : K) {w : K} (hw : w ≠ 0) {a b : Option (PL U)}
    (ha : a ≠ some []) (hb : b ≠ some []) (pb : Proper (b.getD [])) :
    ∃ u, opDivide (.num v a) (.num w b) = .ok (.num (v / w) u) ∧ u ≠ some [] ∧
      (∀ k, totalO u k = totalO a k - totalO b k) ∧
      (Proper (a.getD []) → Proper (u.getD [])) := by
  have hw' : ¬ ((Arg.num w b : Arg U K).split.1 = 0) := hw
  unfold opDivide
  simp only
  rw [if_neg hw']
  cases a with
  | none =>
    cases b with
    | none => exact ⟨none, rfl, by simp, by simp [totalO], id⟩
    | some b =>
      simp only [Arg.split]
      simp only [Option.getD_some] at pb
      have hm : removeZeros (multiply (-1) b) = multiply (-1) b := by
        unfold removeZeros
        rw [List.filter_eq_self]
        intro o ho
        obtain ⟨o', ho', rfl⟩ := List.mem_map.1 ho
        have := pb.2 o' ho'
        simpa using this
      have hne : multiply (-1) b ≠ [] := by
        simpa [multiply] using hb
      have hp : power (-1) b = some (multiply (-1) b) := by
        unfold power
        rw [hm]
        unfold checkEmpty
        rw [if_neg (by simpa using hne)]
      rw [hp]
      refine ⟨some (multiply (-1) b), rfl, by simpa using hne, ?_, ?_⟩
      · intro k
        simp only [totalO, Option.getD_some, Option.getD_none, total_multiply, total_nil]
        ring
      · intro _
        simp only [Option.getD_some]
        rw [← hm]
        exact proper_removeZeros_multiply pb.1 (-1)
  | some a =>
    cases b with
    | none => exact ⟨some a, rfl, ha, by simp [totalO], id⟩
    | some b =>
      refine ⟨newList [(a, 1), (b, -1)], rfl, ?_, ?_, ?_⟩
      · intro e
        exact (checkEmpty_some e).2 rfl
      · intro k
        rw [total_newList]
        simp [totalO]
        ring
      · intro ha
        cases hn : newList [(a, 1), (b, -1)] with
        | none => exact proper_nil
        | some l => exact proper_newList ha.2 pb.2 one_ne_zero (by norm_num) hn

/-- C44, `^`: the number is powered and exponents are multiplied; no unit appears twice or with
exponent zero, whatever the exponent (in particular, none is left for exponent zero). -/
theorem C44_power (v : K) (a : Option (PL U)) (pa : Proper (a.getD [])) (p : ℚ) :
    (opPower pw (v, a) p).1 = pw v p ∧ (opPower pw (v, a) p).2 ≠ some [] ∧
      (∀ k, totalO (opPower pw (v, a) p).2 k = p * totalO a k) ∧
      Proper ((opPower pw (v, a) p).2.getD []) := by
  cases a with
  | none => exact ⟨rfl, by simp [opPower], by simp [opPower, totalO], proper_nil⟩
  | some a =>
    have e : (opPower pw (v, some a) p).2 = checkEmpty (removeZeros (multiply p a)) := rfl
    rw [e]
    refine ⟨rfl, fun h => (checkEmpty_some h).2 rfl, ?_, ?_⟩
    · intro k
      unfold totalO
      rw [checkEmpty_getD, total_removeZeros, total_multiply]
      rfl
    · rw [checkEmpty_getD]
      exact proper_removeZeros_multiply pa.1 p

/-- C44, consequence: dividing by the same unit leaves no unit, and multiplying by the inverse
gives the original exponents back. -/
theorem C44_cancel [DecidableEq K] (v : K) {w : K} (hw : w ≠ 0) {a : PL U} (ha : a ≠ [])
    (pa : Proper a) : opDivide (.num v (some a)) (.num w (some a)) = .ok (.num (v / w) none) := by
  obtain ⟨u, h1, h2, h3, h4⟩ := C44_divide v hw (a := some a) (b := some a) (by simpa using ha)
    (by simpa using ha) pa
  rw [h1]
  cases u with
  | none => rfl
  | some l =>
    have := proper_eq_nil (h4 pa) (fun k => by rw [← sub_self (totalO (some a) k), ← h3 k]; rfl)
    exact absurd (congrArg some this) h2

/-- C44 on units without a number: exponents are added when anything is left. -/
theorem C44_units_partial {a b : PL U} (pa : Proper a) (pb : Proper b)
    (h : ∃ k, total a k + total b k ≠ 0) :
    ∃ l, opMultiply (K := K) (.unit a) (.unit b) = .ok (.unit l) ∧ Proper l ∧
      ∀ k, total l k = total a k + total b k := by
  unfold opMultiply
  cases hn : newList [(a, 1), (b, 1)] with
  | none =>
    obtain ⟨k, hk⟩ := h
    have := total_newList a b 1 1 k
    rw [hn] at this
    simp only [totalO, Option.getD_none, total_nil, one_mul] at this
    exact absurd this.symm hk
  | some l =>
    refine ⟨l, by simp only [hn], proper_newList pa.2 pb.2 one_ne_zero one_ne_zero hn, ?_⟩
    intro k
    have := total_newList a b 1 1 k
    rw [hn] at this
    simpa [totalO] using this

/-- C44 is false for units without a number that cancel: `metres / metres` raises. -/
theorem C44_units_cancel_violation :
    ∃ m, opDivide (K := ℚ) (.unit [(Demo.U.metre, 1)]) (.unit [(Demo.U.metre, 1)])
      = .error (.py m) :=
  ⟨"'NoneType' object has no attribute 'no_simplify'", by decide +kernel⟩

/-! ### C47: the search -/

/-- C47: for a list of units with integer powers and any non-empty goal, the search returns
exactly the parts of the list whose dimension is the goal, each once, whatever the other goals. -/
theorem C47_search {l : PL U} (hl : (l.map (·.1)).Nodup) (hi : ∀ o ∈ l, ∃ z : ℤ, o.2 = z)
    {goals : List (PL D)} {g : PL D} {j : ℕ} (hj : goals[j]? = some g) (hg : Proper g)
    (hne : g ≠ []) :
    ∃ found, (findUnits goals (subunits N l))[j]? = some found ∧ found.Nodup ∧
      ∀ r, r ∈ found ↔ Part r l ∧ ∀ d, dimOf N r d = total g d := by
  obtain ⟨fl, h1, h2, h3⟩ := findUnits_get (N := N) hj hg.1 hne hg.2 l
  refine ⟨fl, h1, h3 hl, ?_⟩
  intro r
  rw [h2 r]
  constructor
  · rintro ⟨c, hc, hr, hd⟩
    exact ⟨(part_iff hl hi r).1 ⟨c, hc, hr⟩, hd⟩
  · rintro ⟨hp, hd⟩
    obtain ⟨c, hc, hr⟩ := (part_iff (N := N) hl hi r).2 hp
    exact ⟨c, hc, hr, hd⟩

/-- C47, length: there is one list of parts for each goal. -/
theorem C47_one_list_per_goal (goals : List (PL D)) (l : PL U) :
    (findUnits goals (subunits N l)).length = goals.length := by
  unfold findUnits
  simp only
  split <;> simp

/-! ### C48: temperatures -/

/-- C48, round trip: converting a temperature (or anything else) between two single units of the
same dimension, and back, gives the original value, for all kinds of units. -/
theorem C48_temperature_back (hL : Lawful pw N) {u v : U} {x y : K} {s : Option (PL U)}
    (h9 : (9 : K) ≠ 0) (h5 : (5 : K) ≠ 0)
    (h : unitConversion pw N x (some [(u, 1)]) (some [(v, 1)]) false = .ok (y, s)) :
    ∃ s', unitConversion pw N y (some [(v, 1)]) (some [(u, 1)]) false = .ok (x, s') := by
  have key : ∀ (u : U) (x : K), ∃ y, convert pw (N.info u) x (-1) false = .ok y ∧
      convert pw (N.info u) y 1 false = .ok x := by
    intro u x
    cases hk : (N.info u).kind with
    | scale =>
      have h1 := convert_ok hL u x (-1) false (.inr hk)
      refine ⟨_, h1, ?_⟩
      rw [convert_ok hL u _ 1 false (.inr hk), pow_neg (hL.2 u)]
      have := pow_ne (hL.2 u) 1
      congr 1
      field_simp
    | celsius => exact ⟨x + 27315 / 100, by simp [convert, hk], by
        simp only [convert, hk, Bool.false_eq_true, if_false]
        rw [if_neg (by norm_num), if_true, add_sub_cancel_right]⟩
    | fahrenheit => exact ⟨(x + 45967 / 100) * (5 / 9), by simp [convert, hk], by
        simp only [convert, hk, Bool.false_eq_true, if_false]
        rw [if_neg (by norm_num), if_true]
        congr 1
        have : (x + 45967 / 100) * (5 / 9) * (9 / 5) = x + 45967 / 100 := by field_simp
        rw [this, add_sub_cancel_right]⟩
  have single : ∀ (u : U) (x : K) (p : ℚ),
      convertList pw N.info [(u, 1)] x p false = convert pw (N.info u) x p false := by
    intro u x p
    simp only [convertList, one_mul, bind, Except.bind]
    cases convert pw (N.info u) x p false <;> rfl
  rcases unitConversion_cases h with ⟨hp, e⟩ | ⟨hd, hp, z, w, h1, h2, e⟩
  · cases e
    exact ⟨_, C42_conversion_same hp.symm false x⟩
  · cases e
    refine ⟨some [(u, 1)], ?_⟩
    rw [single] at h1 h2
    obtain ⟨z', a1, a2⟩ := key u x
    rw [a1] at h1
    cases h1
    unfold unitConversion
    simp only
    rw [if_neg (fun hs => hp (same_iff.1 hs).symm),
      if_neg (by simp [same_iff.2 (same_iff.1 hd).symm]), single]
    -- converting `y` from `v` gives `z` again
    have hb : convert pw (N.info v) y (-1) false = .ok z := by
      cases hk : (N.info v).kind with
      | scale =>
        rw [convert_ok hL v z 1 false (.inr hk)] at h2
        cases h2
        rw [convert_ok hL v _ (-1) false (.inr hk), pow_neg (hL.2 v)]
        have := pow_ne (hL.2 v) 1
        congr 1
        field_simp
      | celsius =>
        simp only [convert, hk, Bool.false_eq_true, if_false] at h2 ⊢
        rw [if_neg (by norm_num), if_true] at h2
        cases h2
        simp
      | fahrenheit =>
        simp only [convert, hk, Bool.false_eq_true, if_false] at h2 ⊢
        rw [if_neg (by norm_num), if_true] at h2
        cases h2
        rw [if_true]
        congr 1
        rw [sub_add_cancel]
        field_simp
    rw [hb]
    simp only [bind, Except.bind]
    rw [single, a2]
    rfl

/-- C48, the scales: the conversions are the usual ones. -/
theorem C48_temperature_formulas (hL : Lawful pw N) {k c f : U} (hd : (N.info c).dim = (N.info k).dim)
    (hf : (N.info f).dim = (N.info k).dim) (hk : (N.info k).kind = .scale)
    (hk1 : (N.info k).scale = 1) (hc : (N.info c).kind = .celsius)
    (hfk : (N.info f).kind = .fahrenheit) (x : K) :
    unitConversion pw N x (some [(k, 1)]) (some [(c, 1)]) false
      = .ok (x - 27315 / 100, some [(c, 1)]) ∧
    unitConversion pw N x (some [(c, 1)]) (some [(k, 1)]) false
      = .ok (x + 27315 / 100, some [(k, 1)]) ∧
    unitConversion pw N x (some [(k, 1)]) (some [(f, 1)]) false
      = .ok (x * (9 / 5) - 45967 / 100, some [(f, 1)]) ∧
    unitConversion pw N x (some [(f, 1)]) (some [(k, 1)]) false
      = .ok ((x + 45967 / 100) * (5 / 9), some [(k, 1)]) ∧
    unitConversion pw N x (some [(c, 1)]) (some [(f, 1)]) false
      = .ok ((x + 27315 / 100) * (9 / 5) - 45967 / 100, some [(f, 1)]) := by
  have hkc : k ≠ c := by rintro rfl; rw [hk] at hc; cases hc
  have hkf : k ≠ f := by rintro rfl; rw [hk] at hfk; cases hfk
  have hcf : c ≠ f := by rintro rfl; rw [hc] at hfk; cases hfk
  have hk' : ∀ (x : K) p, convert pw (N.info k) x p false = .ok x := by
    intro x p
    simp only [convert, hk, hk1]
    rw [hL.1, div_one]
  have dl : ∀ a b : U, (N.info a).dim = (N.info b).dim →
      dimList N [(a, 1)] = dimList N [(b, 1)] := by
    intro a b h
    unfold dimList
    simp only [List.flatMap_cons, List.flatMap_nil, h]
  have ns : ∀ a b : U, a ≠ b → ¬ (same [(a, (1 : ℚ))] [(b, 1)] = true) := by
    intro a b h hs
    have := (same_iff.1 hs)
    simp only [List.perm_singleton, List.singleton_inj, Prod.mk.injEq, and_true] at this
    exact h this
  have go : ∀ a b : U, a ≠ b → (N.info a).dim = (N.info b).dim → ∀ y z : K,
      convert pw (N.info a) x (-1) false = .ok y → convert pw (N.info b) y 1 false = .ok z →
      unitConversion pw N x (some [(a, 1)]) (some [(b, 1)]) false = .ok (z, some [(b, 1)]) := by
    intro a b hab hdim y z h1 h2
    unfold unitConversion
    simp only
    rw [if_neg (ns a b hab), dl a b hdim, if_neg (by simp [same_refl])]
    simp only [convertList, one_mul, bind, Except.bind, h1, h2]
    rfl
  have c1 : ∀ x : K, convert pw (N.info c) x 1 false = .ok (x - 27315 / 100) := by
    intro x
    simp only [convert, hc, Bool.false_eq_true, if_false]
    rw [if_neg (by norm_num), if_true]
  have c2 : ∀ x : K, convert pw (N.info c) x (-1) false = .ok (x + 27315 / 100) := by
    intro x
    simp [convert, hc]
  have f1 : ∀ x : K, convert pw (N.info f) x 1 false = .ok (x * (9 / 5) - 45967 / 100) := by
    intro x
    simp only [convert, hfk, Bool.false_eq_true, if_false]
    rw [if_neg (by norm_num), if_true]
  have f2 : ∀ x : K, convert pw (N.info f) x (-1) false = .ok ((x + 45967 / 100) * (5 / 9)) := by
    intro x
    simp [convert, hfk]
  exact ⟨go k c hkc hd.symm _ _ (hk' _ _) (c1 _), go c k hkc.symm hd _ _ (c2 _) (hk' _ _),
    go k f hkf hf.symm _ _ (hk' _ _) (f1 _), go f k hkf.symm hf _ _ (f2 _) (hk' _ _),
    go c f hcf (hd.trans hf.symm) _ _ (c2 _) (f1 _)⟩

/-- C48, differences: a relative conversion is linear, for all units. -/
theorem C48_relative_linear (hL : Lawful pw N) {a b : PL U} {x y x' y' : K} {s s' : Option (PL U)}
    (h : unitConversion pw N x (some a) (some b) true = .ok (x', s))
    (h' : unitConversion pw N y (some a) (some b) true = .ok (y', s')) (c e : K) :
    ∃ s'', unitConversion pw N (c * x + e * y) (some a) (some b) true
      = .ok (c * x' + e * y', s'') := by
  have pa : Proportional N true a := fun _ _ => .inl rfl
  have pb : Proportional N true b := fun _ _ => .inl rfl
  rcases unitConversion_cases h with ⟨hp, q⟩ | ⟨hd, hp, z, w, h1, h2, q⟩
  · cases q
    rw [C42_conversion_same hp] at h'
    cases h'
    exact ⟨_, C42_conversion_same hp true _⟩
  · have k1 := (C42_conversion_value hL pa pb h).1
    have k2 := (C42_conversion_value hL pa pb h').1
    refine ⟨some b, ?_⟩
    unfold unitConversion
    simp only
    rw [if_neg (fun hs => hp (same_iff.1 hs)), if_neg (by simp [hd]),
      convertList_ok hL a _ (-1) true pa]
    simp only [bind, Except.bind]
    rw [convertList_ok hL b _ 1 true pb]
    simp only
    rw [size_multiply_neg hL, multiply_one]
    have := size_ne hL b
    have e : (c * x + e * y) / (size pw N a)⁻¹ / size pw N b = c * x' + e * y' := by
      rw [div_inv_eq_mul, div_eq_iff this]
      rw [add_mul, add_mul, mul_assoc, mul_assoc, mul_assoc, mul_assoc, k1, k2]
    rw [e]
    rfl

end

/-! ### Examples -/

section Example
open Demo

/-- 3 acres in square feet. -/
example : ∃ w u, unitConversion rpw (reg ℝ) 3 (some [(.acre, 1)]) (some [(.foot, 2)]) false
    = .ok (w, u) := by
  have h := C43_same_dimension_partial (pw := rpw) (N := reg ℝ) lawful
    (a := [(.acre, 1)]) (b := [(.foot, 2)])
    (steady_of_nodup (by simp [contributions, reg, dim]))
    (steady_of_nodup (by simp [contributions, reg, dim])) (r := false)
    (by intro o ho; simp at ho; subst ho; right; rfl)
    (by intro o ho; simp at ho; subst ho; right; rfl)
    (by intro d; cases d <;> simp [dimOf, unitDim, reg, dim, total]) 3
  obtain ⟨⟨w, u⟩, h⟩ := h
  exact ⟨w, u, h⟩

example : unitConversion zpw (reg ℚ) 3 (some [(.acre, 1)]) (some [(.foot, 2)]) false
    = .ok (130680, some [(.foot, 2)]) := by decide +kernel

/-- A list with both signs of one dimension that is handled correctly: `acre · second / metre`. -/
example : Steady (contributions (reg ℚ) [(.acre, 1), (.second, 1), (.metre, -1)]) := by
  have e : contributions (reg ℚ) [(.acre, 1), (.second, 1), (.metre, -1)]
      = [(.distance, 2), (.time, 1), (.distance, -1)] := by decide +kernel
  rw [e]
  intro pre o post he hx
  match pre, he with
  | [], _ => simp at hx
  | [_], he =>
    simp only [List.cons_append, List.nil_append, List.cons.injEq] at he
    obtain ⟨rfl, rfl, rfl⟩ := he
    simp at hx
  | [_, _], he =>
    simp only [List.cons_append, List.nil_append, List.cons.injEq] at he
    obtain ⟨rfl, rfl, rfl, rfl⟩ := he
    simp [total]
  | [_, _, _], he => simp at he
  | _ :: _ :: _ :: _ :: _, he => simp at he

/-- The parts of `metre² second⁻¹ foot` that are areas. -/
example : findUnits [[(D.distance, 2)]] (subunits (reg ℚ) [(.metre, 2), (.second, -1), (.foot, 1)])
    = [[[(.metre, 1), (.foot, 1)], [(.metre, 2)]]] := by decide +kernel

/-- 25 degrees Celsius are 77 degrees Fahrenheit. -/
example : unitConversion zpw (reg ℚ) 25 (some [(.celsius, 1)]) (some [(.fahrenheit, 1)]) false
    = .ok (77, some [(.fahrenheit, 1)]) := by decide +kernel

example : opMultiply (.num (2 : ℚ) (some [(U.metre, 1), (U.second, -1)]))
    (.num 3 (some [(U.second, 1)])) = .ok (.num 6 (some [(U.metre, 1)])) := by decide +kernel

end Example
end MC.Props
