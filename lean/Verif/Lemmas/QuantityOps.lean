import Verif.Model.UnitCalc
import Verif.Spec.Physics
import Verif.Props.Units2
import Verif.Props.Numerical2

/-! # The operators on numbers and units do what is physically right, or fail -/

set_option linter.unusedSectionVars false

namespace MC.Props
open MC MC.Unit MC.Unit.Spec

section
variable {U D K : Type} [DecidableEq U] [DecidableEq D] [Field K] [LinearOrder K] [IsStrictOrderedRing K]
variable {pw : K → ℚ → K} {N : Norm U D K} {t : D}

/-- Powers and sizes are as they should be. -/
theorem lawful_of (hP : RealPowers pw) (hS : ∀ u, 0 < stepSize (N.info u)) : Lawful pw N := by
  refine ⟨?_, ?_⟩
  · intro p
    have h := hP.mul 1 1 p one_pos one_pos
    rw [one_mul] at h
    have h1 := hP.pos 1 p one_pos
    exact (mul_right_cancel₀ h1.ne' (by rw [one_mul]; exact h)).symm
  · intro u
    refine ⟨?_, fun p q => hP.add _ p q (hS u)⟩
    have := hP.whole (stepSize (N.info u)) 0
    simpa using this

theorem size_pos_of (hP : RealPowers pw) (hS : ∀ u, 0 < stepSize (N.info u)) (l : PL U) :
    0 < size pw N l := by
  induction l with
  | nil => simp
  | cons o l ih => rw [size_cons]; exact mul_pos (hP.pos _ _ (hS _)) ih

theorem size_multiply_pw (hP : RealPowers pw) (hS : ∀ u, 0 < stepSize (N.info u)) (p : ℚ) (l : PL U) :
    size pw N (multiply p l) = pw (size pw N l) p := by
  induction l with
  | nil => exact ((lawful_of (N := N) hP hS).1 p).symm
  | cons o l ih =>
    have e : multiply p (o :: l) = (o.1, o.2 * p) :: multiply p l := rfl
    rw [e, size_cons, ih, size_cons, hP.mul _ _ _ (hP.pos _ _ (hS _)) (size_pos_of hP hS l), hP.twice _ _ _ (hS _)]

/-- A number with a unit that may be missing is that amount; its unit is a product of powers of distinct
units, none of them of dimension `t`. -/
structure Worth (pw : K → ℚ → K) (N : Norm U D K) (t : D) (x : K × Option (PL U)) (q : K) (d : D → ℚ) : Prop where
  value : quantity pw N x = q
  dim : ∀ z, dimOfO N x.2 z = d z
  proper : Proper (x.2.getD [])
  cool : Without N t (x.2.getD [])

/-- What operands stand for. -/
inductive StandsFor (pw : K → ℚ → K) (N : Norm U D K) (t : D) : QVal U K → Quantity D K → Prop
  | number (q : K) : StandsFor pw N t (.arg (.num q none)) (.number q)
  | amount {v u q d} : Worth pw N t (v, u) q d → StandsFor pw N t (.arg (.num v u)) (.amount q d)
  | unit {l s d} : l ≠ [] → Worth pw N t (1, some l) s d → StandsFor pw N t (.arg (.unit l)) (.unit s d)
  | truth (b : Bool) : StandsFor pw N t (.truth b) (.truth b)

theorem worth_none (q : K) : Worth pw N t (q, none) q 0 :=
  ⟨by simp [quantity], fun _ => rfl, proper_nil, by intro o ho; cases ho⟩

theorem stands_measure {x : QVal U K} {y : Quantity D K} (h : StandsFor pw N t x y) {q : K} {d : D → ℚ}
    (hm : y.measure = some (q, d)) : ∃ v u, x = .arg (.num v u) ∧ Worth pw N t (v, u) q d := by
  cases h with
  | number q' =>
    simp only [Quantity.measure, Option.some.injEq, Prod.mk.injEq] at hm
    obtain ⟨rfl, rfl⟩ := hm
    exact ⟨_, _, rfl, worth_none _⟩
  | amount hw =>
    simp only [Quantity.measure, Option.some.injEq, Prod.mk.injEq] at hm
    obtain ⟨rfl, rfl⟩ := hm
    exact ⟨_, _, rfl, hw⟩
  | unit => cases hm
  | truth => cases hm

theorem stands_worth {x : QVal U K} {y : Quantity D K} (h : StandsFor pw N t x y) {q : K} {d : D → ℚ}
    (hm : y.worth = some (q, d)) : ∃ a, x = .arg a ∧ Worth pw N t a.split q d := by
  cases h with
  | unit _ hw =>
    simp only [Quantity.worth, Option.some.injEq, Prod.mk.injEq] at hm
    obtain ⟨rfl, rfl⟩ := hm
    exact ⟨_, rfl, hw⟩
  | number q' =>
    obtain ⟨v, u, e, hw⟩ := stands_measure (pw := pw) (N := N) (t := t) (.number q') (show (Quantity.number q').measure = _ from hm)
    exact ⟨_, e, hw⟩
  | amount hw =>
    obtain ⟨v, u, e, hw⟩ := stands_measure (.amount hw) hm
    exact ⟨_, e, hw⟩
  | truth => cases hm

/-! ### The unit of a product -/

theorem without_all {l : PL U} : Without N t l ↔ All (fun u => (N.info u).dim ≠ t) l := Iff.rfl

theorem newList_good {a b : PL U} {p q : ℚ} (ha : Proper a) (hb : Proper b) (hp : p ≠ 0) (hq : q ≠ 0)
    (ca : Without N t a) (cb : Without N t b) :
    Proper ((newList [(a, p), (b, q)]).getD []) ∧ Without N t ((newList [(a, p), (b, q)]).getD []) := by
  unfold newList
  rw [checkEmpty_getD]
  simp only [List.foldl_cons, List.foldl_nil]
  refine ⟨proper_addAll (proper_addAll proper_nil ha.2 hp) hb.2 hq, ?_⟩
  exact All.addAll (P := fun u => (N.info u).dim ≠ t) (All.addAll (by intro o ho; cases ho) ca) cb

theorem power_good {a : PL U} (p : ℚ) (ha : Proper a) (ca : Without N t a) :
    Proper ((power p a).getD []) ∧ Without N t ((power p a).getD []) := by
  unfold power
  rw [checkEmpty_getD]
  refine ⟨proper_removeZeros_multiply ha.1 p, ?_⟩
  intro o ho
  unfold removeZeros multiply at ho
  obtain ⟨o', h1, rfl⟩ := List.mem_map.1 (List.mem_filter.1 ho).1
  exact ca o' h1

theorem mul_worth (hL : Lawful pw N) {x y : K × Option (PL U)} {q q' : K} {d d' : D → ℚ}
    (hx : Worth pw N t x q d) (hy : Worth pw N t y q' d') :
    ∃ z, opMultiply (.num x.1 x.2) (.num y.1 y.2) = .ok (.num z.1 z.2) ∧ Worth pw N t z (q * q') (d + d') := by
  obtain ⟨z, h1, h2, h3⟩ := opMultiply_quantity hL x y
  obtain ⟨v, a⟩ := x
  obtain ⟨w, b⟩ := y
  have key : Proper (z.2.getD []) ∧ Without N t (z.2.getD []) := by
    have hz : z.2 = (match a, b with
      | some a, some b => newList [(a, 1), (b, 1)] | some a, none => some a | none, b => b) := by
      cases a <;> cases b <;>
        simp only [opMultiply, Arg.split, Except.ok.injEq, Arg.num.injEq] at h1 <;> exact h1.2.symm
    rw [hz]
    cases a with
    | none => cases b <;> exact ⟨hy.proper, hy.cool⟩
    | some a =>
      cases b with
      | none => exact ⟨hx.proper, hx.cool⟩
      | some b => exact newList_good hx.proper hy.proper one_ne_zero one_ne_zero hx.cool hy.cool
  exact ⟨z, h1, by rw [h2, hx.value, hy.value], fun w => by rw [h3, hx.dim, hy.dim]; rfl, key.1, key.2⟩

theorem div_worth (hL : Lawful pw N) {x y : K × Option (PL U)} {q q' : K} {d d' : D → ℚ}
    (hx : Worth pw N t x q d) (hy : Worth pw N t y q' d') {res : Arg U K}
    (h : opDivide (.num x.1 x.2) (.num y.1 y.2) = .ok res) :
    ∃ z, res = .num z.1 z.2 ∧ Worth pw N t z (q / q') (d - d') := by
  obtain ⟨z, h1, h0, h2, h3⟩ := opDivide_quantity hL x y h
  obtain ⟨v, a⟩ := x
  obtain ⟨w, b⟩ := y
  have hw : ¬ (Arg.num w b : Arg U K).split.1 = 0 := h0
  have key : Proper (z.2.getD []) ∧ Without N t (z.2.getD []) := by
    unfold opDivide at h
    simp only at h
    rw [if_neg hw, h1] at h
    simp only [Arg.split] at h
    cases a with
    | none =>
      cases b with
      | none =>
        simp only [Except.ok.injEq, Arg.num.injEq] at h
        rw [← h.2]; exact ⟨hy.proper, hy.cool⟩
      | some b =>
        simp only at h
        have := power_good (N := N) (t := t) (-1) hy.proper hy.cool
        cases hp : power (-1) b with
        | none => rw [hp] at h; cases h
        | some l =>
          rw [hp] at h
          simp only [Except.ok.injEq, Arg.num.injEq] at h
          rw [← h.2, ← hp]
          exact this
    | some a =>
      cases b with
      | none =>
        simp only [Except.ok.injEq, Arg.num.injEq] at h
        rw [← h.2]; exact ⟨hx.proper, hx.cool⟩
      | some b =>
        simp only [Except.ok.injEq, Arg.num.injEq] at h
        rw [← h.2]
        exact newList_good hx.proper hy.proper one_ne_zero (by norm_num) hx.cool hy.cool
  exact ⟨z, h1, by rw [h2, hx.value, hy.value], fun w => by rw [h3, hx.dim, hy.dim]; rfl, key.1, key.2⟩

/-! ### Normalising first -/

theorem normalise_worth (hL : Lawful pw N) (hC : Coherent N) {n : ℕ} {x y x' y' : K × Option (PL U)}
    {ru : Option (PL U)} {q q' : K} {d d' : D → ℚ} (hx : Worth pw N t x q d) (hy : Worth pw N t y q' d')
    (h : normaliseInputs pw N n true true [x, y] = some (.ok ([x', y'], ru))) :
    Worth pw N t x' q d ∧ Worth pw N t y' q' d' := by
  unfold normaliseInputs at h
  simp only [if_true] at h
  split at h
  · cases h
    exact ⟨hx, hy⟩
  · cases hm : normMulti pw N n true [x, y] with
    | none => rw [hm] at h; cases h
    | some res =>
      rw [hm] at h
      cases res with
      | error e => exact absurd h (by simp [bind, Except.bind])
      | ok zs =>
        cases h
        have hP : Prop' N true (fun u => (N.info u).dim ≠ t) := fun _ _ => .inl rfl
        have := normMulti_keeps hL hP hC.rel n (xs := [x, y]) (by
          intro z hz
          rcases List.mem_cons.1 hz with rfl | hz
          · exact hx.cool
          · rw [List.mem_singleton] at hz
            subst hz
            exact hy.cool) hm
        rw [List.forall₂_cons, List.forall₂_cons] at this
        obtain ⟨k1, k2, _⟩ := this
        exact ⟨⟨k1.value.trans hx.value, fun z => (k1.dim z).trans (hx.dim z), k1.proper hx.proper, k1.all⟩,
          ⟨k2.value.trans hy.value, fun z => (k2.dim z).trans (hy.dim z), k2.proper hy.proper, k2.all⟩⟩

theorem evalMul_worth (hL : Lawful pw N) (hC : Coherent N) {n : ℕ} {x y : K × Option (PL U)} {q q' : K}
    {d d' : D → ℚ} (hx : Worth pw N t x q d) (hy : Worth pw N t y q' d') {res : Arg U K}
    (h : evalMul pw N n x y = some (.ok res)) :
    ∃ z, res = .num z.1 z.2 ∧ Worth pw N t z (q * q') (d + d') := by
  obtain ⟨x', y', ru, h1, h2⟩ := callBinary_cases h
  obtain ⟨hx', hy'⟩ := normalise_worth hL hC hx hy h1
  obtain ⟨z, e, hz⟩ := mul_worth hL hx' hy'
  rw [e] at h2
  cases h2
  exact ⟨z, rfl, hz⟩

theorem evalDiv_worth (hL : Lawful pw N) (hC : Coherent N) {n : ℕ} {x y : K × Option (PL U)} {q q' : K}
    {d d' : D → ℚ} (hx : Worth pw N t x q d) (hy : Worth pw N t y q' d') {res : Arg U K}
    (h : evalDiv pw N n x y = some (.ok res)) :
    ∃ z, res = .num z.1 z.2 ∧ Worth pw N t z (q / q') (d - d') := by
  obtain ⟨x', y', ru, h1, h2⟩ := callBinary_cases h
  obtain ⟨hx', hy'⟩ := normalise_worth hL hC hx hy h1
  exact div_worth hL hx' hy' h2

theorem evalAdd_worth (hL : Lawful pw N) {n : ℕ} {x y : K × Option (PL U)} {q q' : K}
    {d d' : D → ℚ} (hx : Worth pw N t x q d) (hy : Worth pw N t y q' d') {res : Arg U K}
    (h : evalAdd pw N n x y = some (.ok res)) :
    ∃ z, res = .num z.1 z.2 ∧ Worth pw N t z (q + q') d := by
  obtain ⟨z, h1, h2, h3⟩ := C61_add hL h
  refine ⟨z, by rw [h1, h2], by rw [h3, hx.value, hy.value], ?_, ?_, ?_⟩
  · rw [h2]; exact hx.dim
  · rw [h2]; exact hx.proper
  · rw [h2]; exact hx.cool

theorem evalSub_worth (hL : Lawful pw N) {n : ℕ} {x y : K × Option (PL U)} {q q' : K}
    {d d' : D → ℚ} (hx : Worth pw N t x q d) (hy : Worth pw N t y q' d') {res : Arg U K}
    (h : evalSub pw N n x y = some (.ok res)) :
    ∃ z, res = .num z.1 z.2 ∧ Worth pw N t z (q - q') d := by
  obtain ⟨z, h1, h2, h3⟩ := C61_subtract hL h
  refine ⟨z, by rw [h1, h2], by rw [h3, hx.value, hy.value], ?_, ?_, ?_⟩
  · rw [h2]; exact hx.dim
  · rw [h2]; exact hx.proper
  · rw [h2]; exact hx.cool

/-! ### Powers -/

theorem pw_product (hP : RealPowers pw) {v s : K} (hs : 0 < s) {p : ℚ} (h : MayRaise (v * s) p) :
    pw v p * pw s p = pw (v * s) p := by
  rcases h with h | ⟨h, _⟩
  · have hv : 0 < v := (mul_pos_iff_of_pos_right hs).1 h
    exact (hP.mul _ _ _ hv hs).symm
  · have e : p = (p.num : ℚ) := by
      conv_lhs => rw [← Rat.num_div_den p, h]
      simp
    rw [e, hP.whole, hP.whole, hP.whole, mul_zpow]

theorem power_worth (hP : RealPowers pw) (hS : ∀ u, 0 < stepSize (N.info u)) {x : K × Option (PL U)} {q : K}
    {d : D → ℚ} (hx : Worth pw N t x q d) {p : ℚ} (h : MayRaise q p) :
    Worth pw N t (opPower pw x p) (pw q p) (fun z => p * d z) := by
  have hL := lawful_of (N := N) hP hS
  obtain ⟨v, u⟩ := x
  have e : ((opPower pw (v, u) p).2.getD []) = (power p (u.getD [])).getD [] := by
    cases u with
    | none => simp [opPower, power, multiply, removeZeros, checkEmpty]
    | some l => rfl
  have hq : v * size pw N (u.getD []) = q := hx.value
  refine ⟨?_, ?_, ?_, ?_⟩
  · unfold quantity
    rw [e]
    unfold power
    rw [checkEmpty_getD, size_removeZeros hL, size_multiply_pw hP hS, ← hq]
    exact pw_product hP (size_pos_of hP hS _) (by rw [hq]; exact h)
  · intro z
    unfold dimOfO
    rw [e]
    unfold power
    rw [checkEmpty_getD, dimOf_removeZeros, dimOf_multiply, ← hx.dim z]
    rfl
  · rw [e]; exact (power_good (N := N) (t := t) p hx.proper hx.cool).1
  · rw [e]; exact (power_good (N := N) (t := t) p hx.proper hx.cool).2

/-! ### Conversions and comparisons -/

theorem cool_proportional (hT : Thermal N t) {l : PL U} (h : Without N t l) : Proportional N false l :=
  fun o ho => .inr (hT.kind _ (h o ho))

theorem to_worth (hL : Lawful pw N) (hT : Thermal N t) {v : K} {a b : PL U} {q s : K} {d e : D → ℚ}
    (hx : Worth pw N t (v, some a) q d) (hy : Worth pw N t (1, some b) s e)
    {r : K × Option (PL U)} (h : unitConversion pw N v (some a) (some b) false = .ok r) :
    Worth pw N t r q e := by
  obtain ⟨w, u⟩ := r
  obtain ⟨h1, l, rfl, h2⟩ := C42_conversion_value hL (cool_proportional hT hx.cool)
    (cool_proportional hT hy.cool) h
  refine ⟨?_, ?_, ?_, ?_⟩
  · rw [← hx.value]
    unfold quantity
    simp only [Option.getD_some]
    rw [size_perm h2, h1]
    rfl
  · intro z
    rw [← hy.dim z]
    unfold dimOfO dimOf
    exact (h2.map _).sum_eq
  · have hp : Proper b := hy.proper
    refine ⟨(h2.map _).nodup_iff.2 hp.1, fun o ho => hp.2 o (h2.mem_iff.1 ho)⟩
  · exact fun o ho => hy.cool o (h2.mem_iff.1 ho)

theorem compare_worth (hP : RealPowers pw) (hS : ∀ u, 0 < stepSize (N.info u)) (hT : Thermal N t) {n : ℕ}
    {x y : K × Option (PL U)} {q q' : K} {d d' : D → ℚ} (hx : Worth pw N t x q d) (hy : Worth pw N t y q' d')
    {test : K → K → Bool} {f : K → K → Prop} (hf : ∀ a b s, 0 < s → (test a b = true ↔ f (a * s) (b * s)))
    {res : QVal U K} (h : compareArgs pw N n test x y = some (.ok res)) :
    ∃ b, res = .truth b ∧ (b = true ↔ f q q') := by
  have hL := lawful_of (N := N) hP hS
  unfold compareArgs at h
  cases hn : normaliseInputs pw N n false false [x, y] with
  | none => rw [hn] at h; cases h
  | some r =>
    rw [hn] at h
    cases r with
    | error e => cases h
    | ok r =>
      obtain ⟨xs, ru⟩ := r
      simp only at h
      split at h
      · rename_i x' y'
        cases h
        obtain ⟨rfl, -, hc⟩ := normSame_pair hn
        have e := (conversion_quantity hL (cool_proportional hT hy.cool) (cool_proportional hT hx.cool) hc).2
        refine ⟨_, rfl, ?_⟩
        rw [hf _ _ _ (size_pos_of hP hS (x'.2.getD [])), e, ← hx.value, ← hy.value]
        rfl
      · cases h

end
end MC.Props
