import Verif.Lemmas.Levels
import Verif.Model.UnitStats
import Verif.Props.Numerical2
import Verif.Spec.UnitDemo

/-! # C96: statistics of quantities; C65 for temperatures -/

set_option linter.unusedSectionVars false

namespace MC.Props
open MC.Unit MC.Unit.Spec

section
variable {V D F : Type} [DecidableEq V] [DecidableEq D] [Field F] [LinearOrder F] [IsStrictOrderedRing F]
variable {pw : F → ℚ → F} {N : Norm V D F}

theorem level_increasing {l : Option (PL V)} (hl : OnScale N (l.getD [])) (hs : 0 < size pw N (l.getD [])) :
    ∃ a b : F, 0 < a ∧ ∀ v, level pw N (v, l) = a * v + b := by
  obtain ⟨a, b, h1, h2⟩ := level_affine (pw := pw) hl
  refine ⟨a, b, ?_, h1⟩
  rcases h2 with rfl | rfl | rfl
  · exact hs
  · norm_num
  · norm_num

/-- **C65**: the comparisons, which compare the numbers after normalisation (`C65_units`), answer the order of the points on the
scale; also for temperatures in kelvin, degrees Celsius and Fahrenheit. -/
theorem C65_levels (hL : Lawful pw N) {n : ℕ} {x y x' y' : F × Option (PL V)} {ru : Option (PL V)}
    (hx : OnScale N (x.2.getD [])) (hy : OnScale N (y.2.getD [])) (hs : 0 < size pw N (x.2.getD []))
    (h : normaliseInputs pw N n false false [x, y] = some (.ok ([x', y'], ru))) :
    (x'.1 < y'.1 ↔ level pw N x < level pw N y) ∧ (x'.1 = y'.1 ↔ level pw N x = level pw N y) := by
  obtain ⟨rfl, hl⟩ := normalise_levels hL (by norm_num) (by norm_num) (by
    intro z hz
    simp only [List.mem_cons, List.not_mem_nil, or_false] at hz
    rcases hz with rfl | rfl <;> assumption) h
  simp only [List.forall₂_cons, List.forall₂_nil_left_iff, and_true] at hl
  obtain ⟨a, b, ha, hab⟩ := level_increasing hx hs
  rw [← hl.1, ← hl.2, hab, hab]
  constructor
  · rw [add_lt_add_iff_right, mul_lt_mul_iff_right₀ ha]
  · rw [add_left_inj, mul_right_inj' ha.ne']

/-! ## The sum is what `+` gives -/

theorem normalise_first (n : ℕ) (r : Bool) (x : F × Option (PL V)) (xs : List (F × Option (PL V))) :
    normaliseInputs pw N n false r (x :: xs) =
      some ((xs.mapM (fun b => unitConversion pw N b.1 b.2 x.2 r)).map (fun zs => (x :: zs, x.2))) := by
  have hnone : x.2 = none → ∀ ys : List (F × Option (PL V)), (∀ z ∈ ys, z.2 = none) →
      ys.mapM (fun b => unitConversion pw N b.1 b.2 x.2 r) = .ok ys := by
    intro hx ys hy
    rw [hx]
    induction ys with
    | nil => rfl
    | cons z ys ih =>
      rw [List.mapM_cons, ih (fun w hw => hy w (by simp [hw])), hy z (by simp)]
      have := hy z (by simp)
      obtain ⟨v, u⟩ := z
      simp only at this
      subst this
      rfl
  have hok : x.2 = none → ∀ ys zs : List (F × Option (PL V)),
      ys.mapM (fun b => unitConversion pw N b.1 b.2 x.2 r) = .ok zs → ∀ z ∈ ys, z.2 = none := by
    intro hx ys
    rw [hx]
    induction ys with
    | nil => simp
    | cons z ys ih =>
      intro zs h
      rw [List.mapM_cons] at h
      cases h1 : unitConversion pw N z.1 z.2 none r with
      | error e => simp [h1, bind, Except.bind] at h
      | ok y =>
        cases h2 : ys.mapM (fun b => unitConversion pw N b.1 b.2 none r) with
        | error e => simp [h1, h2, bind, Except.bind] at h
        | ok ys' =>
          rw [List.forall_mem_cons]
          refine ⟨?_, ih _ h2⟩
          cases hz : z.2 with
          | none => rfl
          | some l => simp [hz, unitConversion] at h1
  unfold normaliseInputs
  simp only [Bool.false_eq_true, if_false, Bool.or_eq_true, List.isEmpty_iff, decide_eq_true_eq]
  split
  · rename_i hc
    rcases hc with hc | hc
    · have h1 : ∀ z ∈ x :: xs, z.2 = none := by simpa [List.filterMap_eq_nil_iff] using hc
      rw [hc, hnone (h1 x (by simp)) xs (fun z hz => h1 z (by simp [hz])), h1 x (by simp)]
      rfl
    · cases xs with
      | cons y ys => simp at hc
      | nil =>
        obtain ⟨v, u⟩ := x
        cases u <;> rfl
  · rename_i hc
    simp only [normSame, bind, Except.bind, pure, Except.pure]
    cases hm : xs.mapM (fun b => unitConversion pw N b.1 b.2 x.2 r) with
    | error e => rfl
    | ok zs =>
      cases hx : x.2 with
      | some l => simp [hx, Except.map]
      | none =>
        exfalso
        apply hc
        left
        simp [hx, List.filterMap_eq_nil_iff.mpr (hok hx _ _ hm)]

theorem conversion_both (hL : Lawful pw N) {a b : Option (PL V)} (ha : Proportional N false (a.getD []))
    (hb : Proportional N false (b.getD [])) (v : F) (r : Bool) :
    unitConversion pw N v a b r = unitConversion pw N v a b false := by
  cases a with
  | none => cases b <;> rfl
  | some a =>
    cases b with
    | none => rfl
    | some b =>
      have any : ∀ {l : PL V} (r : Bool), Proportional N false l → Proportional N r l := by
        intro l r h o ho
        exact .inr ((h o ho).resolve_left (by simp))
      unfold unitConversion
      simp only
      rw [convertList_ok hL a v (-1) r (any r ha), convertList_ok hL a v (-1) false ha]
      simp only [bind, Except.bind]
      rw [convertList_ok hL b _ 1 r (any r hb), convertList_ok hL b _ 1 false hb]

theorem evalAdds_eq (n : ℕ) (x : F × Option (PL V)) (xs : List (F × Option (PL V))) :
    evalAdds pw N n x xs = some ((xs.mapM (fun b => unitConversion pw N b.1 b.2 x.2 true)).map
      (fun zs => .num (x.1 + (zs.map (·.1)).sum) x.2)) := by
  induction xs generalizing x with
  | nil => simp [evalAdds, Except.map, pure, Except.pure]
  | cons y ys ih =>
    rw [evalAdds, evalAdd, callBinary, normalise_first, List.mapM_cons, List.mapM_cons, List.mapM_nil]
    cases h1 : unitConversion pw N y.1 y.2 x.2 true with
    | error e => rfl
    | ok z =>
      simp only [bind, Except.bind, pure, Except.pure, Except.map]
      rw [ih]
      simp only
      cases h2 : ys.mapM (fun b => unitConversion pw N b.1 b.2 x.2 true) with
      | error e => rfl
      | ok zs =>
        simp only [Except.map, List.map_cons, List.sum_cons, add_assoc]

theorem mapM_both (hL : Lawful pw N) {b : Option (PL V)} (hb : Proportional N false (b.getD []))
    {xs : List (F × Option (PL V))} (hx : ∀ z ∈ xs, Proportional N false (z.2.getD [])) (r : Bool) :
    xs.mapM (fun z => unitConversion pw N z.1 z.2 b r) = xs.mapM (fun z => unitConversion pw N z.1 z.2 b false) := by
  induction xs with
  | nil => rfl
  | cons z xs ih =>
    rw [List.mapM_cons, List.mapM_cons, conversion_both hL (hx z (by simp)) hb z.1 r, ih (fun w hw => hx w (by simp [hw]))]

/-- **C96** (partial, because of `C96_temperature_violation`): the sum of an array of quantities in any units proportional to
base units is what adding its elements up with `+` gives, also when that is an error. -/
theorem C96_sum_adds_partial (hL : Lawful pw N) (n : ℕ) {x : F × Option (PL V)} {xs : List (F × Option (PL V))}
    (hx : ∀ z ∈ x :: xs, Proportional N false (z.2.getD [])) :
    evalSum pw N n (x :: xs) = evalAdds pw N n x xs := by
  rw [evalAdds_eq, evalSum, normalise_first, mapM_both hL (hx x (by simp)) (fun z hz => hx z (by simp [hz])) true]
  cases xs.mapM (fun b => unitConversion pw N b.1 b.2 x.2 false) <;> rfl

/-- **C96**: for temperatures the sum of an array and the sum with `+` differ: `sum([x Celsius, y kelvin])` takes the second as a
point on the scale, `x Celsius + y kelvin` as a difference. -/
theorem C96_temperature_violation (hL : Lawful pw N) {k c : V} (hd : (N.info c).dim = (N.info k).dim)
    (hk : (N.info k).kind = .scale) (hk1 : (N.info k).scale = 1) (hc : (N.info c).kind = .celsius) (n : ℕ) (x y : F) :
    evalSum pw N n [(x, some [(c, 1)]), (y, some [(k, 1)])] = some (.ok (.num (x + (y - 27315 / 100)) (some [(c, 1)]))) ∧
    evalAdds pw N n (x, some [(c, 1)]) [(y, some [(k, 1)])] = some (.ok (.num (x + y) (some [(c, 1)]))) ∧
    evalSum pw N n [(x, some [(c, 1)]), (y, some [(k, 1)])] ≠ evalAdds pw N n (x, some [(c, 1)]) [(y, some [(k, 1)])] := by
  have hkc : k ≠ c := by rintro rfl; rw [hk] at hc; cases hc
  have hsame : same (A := V) [(k, 1)] [(c, 1)] = false := by
    rw [Bool.eq_false_iff]
    intro h
    have := same_iff.1 h
    simp [hkc] at this
  have hdl : same (dimList N [(k, 1)]) (dimList N [(c, 1)]) = true := by
    have : dimList N [(k, 1)] = dimList N [(c, 1)] := by simp [dimList, hd]
    rw [this]
    exact same_iff.2 (List.Perm.refl _)
  have hconv : ∀ r, unitConversion pw N y (some [(k, 1)]) (some [(c, 1)]) r =
      .ok ((if r then y else y - 27315 / 100), some [(c, 1)]) := by
    intro r
    unfold unitConversion
    simp only [hsame, hdl, Bool.false_eq_true, if_false, Bool.not_true, convertList_one]
    have h1 : convert pw (N.info k) y (-1) r = .ok y := by simp [convert, hk, hk1, hL.1]
    rw [h1]
    cases r <;> simp [bind, Except.bind, convertList_one, convert, hc, pure, Except.pure, show ¬ (1 : ℚ) = -1 by norm_num]
  have e1 : evalSum pw N n [(x, some [(c, 1)]), (y, some [(k, 1)])] =
      some (.ok (.num (x + (y - 27315 / 100)) (some [(c, 1)]))) := by
    rw [evalSum, normalise_first, List.mapM_cons, List.mapM_nil, hconv]
    simp [bind, Except.bind, pure, Except.pure, Except.map]
  have e2 : evalAdds pw N n (x, some [(c, 1)]) [(y, some [(k, 1)])] = some (.ok (.num (x + y) (some [(c, 1)]))) := by
    rw [evalAdds_eq, List.mapM_cons, List.mapM_nil, hconv]
    simp [bind, Except.bind, pure, Except.pure, Except.map]
  refine ⟨e1, e2, ?_⟩
  rw [e1, e2]
  intro h
  simp only [Option.some.injEq, Except.ok.injEq, Arg.num.injEq, and_true] at h
  have : (27315 / 100 : F) ≠ 0 := by norm_num
  apply this
  linear_combination -h

/-- **C96**: an array in which some element has no unit while the first has one, or the other way round, or has a unit of another
dimension, has no sum. -/
theorem C96_mixed_partial (n : ℕ) {x : F × Option (PL V)} {xs : List (F × Option (PL V))} {z : F × Option (PL V)} (hz : z ∈ xs)
    (hm : (x.2 = none ∧ z.2 ≠ none) ∨ (x.2 ≠ none ∧ z.2 = none) ∨
      ∃ a b, x.2 = some a ∧ z.2 = some b ∧ Steady (contributions N a) ∧ Steady (contributions N b) ∧
        ∃ d, dimOf N b d ≠ dimOf N a d) :
    ∃ e, evalSum pw N n (x :: xs) = some (.error e) := by
  have hbad : ∃ e, unitConversion pw N z.1 z.2 x.2 false = .error e := by
    rcases hm with ⟨h1, h2⟩ | ⟨h1, h2⟩ | ⟨a, b, h1, h2, h3, h4, h5⟩
    · rw [h1]
      cases h : z.2 with
      | none => exact absurd h h2
      | some l => exact ⟨_, rfl⟩
    · rw [h2]
      cases h : x.2 with
      | none => exact absurd h h1
      | some l => exact ⟨_, rfl⟩
    · rw [h1, h2]
      obtain ⟨m, hm⟩ := (C43_conversion_partial (pw := pw) h4 h3 z.1 false).2 h5
      exact ⟨_, hm⟩
  have hall : ∃ e, xs.mapM (fun b => unitConversion pw N b.1 b.2 x.2 false) = .error e := by
    clear hm
    induction xs with
    | nil => cases hz
    | cons y ys ih =>
      rw [List.mapM_cons]
      cases h1 : unitConversion pw N y.1 y.2 x.2 false with
      | error e => exact ⟨e, rfl⟩
      | ok w =>
        rcases List.mem_cons.mp hz with rfl | hz
        · obtain ⟨e, he⟩ := hbad
          rw [he] at h1
          cases h1
        · obtain ⟨e, he⟩ := ih hz
          exact ⟨e, by rw [he]; rfl⟩
  obtain ⟨e, he⟩ := hall
  exact ⟨e, by rw [evalSum, normalise_first, he]; rfl⟩

end

/-! ## The functions -/

section
open MC.Arrays MC.Spec
variable {S U R K σ : Type} {c : Calc S U R K} {asBool : S → Option Bool} {p : ℕ} {num? : S → Option Number} {ofNum : Number → S}
variable {V D F : Type} [DecidableEq V] [DecidableEq D] [Field F] [LinearOrder F] [IsStrictOrderedRing F]
variable {pw : F → ℚ → F} {N : Norm V D F} {unitOf : U → PL V}

/-- The array `els` holds the quantities `xs`; `unitOf` says which product of powers of units a unit of the calculator is.  The
normaliser of the calculator does with them exactly what the model of the normaliser does, which gives the numbers `ns` in
the unit `ru`. -/
def HoldsQuantities (c : Calc S U R K) (num? : S → Option Number) (unitOf : U → PL V) (pw : F → ℚ → F) (N : Norm V D F)
    (els : List (Opd S U R)) (xs : List (F × Option (PL V))) (ns : List Number) (ru : Option U) : Prop :=
  ∃ f nums nums' fuel, c.normalise = some f ∧ elementNumbers c els = .ok nums ∧
    List.Forall₂ (fun v x => ∃ n, num? v.1 = some n ∧ x = ((n.val : F), v.2.map unitOf)) nums xs ∧
    f nums false false = .ok (nums', ru) ∧ nums'.length = els.length ∧ nums'.map (fun v => num? v.1) = ns.map some ∧
    normaliseInputs pw N fuel false false xs =
      some (.ok ((nums'.zip ns).map (fun v => ((v.2.val : F), v.1.2.map unitOf)), ru.map unitOf))

theorem holds_numbers {els : List (Opd S U R)} {xs : List (F × Option (PL V))} {ns : List Number} {ru : Option U}
    (h : HoldsQuantities c num? unitOf pw N els xs ns ru) {name : String}
    {f : List (Opd S U R × Number) → Except Raise (OpResult S U R)} :
    NumbersOf c num? (numbersOp (σ := σ) num? name f) els ns ru := by
  obtain ⟨g, nums, nums', fuel, h1, h2, -, h3, h4, h5, -⟩ := h
  exact ⟨nums, nums', h2, by simp only [normed, h1]; exact h3, h4, h5⟩

theorem holds_levels (hL : Lawful pw N) {els : List (Opd S U R)} {xs : List (F × Option (PL V))} {ns : List Number}
    {ru : Option U} (h : HoldsQuantities c num? unitOf pw N els xs ns ru) (hne : xs ≠ [])
    (hx : ∀ x ∈ xs, OnScale N (x.2.getD [])) :
    (∃ x ∈ xs, ru.map unitOf = x.2) ∧ ns.map (fun n => level pw N ((n.val : F), ru.map unitOf)) = xs.map (level pw N) := by
  obtain ⟨g, nums, nums', fuel, -, -, -, -, h4, h5, h6⟩ := h
  cases xs with
  | nil => exact absurd rfl hne
  | cons x xs =>
    obtain ⟨h7, h8⟩ := normalise_levels hL (by norm_num) (by norm_num) hx h6
    refine ⟨⟨x, by simp, h7⟩, ?_⟩
    have hlen : nums'.length = ns.length := by
      have := congrArg List.length h5
      simpa using this
    clear h5 h6 h7 h4 hx hne
    generalize x :: xs = l at h8
    clear x xs
    generalize ru.map unitOf = u at h8
    induction ns generalizing nums' l with
    | nil =>
      simp only [List.zip_nil_right, List.map_nil, List.forall₂_nil_right_iff] at h8
      subst h8
      rfl
    | cons n ns ih =>
      cases nums' with
      | nil => simp at hlen
      | cons m ms =>
        simp only [List.zip_cons_cons, List.map_cons] at h8
        cases h8 with
        | cons h9 h10 =>
          simp only [List.map_cons]
          rw [ih ms (by simpa using hlen) _ h10]
          simp only [List.cons.injEq, and_true]
          exact h9

theorem holds_length {els : List (Opd S U R)} {xs : List (F × Option (PL V))} {ns : List Number} {ru : Option U}
    (h : HoldsQuantities c num? unitOf pw N els xs ns ru) : ns.length = els.length ∧ xs.length = els.length := by
  obtain ⟨g, nums, nums', fuel, -, h2, h3, -, h4, h5, -⟩ := h
  have h6 := congrArg List.length h5
  simp only [List.length_map] at h6
  refine ⟨by omega, ?_⟩
  rw [← h3.length_eq]
  clear h3 h4 h5 h6
  induction els generalizing nums with
  | nil => cases h2; rfl
  | cons e els ih =>
    unfold elementNumbers at h2
    split at h2
    · cases h2
    · split at h2
      · cases h2
      · rename_i l hl
        cases h2
        simpa using ih _ hl

theorem holds_ne {els : List (Opd S U R)} {xs : List (F × Option (PL V))} {ns : List Number} {ru : Option U}
    (h : HoldsQuantities c num? unitOf pw N els xs ns ru) (hne : xs ≠ []) : els ≠ [] := by
  intro he
  have := (holds_length h).2
  rw [he] at this
  exact hne (List.length_eq_zero_iff.mp this)

/-- **C96** (partial, because of `C96_temperature_violation`): `sum` of an array of quantities is the sum of the quantities. -/
theorem C96_sum_partial (hL : Lawful pw N) (hc : HasArrays c asBool) (hp : 1 ≤ p) {x : Opd S U R} {els : List (Opd S U R)}
    (hx : x.value = .arr els) {xs : List (F × Option (PL V))} {ns : List Number} {ru : Option U} (hne : xs ≠ [])
    (hh : HoldsQuantities c num? unitOf pw N els xs ns ru) (hs : ∀ x ∈ xs, Proportional N false (x.2.getD []))
    {M : ℤ} {Ns : List ℤ} (hM : 0 < M) (hg : Multiples M ns Ns) (hb : ((Ns.map (fun n => |n|)).sum + 1) * M < 10 ^ p) (s : σ) :
    ∃ r n, call c (opSum p num? ofNum) [x] s = (.ok r, s) ∧ IsNumber c ofNum r n ru ∧
      quantity pw N ((n.val : F), ru.map unitOf) = (xs.map (quantity pw N)).sum := by
  obtain ⟨r, n, h1, h2, -, h3⟩ := C53_sum (ofNum := ofNum) hc hp hx (holds_numbers hh) hM hg hb s
  refine ⟨r, n, h1, h2, ?_⟩
  obtain ⟨⟨y, hy, hu⟩, h4⟩ := holds_levels hL hh hne (fun x h => .inl (hs x h))
  have h5 : xs.map (quantity pw N) = xs.map (level pw N) := List.map_congr_left (fun z hz => by
    have := level_prop (pw := pw) (hs z hz) z.1
    exact this.symm)
  rw [h5, ← h4, h3, hu]
  simp only [level_prop (hs y hy), quantity]
  rw [Rat.cast_list_sum, List.map_map, List.sum_map_mul_right]
  rfl

/-- **C96**: `mean` of an array of quantities is, on their scale, the mean of the points; also for temperatures. -/
theorem C96_mean (hL : Lawful pw N) (hc : HasArrays c asBool) {x : Opd S U R} {els : List (Opd S U R)}
    (hx : x.value = .arr els) {xs : List (F × Option (PL V))} {ns : List Number} {ru : Option U} (hne : xs ≠ [])
    (hh : HoldsQuantities c num? unitOf pw N els xs ns ru) (hs : ∀ x ∈ xs, OnScale N (x.2.getD []))
    (hfit : ∀ n ∈ ns, Fits p n.val) (hm : Fits p (meanOf (ns.map Number.val)))
    (hd : ((meanOf (ns.map Number.val)).den : ℤ) < 10 ^ p) (s : σ) :
    ∃ r n, call c (opMean p num? ofNum) [x] s = (.ok r, s) ∧ IsNumber c ofNum r n ru ∧
      level pw N ((n.val : F), ru.map unitOf) = (xs.map (level pw N)).sum / xs.length := by
  obtain ⟨r, n, h1, h2, -, h3⟩ := C53_mean_exact (ofNum := ofNum) hc hx (holds_ne hh hne) (holds_numbers hh) hfit hm hd s
  refine ⟨r, n, h1, h2, ?_⟩
  obtain ⟨⟨y, hy, hu⟩, h4⟩ := holds_levels hL hh hne hs
  have hlen : ns.length = xs.length := by rw [(holds_length hh).1, (holds_length hh).2]
  obtain ⟨a, b, hab, -⟩ := level_affine (pw := pw) (hs y hy)
  rw [← h4, h3, hu]
  simp only [hab, meanOf, List.length_map]
  rw [List.sum_map_add, List.sum_map_mul_left, List.map_const', List.sum_replicate, nsmul_eq_mul, ← hlen]
  have h0 : (ns.length : F) ≠ 0 := by
    rw [hlen]
    exact_mod_cast (List.length_pos_of_ne_nil hne).ne'
  push_cast
  rw [List.map_map]
  simp only [Function.comp_def]
  field_simp

/-- The numbers are multiples of `1/M` within the precision. -/
def WithinGrid (p : ℕ) (ns : List Number) : Prop :=
  ∃ M : ℤ, 0 < M ∧ ∀ n ∈ ns, ∃ k : ℤ, n.val = (k:ℚ) / M ∧ 10 * |k| < 10 ^ p

theorem levels_order {u : Option (PL V)} (hu : OnScale N (u.getD [])) (hs : 0 < size pw N (u.getD [])) {q r : ℚ} :
    level pw N ((q : F), u) ≤ level pw N ((r : F), u) ↔ q ≤ r := by
  obtain ⟨a, b, ha, hab⟩ := level_increasing (pw := pw) hu hs
  rw [hab, hab, add_le_add_iff_right, mul_le_mul_iff_right₀ ha, Rat.cast_le]

/-- **C96**: `min` and `max` of an array of quantities are elements of the array, as they are written, below or above which no
other lies; also for temperatures. -/
theorem C96_min_max (hL : Lawful pw N) (hc : HasArrays c asBool) (hp : 1 ≤ p) {x : Opd S U R} {els : List (Opd S U R)}
    (hx : x.value = .arr els) {xs : List (F × Option (PL V))} {ns : List Number} {ru : Option U} (hne : xs ≠ [])
    (hh : HoldsQuantities c num? unitOf pw N els xs ns ru)
    (hs : ∀ x ∈ xs, OnScale N (x.2.getD []) ∧ 0 < size pw N (x.2.getD [])) (hg : WithinGrid p ns) (s : σ) :
    (∃ r, ∃ i : ℕ, ∃ e y, call c (opMin p num?) [x] s = (.ok r, s) ∧ els[i]? = some e ∧ xs[i]? = some y ∧ IsElement c r e ∧
      ∀ z ∈ xs, level pw N y ≤ level pw N z) ∧
    (∃ r, ∃ i : ℕ, ∃ e y, call c (opMax p num?) [x] s = (.ok r, s) ∧ els[i]? = some e ∧ xs[i]? = some y ∧ IsElement c r e ∧
      ∀ z ∈ xs, level pw N z ≤ level pw N y) := by
  obtain ⟨⟨w, hw, hu⟩, h4⟩ := holds_levels hL hh hne (fun x h => (hs x h).1)
  obtain ⟨M, hM, hg⟩ := hg
  have hlen : ns.length = xs.length := by rw [(holds_length hh).1, (holds_length hh).2]
  have hlevel : ∀ i : ℕ, ∀ m y, ns[i]? = some m → xs[i]? = some y → level pw N ((m.val : F), ru.map unitOf) = level pw N y := by
    intro i m y hm hy
    have := congrArg (·[i]?) h4
    simpa [hm, hy] using this
  have hpos : ∀ i : ℕ, ∀ m, ns[i]? = some m → ∃ y, xs[i]? = some y := by
    intro i m hm
    have := (List.getElem?_eq_some_iff.mp hm).1
    exact ⟨_, List.getElem?_eq_getElem (by omega)⟩
  have hord := fun q r : ℚ => levels_order (q := q) (r := r) (pw := pw) (hs w hw).1 (hs w hw).2
  constructor
  · obtain ⟨r, i, e, m, h5, h6, h7, h8, h9, -⟩ := C53_min hc hx (holds_ne hh hne) (holds_numbers hh) s
    obtain ⟨y, hy⟩ := hpos i m h7
    refine ⟨r, i, e, y, h5, h6, hy, h8, fun z hz => ?_⟩
    obtain ⟨j, hj⟩ := List.mem_iff_getElem?.mp hz
    have hj' : j < ns.length := by rw [hlen]; exact (List.getElem?_eq_some_iff.mp hj).1
    rw [← hlevel i m y h7 hy, ← hlevel j _ z (List.getElem?_eq_getElem hj') hj, hu, hord]
    exact C53_min_exact hp hM (List.mem_of_getElem? h7) hg h9 _ (List.getElem_mem hj')
  · obtain ⟨r, i, e, m, h5, h6, h7, h8, h9, -⟩ := C53_max hc hx (holds_ne hh hne) (holds_numbers hh) s
    obtain ⟨y, hy⟩ := hpos i m h7
    refine ⟨r, i, e, y, h5, h6, hy, h8, fun z hz => ?_⟩
    obtain ⟨j, hj⟩ := List.mem_iff_getElem?.mp hz
    have hj' : j < ns.length := by rw [hlen]; exact (List.getElem?_eq_some_iff.mp hj).1
    rw [← hlevel i m y h7 hy, ← hlevel j _ z (List.getElem?_eq_getElem hj') hj, hu, hord]
    exact C53_max_exact hp hM (List.mem_of_getElem? h7) hg h9 _ (List.getElem_mem hj')

/-- **C96**: `sort` puts an array of quantities, as they are written, in the order of the points on their scale. -/
theorem C96_sort (hL : Lawful pw N) (hc : HasArrays c asBool) (hp : 1 ≤ p) {x : Opd S U R} {els : List (Opd S U R)}
    (hx : x.value = .arr els) (hpl : Plain els) {xs : List (F × Option (PL V))} {ns : List Number} {ru : Option U} (hne : xs ≠ [])
    (hh : HoldsQuantities c num? unitOf pw N els xs ns ru)
    (hs : ∀ x ∈ xs, OnScale N (x.2.getD []) ∧ 0 < size pw N (x.2.getD [])) (hg : WithinGrid p ns) (s : σ) :
    ∃ rs : List (Opd S U R × F), call c (opSort p num?) [x] s = (.ok (arrayOf (rs.map (·.1))), s) ∧
      rs.Perm (els.zip (xs.map (level pw N))) ∧ rs.Pairwise (fun a b => a.2 ≤ b.2) := by
  obtain ⟨⟨w, hw, hu⟩, h4⟩ := holds_levels hL hh hne (fun x h => (hs x h).1)
  obtain ⟨M, hM, hg⟩ := hg
  obtain ⟨rs, h1, -, h2, h3, -⟩ := C52_sort hc hx hpl (holds_numbers hh) s
  refine ⟨rs.map (fun e => (e.1, level pw N ((e.2.val : F), ru.map unitOf))), ?_, ?_, ?_⟩
  · rw [h1, List.map_map]
    rfl
  · rw [← h4, List.zip_map_right]
    exact h2.map _
  · rw [List.pairwise_map]
    refine (List.Pairwise.and_mem.mp h3).imp ?_
    rintro a b ⟨ha, hb, hlt⟩
    simp only
    rw [hu, levels_order (hs w hw).1 (hs w hw).2]
    have mem : ∀ a ∈ rs, a.2 ∈ ns := fun a ha => (List.of_mem_zip (h2.mem_iff.mp ha)).2
    refine C53_min_exact (ns := [a.2, b.2]) hp hM (by simp) ?_ ?_ b.2 (by simp)
    · intro n hn
      simp only [List.mem_cons, List.not_mem_nil, or_false] at hn
      rcases hn with rfl | rfl
      · exact hg _ (mem a ha)
      · exact hg _ (mem b hb)
    · intro n hn
      simp only [List.mem_cons, List.not_mem_nil, or_false] at hn
      rcases hn with rfl | rfl
      · simp [Number.lt]
      · exact hlt

/-- **C96**: `median` of an array of quantities is, on their scale, the median of the points. -/
theorem C96_median (hL : Lawful pw N) (hc : HasArrays c asBool) {x : Opd S U R} {els : List (Opd S U R)}
    (hx : x.value = .arr els) {xs : List (F × Option (PL V))} {ns : List Number} {ru : Option U} (hne : xs ≠ [])
    (hh : HoldsQuantities c num? unitOf pw N els xs ns ru)
    (hs : ∀ x ∈ xs, OnScale N (x.2.getD []) ∧ 0 < size pw N (x.2.getD []))
    (hfit : ∀ n ∈ ns, Fits p n.val)
    (hsum : ∀ a ∈ ns, ∀ b ∈ ns, Fits p (a.val + b.val) ∧ Fits p ((a.val + b.val) / 2))
    (hd : ∀ a ∈ ns, ∀ b ∈ ns, (((a.val + b.val) / 2).den : ℤ) < 10 ^ p) (s : σ) :
    ∃ r n, call c (opMedian p num? ofNum) [x] s = (.ok r, s) ∧ IsNumber c ofNum r n ru ∧
      IsMiddle (xs.map (level pw N)) (level pw N ((n.val : F), ru.map unitOf)) := by
  obtain ⟨⟨w, hw, hu⟩, h4⟩ := holds_levels hL hh hne (fun x h => (hs x h).1)
  obtain ⟨r, n, h1, h2, -, d, h3, h5, h6⟩ :=
    C53_median (ofNum := ofNum) hc hx (holds_ne hh hne) (holds_numbers hh) hfit hsum hd s
  obtain ⟨a, b, ha, hab⟩ := level_increasing (pw := pw) (hs w hw).1 (hs w hw).2
  refine ⟨r, n, h1, h2, d.map (fun q : ℚ => level pw N ((q : F), ru.map unitOf)), ?_, ?_, ?_⟩
  · rw [← h4]
    have := h3.map (fun q : ℚ => level pw N ((q : F), ru.map unitOf))
    rwa [List.map_map] at this
  · rw [List.pairwise_map]
    refine h5.imp (fun {q r} h => ?_)
    rw [hu, levels_order (hs w hw).1 (hs w hw).2]
    exact h
  · rw [← h4]
    simp only [List.length_map, List.getElem?_map, Option.map_eq_some_iff] at h6 ⊢
    rcases h6 with ⟨k, hk, h7⟩ | ⟨k, q, q', hk, h7, h8, h9⟩
    · exact .inl ⟨k, hk, _, h7, rfl⟩
    · refine .inr ⟨k, _, _, hk, ⟨_, h7, rfl⟩, ⟨_, h8, rfl⟩, ?_⟩
      rw [h9, hu, hab, hab, hab]
      push_cast
      ring

end

/-- **C65** fails for a unit with a temperature inside: `1 metre/Celsius` is `1 metre/kelvin`, but they are compared as `1` and
`274.15`, so the first is "smaller" and they are not "equal". -/
theorem C65_compound_violation :
    quantity Demo.zpw (Demo.reg ℚ) (1, some [(.metre, 1), (.celsius, -1)]) = quantity Demo.zpw (Demo.reg ℚ) (1, some [(.metre, 1), (.kelvin, -1)]) ∧
    ∃ x' y' ru, normaliseInputs Demo.zpw (Demo.reg ℚ) 5 false false
      [(1, some [(.metre, 1), (.celsius, -1)]), (1, some [(.metre, 1), (.kelvin, -1)])] = some (.ok ([x', y'], ru)) ∧ x'.1 < y'.1 := by
  refine ⟨by decide +kernel, (1, some [(.metre, 1), (.celsius, -1)]), (27415 / 100, some [(.metre, 1), (.celsius, -1)]),
    some [(.metre, 1), (.celsius, -1)], ?_, by norm_num⟩
  have h : unitConversion Demo.zpw (Demo.reg ℚ) 1 (some [(.metre, 1), (.kelvin, -1)]) (some [(.metre, 1), (.celsius, -1)]) false =
      .ok (27415 / 100, some [(.metre, 1), (.celsius, -1)]) := by decide +kernel
  rw [normalise_first, List.mapM_cons, List.mapM_nil, h]
  rfl

/-! ## Concrete cases -/

section
open MC.Arrays MC.Spec MC.Unit.Demo

/-- Metres (`false`) and kilometres (`true`). -/
noncomputable def lengthReg : Norm Bool Unit ℝ where
  info b := ⟨.scale, if b then 1000 else 1, (), ["si"], [], true, false⟩
  rel _ := none
  units := [((), [false, true])]
  multiunits _ := []
  allowPrefixed := true
  closer _ _ := .ok true
  simpler _ _ := true

theorem lengthReg_lawful : Lawful rpw lengthReg :=
  ⟨fun p => by simp [rpw], fun u => rpw_law (by cases u <;> simp [lengthReg, stepSize])⟩

theorem kilometre_metres : unitConversion rpw lengthReg 1 (some [(true, 1)]) (some [(false, 1)]) false =
    .ok (1000, some [(false, 1)]) := by
  have h1 : same (A := Bool) [(true, 1)] [(false, 1)] = false := by decide +kernel
  have h2 : same (dimList lengthReg [(true, 1)]) (dimList lengthReg [(false, 1)]) = true := same_iff.2 (List.Perm.refl _)
  have e1 : rpw 1000 (-1) = 1000⁻¹ := by
    unfold rpw
    push_cast
    rw [Real.rpow_neg_one]
  simp only [unitConversion, h1, h2, Bool.false_eq_true, if_false, Bool.not_true, convertList_one, bind, Except.bind]
  simp [convert, lengthReg, e1, lengthReg_lawful.1, pure, Except.pure]

/-- `[700 m, 1 km, 300 m]`. -/
theorem lengths_hold : HoldsQuantities arrCalc AS.num? (fun b => [(b, 1)]) rpw lengthReg
    [len 700 false, len 1 true, len 300 false]
    [(700, some [(false, 1)]), (1, some [(true, 1)]), (300, some [(false, 1)])]
    [⟨700, 1⟩, ⟨1000, 1⟩, ⟨300, 1⟩] (some false) := by
  refine ⟨toMetres, _, _, 0, rfl, rfl, ?_, rfl, rfl, rfl, ?_⟩
  · refine .cons ⟨⟨700, 1⟩, rfl, by simp [Number.val, len]⟩ (.cons ⟨⟨1, 1⟩, rfl, by simp [Number.val, len]⟩
      (.cons ⟨⟨300, 1⟩, rfl, by simp [Number.val, len]⟩ .nil))
  · rw [normalise_first, List.mapM_cons, List.mapM_cons, List.mapM_nil, kilometre_metres,
      C42_conversion_same (List.Perm.refl _)]
    simp [bind, Except.bind, pure, Except.pure, Except.map, Number.val, len]

theorem lengths_scale : ∀ x ∈ [((700 : ℝ), some [(false, (1 : ℚ))]), (1, some [(true, 1)]), (300, some [(false, 1)])],
    Proportional lengthReg false (x.2.getD []) ∧ 0 < size rpw lengthReg (x.2.getD []) := by
  intro x hx
  refine ⟨fun _ _ => .inr rfl, ?_⟩
  simp only [List.mem_cons, List.not_mem_nil, or_false] at hx
  have h : 0 < rpw 1000 1 := by unfold rpw; positivity
  rcases hx with rfl | rfl | rfl <;> simp [size, lengthReg, stepSize, h, lengthReg_lawful.1]

/-- The sum of `700 m, 1 km, 300 m`. -/
example : ∃ r n, call arrCalc (opSum 30 AS.num? AS.ofNum) [arrayOf [len 700 false, len 1 true, len 300 false]] 0 = (.ok r, 0) ∧
    IsNumber arrCalc AS.ofNum r n (some false) ∧ quantity rpw lengthReg ((n.val : ℝ), some [(false, 1)]) = 700 + (rpw 1000 1 + 300) := by
  obtain ⟨r, n, h1, h2, h3⟩ := C96_sum_partial (p := 30) (ofNum := AS.ofNum) lengthReg_lawful arrCalc_has (by norm_num)
    (x := arrayOf [len 700 false, len 1 true, len 300 false]) rfl (by simp) lengths_hold (fun x h => (lengths_scale x h).1)
    (M := 1) (Ns := [700, 1000, 300]) (by norm_num)
    (.cons ⟨Number.canonical_int _, by norm_num [Number.val]⟩
      (.cons ⟨Number.canonical_int _, by norm_num [Number.val]⟩
        (.cons ⟨Number.canonical_int _, by norm_num [Number.val]⟩ .nil))) (by norm_num) 0
  refine ⟨r, n, h1, h2, ?_⟩
  simp only [Option.map_some] at h3
  rw [h3]
  simp [quantity, size, lengthReg, stepSize, lengthReg_lawful.1]

theorem lengths_grid : WithinGrid 30 [⟨700, 1⟩, ⟨1000, 1⟩, ⟨300, 1⟩] := by
  refine ⟨1, by norm_num, ?_⟩
  intro n hn
  simp only [List.mem_cons, List.not_mem_nil, or_false] at hn
  rcases hn with rfl | rfl | rfl
  · exact ⟨700, by norm_num [Number.val], by norm_num⟩
  · exact ⟨1000, by norm_num [Number.val], by norm_num⟩
  · exact ⟨300, by norm_num [Number.val], by norm_num⟩

/-- The least and the greatest of them, and their order. -/
example := C96_min_max (p := 30) (σ := ℕ) lengthReg_lawful arrCalc_has (by norm_num)
  (x := arrayOf [len 700 false, len 1 true, len 300 false]) rfl (by simp) lengths_hold
  (fun x h => ⟨.inl (lengths_scale x h).1, (lengths_scale x h).2⟩) lengths_grid 0
example := C96_sort (p := 30) (σ := ℕ) lengthReg_lawful arrCalc_has (by norm_num)
  (x := arrayOf [len 700 false, len 1 true, len 300 false]) rfl (by simp [Plain, len]) (by simp) lengths_hold
  (fun x h => ⟨.inl (lengths_scale x h).1, (lengths_scale x h).2⟩) lengths_grid 0

/-- Their mean and median: `2000/3 m` does not fit, so `[700 m, 1 km]` is used for the mean. -/
theorem two_hold : HoldsQuantities arrCalc AS.num? (fun b => [(b, 1)]) rpw lengthReg [len 700 false, len 1 true]
    [(700, some [(false, 1)]), (1, some [(true, 1)])] [⟨700, 1⟩, ⟨1000, 1⟩] (some false) := by
  refine ⟨toMetres, _, _, 0, rfl, rfl, ?_, rfl, rfl, rfl, ?_⟩
  · exact .cons ⟨⟨700, 1⟩, rfl, by simp [Number.val, len]⟩ (.cons ⟨⟨1, 1⟩, rfl, by simp [Number.val, len]⟩ .nil)
  · rw [normalise_first, List.mapM_cons, List.mapM_nil, kilometre_metres]
    simp [bind, Except.bind, pure, Except.pure, Except.map, Number.val, len]

theorem fits_small {z : ℤ} (h : |z| < 10 ^ 30) : Fits 30 (z : ℚ) := fits_int h

example := C96_mean (p := 30) (σ := ℕ) (ofNum := AS.ofNum) lengthReg_lawful arrCalc_has
  (x := arrayOf [len 700 false, len 1 true]) rfl (by simp) two_hold
  (fun x h => .inl (lengths_scale x (by simp only [List.mem_cons] at h ⊢; tauto)).1)
  (by
    intro n hn
    simp only [List.mem_cons, List.not_mem_nil, or_false] at hn
    rcases hn with rfl | rfl
    · simpa [Number.val] using fits_small (z := 700) (by norm_num)
    · simpa [Number.val] using fits_small (z := 1000) (by norm_num))
  (by
    have : meanOf ([(⟨700, 1⟩ : Number), ⟨1000, 1⟩].map Number.val) = ((850 : ℤ) : ℚ) := by norm_num [meanOf, Number.val]
    rw [this]
    exact fits_small (by norm_num))
  (by
    have : meanOf ([(⟨700, 1⟩ : Number), ⟨1000, 1⟩].map Number.val) = ((850 : ℤ) : ℚ) := by norm_num [meanOf, Number.val]
    rw [this, Rat.den_intCast]
    norm_num) 0

example := C96_median (p := 30) (σ := ℕ) (ofNum := AS.ofNum) lengthReg_lawful arrCalc_has
  (x := arrayOf [len 700 false, len 1 true]) rfl (by simp) two_hold
  (fun x h => ⟨.inl (lengths_scale x (by simp only [List.mem_cons] at h ⊢; tauto)).1,
    (lengths_scale x (by simp only [List.mem_cons] at h ⊢; tauto)).2⟩)
  (by
    intro n hn
    simp only [List.mem_cons, List.not_mem_nil, or_false] at hn
    rcases hn with rfl | rfl
    · simpa [Number.val] using fits_small (z := 700) (by norm_num)
    · simpa [Number.val] using fits_small (z := 1000) (by norm_num))
  (by
    intro a ha b hb
    simp only [List.mem_cons, List.not_mem_nil, or_false] at ha hb
    rcases ha with rfl | rfl <;> rcases hb with rfl | rfl
    · exact ⟨by have := fits_small (z := 1400) (by norm_num); norm_num [Number.val] at this ⊢; exact this,
        by have := fits_small (z := 700) (by norm_num); norm_num [Number.val] at this ⊢; exact this⟩
    · exact ⟨by have := fits_small (z := 1700) (by norm_num); norm_num [Number.val] at this ⊢; exact this,
        by have := fits_small (z := 850) (by norm_num); norm_num [Number.val] at this ⊢; exact this⟩
    · exact ⟨by have := fits_small (z := 1700) (by norm_num); norm_num [Number.val] at this ⊢; exact this,
        by have := fits_small (z := 850) (by norm_num); norm_num [Number.val] at this ⊢; exact this⟩
    · exact ⟨by have := fits_small (z := 2000) (by norm_num); norm_num [Number.val] at this ⊢; exact this,
        by have := fits_small (z := 1000) (by norm_num); norm_num [Number.val] at this ⊢; exact this⟩)
  (by
    intro a ha b hb
    simp only [List.mem_cons, List.not_mem_nil, or_false] at ha hb
    rcases ha with rfl | rfl <;> rcases hb with rfl | rfl <;> norm_num [Number.val]) 0

/-- `20 Celsius < 293 kelvin` is false: `20 Celsius` is `293.15 kelvin`. -/
example (n : ℕ) : ∃ x' y' ru, normaliseInputs rpw (reg ℝ) n false false
    [((20 : ℝ), some [(.celsius, 1)]), (293, some [(.kelvin, 1)])] = some (.ok ([x', y'], ru)) ∧ ¬ x'.1 < y'.1 := by
  have h := (C48_temperature_formulas (N := reg ℝ) (f := .fahrenheit) Demo.lawful (k := .kelvin) (c := .celsius) rfl rfl rfl rfl rfl rfl 293).1
  have hn : normaliseInputs rpw (reg ℝ) n false false [((20 : ℝ), some [(.celsius, 1)]), (293, some [(.kelvin, 1)])] =
      some (.ok ([(20, some [(.celsius, 1)]), (293 - 27315 / 100, some [(.celsius, 1)])], some [(.celsius, 1)])) := by
    rw [normalise_first, List.mapM_cons, List.mapM_nil, h]
    rfl
  refine ⟨_, _, _, hn, ?_⟩
  rw [(C65_levels Demo.lawful (.inr ⟨_, rfl⟩) (.inr ⟨_, rfl⟩) (by simp [size, reg, stepSize, kind, Demo.lawful.1]) hn).1]
  simp [level, reg, kind, quantity, size, stepSize, scale, Demo.lawful.1]
  norm_num

/-- The hypotheses of `C96_temperature_violation`, `C96_sum_adds_partial` and `C96_mixed_partial`. -/
example : evalSum rpw (reg ℝ) 5 [(20, some [(.celsius, 1)]), (1, some [(.kelvin, 1)])] ≠
    evalAdds rpw (reg ℝ) 5 (20, some [(.celsius, 1)]) [(1, some [(.kelvin, 1)])] :=
  (C96_temperature_violation Demo.lawful (k := .kelvin) (c := .celsius) rfl rfl rfl rfl 5 20 1).2.2
example : evalSum rpw (reg ℝ) 5 [(1, some [(.metre, 1)]), (2, some [(.foot, 1)]), (3, some [(.metre, 1)])] =
    evalAdds rpw (reg ℝ) 5 (1, some [(.metre, 1)]) [(2, some [(.foot, 1)]), (3, some [(.metre, 1)])] :=
  C96_sum_adds_partial Demo.lawful 5 (by
    intro z hz o ho
    simp only [List.mem_cons, List.not_mem_nil, or_false] at hz
    rcases hz with rfl | rfl | rfl <;> simp only [Option.getD_some, List.mem_singleton] at ho <;> subst ho <;> exact .inr rfl)
example : ∃ e, evalSum rpw (reg ℝ) 5 [(1, some [(.metre, 1)]), (2, some [(.foot, 1)]), (3, some [(.second, 1)])] = some (.error e) :=
  C96_mixed_partial 5 (z := (3, some [(.second, 1)])) (by simp) (.inr (.inr ⟨_, _, rfl, rfl, by
      intro pre o post h
      cases pre with
      | nil => simp
      | cons q qs => simp [contributions, reg, dim] at h, by
      intro pre o post h
      cases pre with
      | nil => simp
      | cons q qs => simp [contributions, reg, dim] at h, .time, by
      simp [dimOf, unitDim, reg, dim]⟩))

end

end MC.Props
