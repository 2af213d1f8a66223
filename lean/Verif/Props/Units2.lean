import Verif.Lemmas.UnitSimplify
import Verif.Props.Units

/-! # C45, C46, C61: normalisation, simplification and arithmetic keep the quantity -/

set_option linter.unusedSectionVars false

namespace MC.Props
open MC.Unit MC.Unit.Spec

section
variable {U D K : Type} [DecidableEq U] [DecidableEq D] [Field K]
variable {pw : K → ℚ → K} {N : Norm U D K}

/-- A conversion keeps the quantity, also when units are missing. -/
theorem conversion_quantity (hL : Lawful pw N) {v : K} {a b : Option (PL U)} {r : Bool}
    (ha : Proportional N r (a.getD [])) (hb : Proportional N r (b.getD []))
    {y : K × Option (PL U)} (h : unitConversion pw N v a b r = .ok y) :
    quantity pw N y = quantity pw N (v, a) ∧ y.1 * size pw N (b.getD []) = quantity pw N (v, a) := by
  cases a with
  | none =>
    cases b with
    | none => cases h; exact ⟨rfl, rfl⟩
    | some b => exact absurd h (by simp [unitConversion])
  | some a =>
    cases b with
    | none => exact absurd h (by simp [unitConversion])
    | some b =>
      obtain ⟨w, u⟩ := y
      obtain ⟨h1, l, rfl, h2⟩ := C42_conversion_value hL ha hb h
      unfold quantity
      simp only [Option.getD_some]
      rw [size_perm h2]
      exact ⟨h1, h1⟩

theorem mapM_conversion (hL : Lawful pw N) {b : Option (PL U)} {r : Bool}
    (hb : Proportional N r (b.getD [])) (xs : List (K × Option (PL U)))
    (hx : ∀ x ∈ xs, Proportional N r (x.2.getD [])) {ys : List (K × Option (PL U))}
    (h : xs.mapM (fun x => unitConversion pw N x.1 x.2 b r) = .ok ys) :
    List.Forall₂ (fun x y => quantity pw N y = quantity pw N x) xs ys := by
  induction xs generalizing ys with
  | nil => rw [List.mapM_nil] at h; cases h; exact .nil
  | cons x xs ih =>
    rw [List.mapM_cons] at h
    cases h1 : unitConversion pw N x.1 x.2 b r with
    | error e => rw [h1] at h; exact absurd h (by simp [bind, Except.bind])
    | ok y =>
      rw [h1] at h
      cases h2 : xs.mapM (fun x => unitConversion pw N x.1 x.2 b r) with
      | error e => rw [h2] at h; exact absurd h (by simp [bind, Except.bind])
      | ok ys' =>
        rw [h2] at h
        cases h
        exact .cons (conversion_quantity hL (hx x List.mem_cons_self) hb h1).1
          (ih (fun z hz => hx z (List.mem_cons_of_mem _ hz)) h2)

/-- C45, normalisation: the units of the operands of an operation may change, but every operand
keeps its quantity. -/
theorem C45_normalise (hL : Lawful pw N) (hC : Coherent N) {n : ℕ} {multi r : Bool}
    {xs ys : List (K × Option (PL U))} {ru : Option (PL U)}
    (hx : ∀ x ∈ xs, Proportional N r (x.2.getD []))
    (h : normaliseInputs pw N n multi r xs = some (.ok (ys, ru))) :
    List.Forall₂ (fun x y => quantity pw N y = quantity pw N x) xs ys := by
  unfold normaliseInputs at h
  simp only at h
  split at h
  · cases h
    exact List.forall₂_same.2 (fun _ _ => rfl)
  · split at h
    · cases hm : normMulti pw N n r xs with
      | none => rw [hm] at h; exact absurd h (by simp)
      | some res =>
        rw [hm] at h
        cases res with
        | error e => exact absurd h (by simp [bind, Except.bind])
        | ok zs =>
          cases h
          have hP : Prop' N r (fun u => r = true ∨ (N.info u).kind = .scale) := fun _ h => h
          have := normMulti_keeps hL hP hC.rel n (fun x h => hx x h) hm
          exact this.imp (fun _ _ k => k.value)
    · cases hm : normSame pw N r xs with
      | error e => rw [hm] at h; exact absurd h (by simp [bind, Except.bind])
      | ok zs =>
        rw [hm] at h
        cases h
        cases xs with
        | nil => cases hm; exact .nil
        | cons a as =>
          unfold normSame at hm
          simp only at hm
          cases hm' : as.mapM (fun b => unitConversion pw N b.1 b.2 a.2 r) with
          | error e => rw [hm'] at hm; exact absurd hm (by simp [bind, Except.bind])
          | ok as' =>
            rw [hm'] at hm
            cases hm
            exact .cons rfl (mapM_conversion hL (hx a List.mem_cons_self) as
              (fun z hz => hx z (List.mem_cons_of_mem _ hz)) hm')

/-- Normalisation for `*` and `/` also keeps the dimension of every operand. -/
theorem C45_normalise_dimension (hL : Lawful pw N) (hC : Coherent N) {n : ℕ} {r : Bool}
    {xs ys : List (K × Option (PL U))} {ru : Option (PL U)}
    (hx : ∀ x ∈ xs, Proportional N r (x.2.getD []))
    (h : normaliseInputs pw N n true r xs = some (.ok (ys, ru))) :
    List.Forall₂ (fun x y => ∀ d, dimOfO N y.2 d = dimOfO N x.2 d) xs ys := by
  unfold normaliseInputs at h
  simp only [if_true] at h
  split at h
  · cases h
    exact List.forall₂_same.2 (fun _ _ _ => rfl)
  · cases hm : normMulti pw N n r xs with
    | none => rw [hm] at h; exact absurd h (by simp)
    | some res =>
      rw [hm] at h
      cases res with
      | error e => exact absurd h (by simp [bind, Except.bind])
      | ok zs =>
        cases h
        have hP : Prop' N r (fun u => r = true ∨ (N.info u).kind = .scale) := fun _ h => h
        have := normMulti_keeps hL hP hC.rel n (fun x h => hx x h) hm
        exact this.imp (fun _ _ k => k.dim)

variable [DecidableEq K] {t : D}

theorem simplify_cases (hL : Lawful pw N) (hC : Coherent N) (hT : Thermal N t) {n : ℕ} {v : K}
    {l : PL U} (hl : Without N t l) {w : K} {u : Option (PL U)}
    (h : simplifyUnits pw N n v l = some (.ok (w, u))) :
    ∃ s, Keeps pw N (fun u => (N.info u).dim ≠ t) (v, l) s ∧ dedupe pw N s.1 s.2 = .ok (w, u.getD [])
      ∧ (simplifyLoop pw N n v l = some (.ok s) ∨ (s = (v, l) ∧ l.length ≤ 1)) := by
  unfold simplifyUnits at h
  have fin : ∀ s : K × PL U, (some (do
      let s ← dedupe pw N s.1 s.2
      return (s.1, checkEmpty s.2)) : Option (Except Raise (K × Option (PL U)))) = some (.ok (w, u)) →
      dedupe pw N s.1 s.2 = .ok (w, u.getD []) := by
    intro s hs
    cases hd : dedupe pw N s.1 s.2 with
    | error e => rw [hd] at hs; exact absurd hs (by simp [bind, Except.bind])
    | ok s' =>
      rw [hd] at hs
      simp only [bind, Except.bind, pure, Except.pure, Option.some.injEq, Except.ok.injEq,
        Prod.mk.injEq] at hs
      rw [← hs.1, ← hs.2, checkEmpty_getD]
  by_cases hn : needsSimplify l = true
  · rw [if_pos hn] at h
    cases hs : simplifyLoop pw N n v l with
    | none => rw [hs] at h; exact absurd h (by simp)
    | some res =>
      rw [hs] at h
      cases res with
      | error e => exact absurd h (by simp)
      | ok s =>
        exact ⟨s, simplifyLoop_keeps hL hC hT n hl hs, fin s h, .inl rfl⟩
  · rw [if_neg hn] at h
    refine ⟨(v, l), Keeps.refl hl, fin (v, l) h, .inr ⟨rfl, ?_⟩⟩
    match l, hn with
    | [], _ => simp
    | [_], _ => simp
    | _ :: _ :: _, hn => exact absurd rfl hn

/-- C45, simplification: the answer after unit simplification is the same quantity.  Missing:
units of the dimension of temperature, whose absolute conversions are not proportional. -/
theorem C45_simplify_partial (hL : Lawful pw N) (hC : Coherent N) (hT : Thermal N t) {n : ℕ} {v : K}
    {l : PL U} (hl : Without N t l) {y : K × Option (PL U)}
    (h : simplifyUnits pw N n v l = some (.ok y)) :
    quantity pw N y = quantity pw N (v, some l) := by
  obtain ⟨w, u⟩ := y
  obtain ⟨s, hk, hd, _⟩ := simplify_cases hL hC hT hl h
  have := (dedupe_value hL (without_prop hT) hk.all hd).1
  unfold quantity
  simp only [Option.getD_some]
  exact this.trans hk.value

/-- C46, the replacement of groups of units by others never changes the dimension, whatever is
chosen in whatever order; and it keeps the quantity. -/
theorem C46_replacement (hL : Lawful pw N) (hC : Coherent N) (hT : Thermal N t) {n : ℕ} {v : K}
    {l : PL U} (hl : Without N t l) {s : K × PL U}
    (h : simplifyLoop pw N n v l = some (.ok s)) :
    (∀ d, dimOf N s.2 d = dimOf N l d) ∧ s.1 * size pw N s.2 = v * size pw N l :=
  let k := simplifyLoop_keeps hL hC hT n hl h
  ⟨k.dim, k.value⟩

/-- C46, for the answers the merging of units of the same dimension handles correctly
(`DedupeSafe`).  Missing: the other answers, for which the claim is false
(`C46_dimension_violation`), and temperatures. -/
theorem C46_simplify_partial (hL : Lawful pw N) (hC : Coherent N) (hT : Thermal N t) {n : ℕ} {v : K}
    {l : PL U} (hl : Without N t l)
    (hs : ∀ s, simplifyLoop pw N n v l = some (.ok s) → DedupeSafe N s.2)
    {y : K × Option (PL U)} (h : simplifyUnits pw N n v l = some (.ok y)) (d : D) :
    dimOfO N y.2 d = dimOf N l d := by
  obtain ⟨w, u⟩ := y
  obtain ⟨s, hk, hd, hc⟩ := simplify_cases hL hC hT hl h
  rw [← hk.dim d]
  rcases hc with hc | ⟨rfl, hlen⟩
  · exact dedupe_dim hL (without_prop hT) hk.all (hs s hc) hd d
  · unfold dedupe at hd
    rw [if_neg (by simpa using hlen)] at hd
    simp only [Except.ok.injEq, Prod.mk.injEq] at hd
    unfold dimOfO
    rw [← hd.2]

/-- C46 is false in general: the merging of units takes the first unit of the whole answer, not of
the dimension; a time, two masses and a length become a mass and the third power of a time. -/
theorem C46_dimension_violation :
    simplifyUnits Demo.zpw (Demo.reg ℚ) 10 5 [(.second, 1), (.gram, 1), (.pound, 1), (.metre, 1)]
      = some (.ok (5, some [(.second, 3), (.pound, 1)])) ∧
    dimOf (Demo.reg ℚ) [(.second, 3), (.pound, 1)] .time
      ≠ dimOf (Demo.reg ℚ) [(.second, 1), (.gram, 1), (.pound, 1), (.metre, 1)] .time := by
  constructor <;> decide +kernel

/-- The same merging can fail with an error that is not one of the calculator. -/
theorem C46_error_violation :
    ∃ m, simplifyUnits Demo.zpw (Demo.reg ℚ) 10 5 [(.second, 1), (.gram, 1), (.pound, 1)]
      = some (.error (.py m)) := ⟨"list index out of range", by decide +kernel⟩

/-! ### C61: arithmetic does not depend on the units -/

theorem size_newList (hL : Lawful pw N) (a b : PL U) (p q : ℚ) :
    size pw N ((newList [(a, p), (b, q)]).getD [])
      = size pw N (multiply p a) * size pw N (multiply q b) := by
  unfold newList
  rw [checkEmpty_getD]
  simp only [List.foldl_cons, List.foldl_nil]
  rw [size_multiply_add hL, size_multiply_add hL]
  simp

theorem dimOf_newList (a b : PL U) (p q : ℚ) (d : D) :
    dimOfO N (newList [(a, p), (b, q)]) d = p * dimOf N a d + q * dimOf N b d := by
  unfold newList dimOfO
  rw [checkEmpty_getD]
  simp only [List.foldl_cons, List.foldl_nil, dimOf_addAll, dimOf_nil, zero_add]

theorem dimOf_removeZeros (l : PL U) (d : D) : dimOf N (removeZeros l) d = dimOf N l d := by
  induction l with
  | nil => rfl
  | cons o l ih =>
    unfold removeZeros at ih ⊢
    rw [List.filter_cons]
    split
    · rw [dimOf_cons, dimOf_cons, ih]
    · rename_i h
      have : o.2 = 0 := by simpa using h
      rw [dimOf_cons, ih, this, zero_mul, zero_add]

theorem opMultiply_quantity (hL : Lawful pw N) (x y : K × Option (PL U)) :
    ∃ z, opMultiply (.num x.1 x.2) (.num y.1 y.2) = .ok (.num z.1 z.2) ∧
      quantity pw N z = quantity pw N x * quantity pw N y ∧
      ∀ d, dimOfO N z.2 d = dimOfO N x.2 d + dimOfO N y.2 d := by
  obtain ⟨v, a⟩ := x
  obtain ⟨w, b⟩ := y
  cases a with
  | none =>
    cases b with
    | none => exact ⟨(v * w, none), rfl, by simp [quantity], by simp [dimOfO]⟩
    | some b =>
      exact ⟨(v * w, some b), rfl, by simp [quantity, mul_assoc], by simp [dimOfO]⟩
  | some a =>
    cases b with
    | none =>
      refine ⟨(v * w, some a), rfl, ?_, by simp [dimOfO]⟩
      simp only [quantity, Option.getD_some, Option.getD_none, size_nil]
      ring
    | some b =>
      refine ⟨(v * w, newList [(a, 1), (b, 1)]), rfl, ?_, ?_⟩
      · unfold quantity
        simp only
        rw [size_newList hL, multiply_one, multiply_one]
        simp only [Option.getD_some]
        ring
      · intro d
        simp only
        rw [dimOf_newList]
        simp [dimOfO]

theorem opDivide_quantity (hL : Lawful pw N) (x y : K × Option (PL U)) {res : Arg U K}
    (h : opDivide (.num x.1 x.2) (.num y.1 y.2) = .ok res) :
    ∃ z, res = .num z.1 z.2 ∧ y.1 ≠ 0 ∧
      quantity pw N z = quantity pw N x / quantity pw N y ∧
      ∀ d, dimOfO N z.2 d = dimOfO N x.2 d - dimOfO N y.2 d := by
  obtain ⟨v, a⟩ := x
  obtain ⟨w, b⟩ := y
  unfold opDivide at h
  simp only at h
  by_cases hw : w = 0
  · have hw' : (Arg.num w b : Arg U K).split.1 = 0 := hw
    rw [if_pos hw'] at h
    exact absurd h (by simp)
  · have hw' : ¬ (Arg.num w b : Arg U K).split.1 = 0 := hw
    rw [if_neg hw'] at h
    simp only [Arg.split] at h
    cases a with
    | none =>
      cases b with
      | none => cases h; exact ⟨(v / w, none), rfl, hw, by simp [quantity], by simp [dimOfO]⟩
      | some b =>
        simp only at h
        cases hp : power (-1) b with
        | none => rw [hp] at h; exact absurd h (by simp)
        | some l =>
          rw [hp] at h
          cases h
          have hl := (checkEmpty_some hp).1
          refine ⟨(v / w, some l), rfl, hw, ?_, ?_⟩
          · unfold quantity
            simp only [Option.getD_some, Option.getD_none, size_nil]
            rw [hl, size_removeZeros hL, size_multiply_neg hL]
            have := size_ne hL b
            field_simp
          · intro d
            simp only [dimOfO, Option.getD_some, Option.getD_none, dimOf_nil]
            rw [hl, dimOf_removeZeros, dimOf_multiply]
            ring
    | some a =>
      cases b with
      | none =>
        cases h
        refine ⟨(v / w, some a), rfl, hw, ?_, by simp [dimOfO]⟩
        simp only [quantity, Option.getD_some, Option.getD_none, size_nil]
        field_simp
      | some b =>
        cases h
        refine ⟨(v / w, newList [(a, 1), (b, -1)]), rfl, hw, ?_, ?_⟩
        · unfold quantity
          simp only
          rw [size_newList hL, multiply_one, size_multiply_neg hL]
          simp only [Option.getD_some]
          have := size_ne hL b
          field_simp
        · intro d
          simp only
          rw [dimOf_newList]
          simp only [dimOfO, Option.getD_some]
          ring

theorem callBinary_cases {n : ℕ} {multi r : Bool}
    {f : K × Option (PL U) → K × Option (PL U) → Option (PL U) → Except Raise (Arg U K)}
    {x y : K × Option (PL U)} {res : Arg U K}
    (h : callBinary pw N n multi r f x y = some (.ok res)) :
    ∃ x' y' ru, normaliseInputs pw N n multi r [x, y] = some (.ok ([x', y'], ru)) ∧
      f x' y' ru = .ok res := by
  unfold callBinary at h
  cases hn : normaliseInputs pw N n multi r [x, y] with
  | none => rw [hn] at h; exact absurd h (by simp)
  | some o =>
    rw [hn] at h
    cases o with
    | error e => exact absurd h (by simp)
    | ok p =>
      obtain ⟨xs, ru⟩ := p
      simp only at h
      split at h
      · rename_i x' y'
        exact ⟨x', y', ru, rfl, Option.some.inj h⟩
      · exact absurd h (by simp)

theorem relative_all (xs : List (K × Option (PL U))) :
    ∀ x ∈ xs, Proportional N true (x.2.getD []) := fun _ _ _ _ => .inl rfl

/-- C61, `*`: a product that is computed is the product of the quantities, and its dimension is the
sum of the dimensions, whatever units the operands are given in. -/
theorem C61_multiply_partial (hL : Lawful pw N) (hC : Coherent N) {n : ℕ} {x y : K × Option (PL U)}
    {res : Arg U K} (h : evalMul pw N n x y = some (.ok res)) :
    ∃ z, res = .num z.1 z.2 ∧ quantity pw N z = quantity pw N x * quantity pw N y ∧
      ∀ d, dimOfO N z.2 d = dimOfO N x.2 d + dimOfO N y.2 d := by
  obtain ⟨x', y', ru, h1, h2⟩ := callBinary_cases h
  have q := C45_normalise hL hC (relative_all _) h1
  have dd := C45_normalise_dimension hL hC (relative_all _) h1
  rw [List.forall₂_cons, List.forall₂_cons] at q dd
  obtain ⟨z, e, hz, hd⟩ := opMultiply_quantity hL x' y'
  rw [e] at h2
  cases h2
  refine ⟨z, rfl, ?_, ?_⟩
  · rw [hz, q.1, q.2.1]
  · intro d
    rw [hd, dd.1, dd.2.1]

/-- C61, `/`: a quotient that is computed is the quotient of the quantities, and its dimension is
the difference of the dimensions, whatever units the operands are given in. -/
theorem C61_divide_partial (hL : Lawful pw N) (hC : Coherent N) {n : ℕ} {x y : K × Option (PL U)}
    {res : Arg U K} (h : evalDiv pw N n x y = some (.ok res)) :
    ∃ z, res = .num z.1 z.2 ∧ quantity pw N y ≠ 0 ∧
      quantity pw N z = quantity pw N x / quantity pw N y ∧
      ∀ d, dimOfO N z.2 d = dimOfO N x.2 d - dimOfO N y.2 d := by
  obtain ⟨x', y', ru, h1, h2⟩ := callBinary_cases h
  have q := C45_normalise hL hC (relative_all _) h1
  have dd := C45_normalise_dimension hL hC (relative_all _) h1
  rw [List.forall₂_cons, List.forall₂_cons] at q dd
  obtain ⟨z, e, hw, hz, hd⟩ := opDivide_quantity hL x' y' h2
  refine ⟨z, e, ?_, ?_, ?_⟩
  · rw [← q.2.1]
    exact mul_ne_zero hw (size_ne hL _)
  · rw [hz, q.1, q.2.1]
  · intro d
    rw [hd, dd.1, dd.2.1]

theorem normalise_pair (n : ℕ) (r : Bool) (v w : K) (a b : PL U) :
    normaliseInputs pw N n false r [(v, some a), (w, some b)]
      = some ((unitConversion pw N w (some b) (some a) r).map
          (fun z => ([(v, some a), z], some a))) := by
  unfold normaliseInputs normSame
  simp only [List.filterMap_cons, List.filterMap_nil, List.mapM_cons, List.mapM_nil]
  cases unitConversion pw N w (some b) (some a) r <;> rfl

theorem normSame_pair {r : Bool} {x y x' y' : K × Option (PL U)} {ru : Option (PL U)} {n : ℕ}
    (h : normaliseInputs pw N n false r [x, y] = some (.ok ([x', y'], ru))) :
    x' = x ∧ ru = x.2 ∧ unitConversion pw N y.1 y.2 x.2 r = .ok y' := by
  obtain ⟨v, a⟩ := x
  obtain ⟨w, b⟩ := y
  unfold normaliseInputs at h
  cases a with
  | none =>
    cases b with
    | none => cases h; exact ⟨rfl, rfl, rfl⟩
    | some b => exact absurd h (by
        simp [normSame, unitConversion, bind, Except.bind, List.mapM_cons])
  | some a =>
    cases b with
    | none => exact absurd h (by
        simp [normSame, unitConversion, bind, Except.bind, List.mapM_cons])
    | some b =>
      change normaliseInputs pw N n false r [(v, some a), (w, some b)] = _ at h
      rw [normalise_pair] at h
      cases hc : unitConversion pw N w (some b) (some a) r with
      | error e => rw [hc] at h; exact absurd h (by simp [Except.map])
      | ok z =>
        rw [hc] at h
        cases h
        exact ⟨rfl, rfl, rfl⟩

/-- C61, `+`: a sum that is computed is the sum of the quantities, in the unit of the first
operand. -/
theorem C61_add (hL : Lawful pw N) {n : ℕ} {x y : K × Option (PL U)} {res : Arg U K}
    (h : evalAdd pw N n x y = some (.ok res)) :
    ∃ z, res = .num z.1 x.2 ∧ z.2 = x.2 ∧
      quantity pw N z = quantity pw N x + quantity pw N y := by
  obtain ⟨x', y', ru, h1, h2⟩ := callBinary_cases h
  obtain ⟨rfl, rfl, hc⟩ := normSame_pair h1
  have hc := (conversion_quantity hL (fun _ _ => .inl rfl) (fun _ _ => .inl rfl) hc).2
  cases h2
  refine ⟨(x'.1 + y'.1, x'.2), rfl, rfl, ?_⟩
  have e : quantity pw N (y.1, y.2) = quantity pw N y := rfl
  rw [← e, ← hc]
  unfold quantity
  simp only
  ring

/-- C61, `-`: a difference that is computed is the difference of the quantities, in the unit of
the first operand. -/
theorem C61_subtract (hL : Lawful pw N) {n : ℕ} {x y : K × Option (PL U)} {res : Arg U K}
    (h : evalSub pw N n x y = some (.ok res)) :
    ∃ z, res = .num z.1 x.2 ∧ z.2 = x.2 ∧
      quantity pw N z = quantity pw N x - quantity pw N y := by
  obtain ⟨x', y', ru, h1, h2⟩ := callBinary_cases h
  obtain ⟨rfl, rfl, hc⟩ := normSame_pair h1
  have hc := (conversion_quantity hL (fun _ _ => .inl rfl) (fun _ _ => .inl rfl) hc).2
  cases h2
  refine ⟨(x'.1 - y'.1, x'.2), rfl, rfl, ?_⟩
  have e : quantity pw N (y.1, y.2) = quantity pw N y := rfl
  rw [← e, ← hc]
  unfold quantity
  simp only
  ring

/-- C61, `+` and `-`: they succeed exactly when the dimensions agree (for the lists
`C49_dimension_partial` covers), and otherwise raise an error of the calculator. -/
theorem C61_add_dimensions_partial (hL : Lawful pw N) (n : ℕ) (v w : K) {a b : PL U}
    (ha : Steady (contributions N a)) (hb : Steady (contributions N b)) :
    ((∃ res, evalAdd pw N n (v, some a) (w, some b) = some (.ok res)) ↔
      ∀ d, dimOf N a d = dimOf N b d) ∧
    ((∃ d, dimOf N a d ≠ dimOf N b d) →
      ∃ m, evalAdd pw N n (v, some a) (w, some b) = some (.error (.calc m))) := by
  constructor
  · constructor
    · rintro ⟨res, h⟩ d
      obtain ⟨x', y', ru, h1, h2⟩ := callBinary_cases h
      obtain ⟨_, _, hc⟩ := normSame_pair h1
      exact ((C43_conversion_partial hb ha w true).1 _ hc d).symm
    · intro hd
      obtain ⟨z, hz⟩ := C43_same_dimension_partial hL hb ha (r := true) (fun _ _ => .inl rfl)
        (fun _ _ => .inl rfl) (fun d => (hd d).symm) w
      refine ⟨.num (v + z.1) (some a), ?_⟩
      unfold evalAdd callBinary
      rw [normalise_pair, hz]
      rfl
  · rintro ⟨d, hd⟩
    obtain ⟨m, hm⟩ := (C43_conversion_partial (pw := pw) hb ha w true).2 ⟨d, fun h => hd h.symm⟩
    refine ⟨m, ?_⟩
    unfold evalAdd callBinary
    rw [normalise_pair, hm]
    rfl

/-- C61 is false in general: some products cannot be computed; here `5 metres * 3 feet/metre`,
because the unit of the second operand vanishes when it is normalised. -/
theorem C61_product_violation :
    ∃ m, evalMul Demo.zpw (Demo.reg ℚ) 10 (5, some [(.metre, 1)])
      (3, some [(.foot, 1), (.metre, -1)]) = some (.error (.py m)) :=
  ⟨"'NoneType' object has no attribute 'copy'", by decide +kernel⟩

end

section Example
open Demo

/-- `2 metres * 3 feet = 1.8288 metres²`. -/
example : evalMul zpw (reg ℚ) 10 (2, some [(.metre, 1)]) (3, some [(.foot, 1)])
    = some (.ok (.num (18288 / 10000) (some [(.metre, 2)]))) := by decide +kernel

/-- `1 minute + 30 seconds = 1.5 minutes`. -/
example : evalAdd zpw (reg ℚ) 10 (1, some [(.minute, 1)]) (30, some [(.second, 1)])
    = some (.ok (.num (3 / 2) (some [(.minute, 1)]))) := by decide +kernel

/-- Simplification replaces `metre · foot` by acres (the only area of the registry). -/
example : simplifyUnits zpw (reg ℚ) 10 1 [(.metre, 1), (.foot, 1)]
    = some (.ok (3048 / 40468564.224, some [(.acre, 1)])) := by decide +kernel

/-- Merging two units of the same dimension: `gram · second · pound`. -/
example : simplifyUnits zpw (reg ℚ) 10 1 [(.gram, 1), (.second, 1), (.pound, 1)]
    = some (.ok (45359237 / 100000, some [(.gram, 2), (.second, 1)])) := by decide +kernel

example : DedupeSafe (reg ℚ) [(.gram, 1), (.second, 1), (.pound, 1)] := by
  refine ⟨.mass, ?_, .inr (.inr ⟨by decide, by decide⟩)⟩
  intro d hd
  cases d <;> first | exact absurd rfl hd | decide

example : Lawful rpw (reg ℝ) ∧ Coherent (reg ℝ) ∧ Thermal (reg ℝ) .temperature ∧
    Without (reg ℝ) .temperature [(.gram, 1), (.second, 1), (.pound, 1)] := by
  refine ⟨lawful, coherent ℝ, thermal ℝ, ?_⟩
  intro o ho
  simp only [List.mem_cons, List.not_mem_nil, or_false] at ho
  rcases ho with rfl | rfl | rfl <;> simp [reg, dim]

end Example
end MC.Props
