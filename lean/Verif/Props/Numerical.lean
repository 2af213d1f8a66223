import Mathlib.Algebra.Order.Field.Rat
import Verif.Lemmas.Numerical
import Verif.Props.Number

/-! # C65, C66: comparisons and numerical functions -/

namespace MC.Props
open MC.Numerical MC.Numeric MC.Arrays MC.Boolean MC.Number MC.Spec
set_option linter.unusedSectionVars false

section
variable {S U R K σ : Type} {c : Calc S U R K} {num? : S → Option Number} {ofNum : Number → S}
  {ofBool : Bool → S} {p : ℕ}

/-- The operand `x` is, or can be converted to, the number `a`. -/
def Reads (c : Calc S U R K) (num? : S → Option Number) (x : Opd S U R) (a : Number) : Prop :=
  ∃ w, IsNum c x w ∧ num? w = some a

/-- Numbers without units are left alone by the unit normaliser (`C65_normalise_none` in
`Props/Numerical2.lean` shows this of the model of the normaliser). -/
def LeavesPlain (c : Calc S U R K) : Prop :=
  ∀ f, c.normalise = some f → ∀ nums m r, (∀ q ∈ nums, q.2 = none) → f nums m r = .ok (nums, none)

theorem normalised_plain (hl : LeavesPlain c) {op : Operation S U R σ} {nums : List (S × Option U)}
    (h : ∀ q ∈ nums, q.2 = none) : normalised c op nums = .ok (nums, none) := by
  unfold normalised
  cases hn : c.normalise with
  | none => rfl
  | some f =>
    dsimp only
    split
    · exact hl f hn _ _ _ h
    · rfl

/-- The result of a comparison. -/
def truth (ofBool : Bool → S) (b : Bool) : Opd S U R := ⟨.sc (ofBool b), none, none, none⟩

/-- What a comparison answers, when the unit normaliser gives these numbers. -/
theorem compare_call (hc : HasNumbers c) (hb : ∀ b, c.isNumber (ofBool b) = false) {name : String}
    {test : Number → Number → Bool} {x y : Opd S U R} {v w v' w' : S} {u₁ u₂ ru : Option U}
    {a b : Number} (hx : IsNum c x v) (hy : IsNum c y w)
    (hn : normalised c (opCompare (σ := σ) (R := R) num? ofBool name test) [(v, x.unit), (w, y.unit)]
      = .ok ([(v', u₁), (w', u₂)], ru))
    (ha : num? v' = some a) (hb' : num? w' = some b) (s : σ) :
    call c (opCompare num? ofBool name test) [x, y] s = (.ok (truth ofBool (test a b)), s) := by
  rw [call_numbers (op := opCompare num? ofBool name test) ⟨rfl, rfl, rfl, rfl⟩ hc
    (.cons hx (.cons hy .nil)) (by intro m hm; cases hm; simp) (by intro m hm; cases hm; simp)]
  simp only [List.map_cons, List.map_nil, List.zip_cons_cons, List.zip_nil_right, hn,
    List.zipWith_cons_cons, List.zipWith_nil_right, setNumbers]
  simp only [opCompare, numOp, two, numberOf, ha, hb', bind, Except.bind, pure, Except.pure]
  congr 2
  unfold finishResult truth
  cases List.findSome? c.cast [v, w] <;> simp [hb]

theorem plain_pair (hl : LeavesPlain c) {op : Operation S U R σ} {x y : Opd S U R} {v w : S}
    (hux : x.unit = none) (huy : y.unit = none) :
    normalised c op [(v, x.unit), (w, y.unit)] = .ok ([(v, none), (w, none)], none) := by
  rw [hux, huy]
  exact normalised_plain hl (by simp)

/-- **C65**: the six comparisons of numbers without units answer the order of the numbers: they
agree with each other, `<` is never reported against the exact values, and with at most `p`
significant digits the answers are those of the exact values. -/
theorem C65_compare (hp : 1 ≤ p) (hc : HasNumbers c) (hb : ∀ b, c.isNumber (ofBool b) = false)
    (hl : LeavesPlain c) {x y : Opd S U R} {a b : Number} (hx : Reads c num? x a)
    (hy : Reads c num? y b) (hux : x.unit = none) (huy : y.unit = none) (s : σ) :
    ∃ lt eq : Bool,
      call c (opLess p num? ofBool) [x, y] s = (.ok (truth ofBool lt), s) ∧
      call c (opEqual p num? ofBool) [x, y] s = (.ok (truth ofBool eq), s) ∧
      call c (opMore p num? ofBool) [x, y] s = (.ok (truth ofBool (!lt && !eq)), s) ∧
      call c (opLessEq p num? ofBool) [x, y] s = (.ok (truth ofBool (lt || eq)), s) ∧
      call c (opMoreEq p num? ofBool) [x, y] s = (.ok (truth ofBool (!lt)), s) ∧
      call c (opNotEqual p num? ofBool) [x, y] s = (.ok (truth ofBool (!eq)), s) ∧
      (lt = true → a.val < b.val) ∧ (lt = true → eq = false) ∧ (a.val = b.val → eq = true) ∧
      (a.val < b.val → lt = true ∨ eq = true) ∧
      (Representable p a.val → Representable p b.val →
        (lt = true ↔ a.val < b.val) ∧ (eq = true ↔ a.val = b.val)) := by
  obtain ⟨v, hv, hva⟩ := hx
  obtain ⟨w, hw, hwb⟩ := hy
  have key : ∀ name test, call c (opCompare (σ := σ) num? ofBool name test) [x, y] s
      = (.ok (truth ofBool (test a b)), s) := fun name test =>
    compare_call hc hb hv hw (plain_pair hl hux huy) hva hwb s
  refine ⟨Number.lt p a b, Number.eq p a b, key _ _, key _ _, ?_, ?_, ?_, ?_, ?_, ?_, ?_, ?_, ?_⟩
  · rw [opMore, key]
    rcases C05_trichotomy p a b with ⟨h1, h2, h3⟩ | ⟨h1, h2, h3⟩ | ⟨h1, h2, h3⟩ <;> simp [h1, h2, h3]
  · rw [opLessEq, key, (C05_derived p a b).1]
  · rw [opMoreEq, key, (C05_derived p a b).2.1]
    rcases C05_trichotomy p a b with ⟨h1, h2, h3⟩ | ⟨h1, h2, h3⟩ | ⟨h1, h2, h3⟩ <;> simp [h1, h2, h3]
  · rw [opNotEqual, key, (C05_derived p a b).2.2.1]
  · exact (C05_sound p hp a b).1
  · rcases C05_trichotomy p a b with ⟨h1, h2, h3⟩ | ⟨h1, h2, h3⟩ | ⟨h1, h2, h3⟩ <;> simp [h1, h2]
  · intro h
    have h1 := (C05_sound p hp a b).2 h.le
    have h2 : Number.lt p a b = false := by
      by_contra hh
      exact absurd ((C05_sound p hp a b).1 (by simpa using hh)) (by rw [h]; exact lt_irrefl _)
    rw [(C05_derived p a b).1, h2] at h1
    simpa using h1
  · intro h
    have h1 := (C05_sound p hp a b).2 h.le
    rw [(C05_derived p a b).1] at h1
    simpa using h1
  · exact fun ha hb => C05_exact p a b ha hb

/-- **C65**: with units, the comparisons answer the order of the numbers in a common unit, and
they fail when the units cannot be brought to a common one. -/
theorem C65_units (hc : HasNumbers c) (hb : ∀ b, c.isNumber (ofBool b) = false)
    {f} (hf : c.normalise = some f) {x y : Opd S U R} {v w : S} (hx : IsNum c x v)
    (hy : IsNum c y w) (s : σ) :
    (∀ v' w' u₁ u₂ ru a b, f [(v, x.unit), (w, y.unit)] false false = .ok ([(v', u₁), (w', u₂)], ru) →
      num? v' = some a → num? w' = some b →
      call c (opLess p num? ofBool) [x, y] s = (.ok (truth ofBool (Number.lt p a b)), s) ∧
      call c (opMore p num? ofBool) [x, y] s = (.ok (truth ofBool (Number.lt p b a)), s) ∧
      call c (opLessEq p num? ofBool) [x, y] s = (.ok (truth ofBool (!Number.lt p b a)), s) ∧
      call c (opMoreEq p num? ofBool) [x, y] s = (.ok (truth ofBool (!Number.lt p a b)), s) ∧
      call c (opEqual p num? ofBool) [x, y] s = (.ok (truth ofBool (Number.eq p a b)), s) ∧
      call c (opNotEqual p num? ofBool) [x, y] s = (.ok (truth ofBool (!Number.eq p a b)), s)) ∧
    (∀ e, f [(v, x.unit), (w, y.unit)] false false = .error e →
      ∀ name test, ∃ e', call c (opCompare num? ofBool name test) [x, y] s = (.error e', s)) := by
  constructor
  · intro v' w' u₁ u₂ ru a b h ha hb'
    have key : ∀ name test, call c (opCompare (σ := σ) num? ofBool name test) [x, y] s
        = (.ok (truth ofBool (test a b)), s) := fun name test =>
      compare_call hc hb hx hy (by simp only [normalised, hf]; exact h) ha hb' s
    have hd := C05_derived p a b
    have hd' := C05_derived p b a
    have ht := C05_trichotomy p a b
    refine ⟨key _ _, ?_, ?_, ?_, key _ _, ?_⟩
    · rw [opMore, key, hd.2.2.2.1]
    · rw [opLessEq, key, hd.1, ← hd.2.2.2.1]
      rcases ht with ⟨h1, h2, h3⟩ | ⟨h1, h2, h3⟩ | ⟨h1, h2, h3⟩ <;> simp [h1, h2, h3]
    · rw [opMoreEq, key, hd.2.1]
      rcases ht with ⟨h1, h2, h3⟩ | ⟨h1, h2, h3⟩ | ⟨h1, h2, h3⟩ <;> simp [h1, h2, h3]
    · rw [opNotEqual, key, hd.2.2.1]
  · intro e h name test
    rw [call_numbers (op := opCompare num? ofBool name test) ⟨rfl, rfl, rfl, rfl⟩ hc
      (.cons hx (.cons hy .nil)) (by intro m hm; cases hm; simp) (by intro m hm; cases hm; simp)]
    have : normalised c (opCompare (σ := σ) (R := R) num? ofBool name test) [(v, x.unit), (w, y.unit)] = .error e := by
      simp only [normalised, hf]; exact h
    simp only [List.map_cons, List.map_nil, List.zip_cons_cons, List.zip_nil_right, this]
    exact ⟨_, rfl⟩

/-! ## Functions of one number -/

/-- The number `n` as a result: shown in the type of the first of the given numbers that has one,
with the unit of `x`. -/
def IsResult (c : Calc S U R K) (ofNum : Number → S) (x r : Opd S U R) (ws : List S) (n : Number) : Prop :=
  r.value = .sc (match ws.findSome? c.cast with | some k => c.setCast k (ofNum n) | none => ofNum n) ∧
    r.unit = x.unit ∧ r.ref = none

theorem unary_call (hc : HasNumbers c) (hn : ∀ n, c.isNumber (ofNum n) = true) {name : String}
    {f : Number → Except Raise Number} {x : Opd S U R} {w : S} {a : Number} (hx : IsNum c x w)
    (hw : num? w = some a)
    (hl : normalised c (opUnary (σ := σ) (R := R) num? ofNum name f) [(w, x.unit)] = .ok ([(w, x.unit)], x.unit)
      ∨ x.unit = none ∧ LeavesPlain c) (s : σ) :
    (∀ n, f a = .ok n → ∃ r, call c (opUnary num? ofNum name f) [x] s = (.ok r, s) ∧
      IsResult c ofNum x r [w] n) ∧
    (∀ e, f a = .error e → ∃ e', call c (opUnary num? ofNum name f) [x] s = (.error e', s)) := by
  have hl' : ∃ ru, normalised c (opUnary (σ := σ) (R := R) num? ofNum name f) [(w, x.unit)]
      = .ok ([(w, x.unit)], ru) := by
    rcases hl with h | ⟨h, hl⟩
    · exact ⟨_, h⟩
    · exact ⟨_, normalised_plain hl (by simp [h])⟩
  obtain ⟨ru, hl'⟩ := hl'
  rw [call_numbers (op := opUnary num? ofNum name f) ⟨rfl, rfl, rfl, rfl⟩ hc
    (.cons hx .nil) (by intro m hm; cases hm; simp) (by intro m hm; cases hm; simp)]
  simp only [List.map_cons, List.map_nil, List.zip_cons_cons, List.zip_nil_right, hl',
    List.zipWith_cons_cons, List.zipWith_nil_right, setNumbers]
  constructor
  · intro n hfn
    simp only [opUnary, numOp, numberOf, hw, bind, Except.bind, pure, Except.pure, hfn]
    refine ⟨_, rfl, ?_⟩
    unfold finishResult IsResult
    cases hk : c.cast w <;> simp [List.findSome?, hk, hn]
  · intro e hfe
    simp only [opUnary, numOp, numberOf, hw, bind, Except.bind, hfe]
    exact ⟨_, rfl⟩

/-- **C66**: `abs(x)` is the absolute value, with the unit of `x`. -/
theorem C66_abs (hc : HasNumbers c) (hn : ∀ n, c.isNumber (ofNum n) = true) {x : Opd S U R} {w : S}
    {a : Number} (hx : IsNum c x w) (hw : num? w = some a) (ha : a.Canonical) (hd : |a.num| < 10 ^ p)
    (hu : x.unit = none ∧ LeavesPlain c) (s : σ) :
    ∃ r n, call c (opAbs p num? ofNum) [x] s = (.ok r, s) ∧ IsResult c ofNum x r [w] n ∧
      n.Canonical ∧ n.val = |a.val| := by
  obtain ⟨r, h1, h2⟩ := (unary_call (σ := σ) (name := "abs") (f := fun x => .ok (Number.abs p x)) hc hn hx hw
    (.inr hu) s).1 _ rfl
  exact ⟨r, _, h1, h2, C02_abs_exact p a ha hd⟩

/-- **C66**: `fact` of a whole number `k` is exactly `k!`, however many digits that has; `fact` of
a negative number or a fraction is rejected. -/
theorem C66_fact (hp : 1 ≤ p) (hc : HasNumbers c) (hn : ∀ n, c.isNumber (ofNum n) = true) {x : Opd S U R} {w : S}
    {a : Number} (hx : IsNum c x w) (hw : num? w = some a) (ha : a.Canonical)
    (hd : |a.num * a.den| < 10 ^ p) (hu : x.unit = none ∧ LeavesPlain c) (s : σ) :
    (∀ k : ℕ, a.val = k → ∃ r, call c (opFact p num? ofNum) [x] s = (.ok r, s) ∧
      IsResult c ofNum x r [w] ⟨(k.factorial : ℤ), 1⟩) ∧
    ((¬ ∃ k : ℕ, a.val = k) → ∃ e, call c (opFact p num? ofNum) [x] s = (.error e, s)) := by
  obtain ⟨hok, herr⟩ := unary_call (σ := σ) (name := "fact") (f := fun x => do
      if Number.toDecimal p x < 0 then .error (.calc "Operator requires positive integers")
      else
        if ← notInteger p x then .error (.calc "Operator requires positive integers")
        else liftErr (Number.ofInt p ((Number.toInt p x).toNat.factorial : ℤ))) hc hn hx hw (.inr hu) s
  constructor
  · rintro k hk
    have e : a = ⟨k, 1⟩ := canonical_ext ha (canonical_int k) (by rw [hk, val_int]; simp)
    subst e
    refine hok _ ?_
    have hkd : |(k : ℤ)| < 10 ^ p := by simpa using hd
    have ht : Number.toDecimal p ⟨(k : ℤ), 1⟩ = (k : ℤ) := toDecimal_int hkd
    rw [if_neg (by rw [ht]; push_cast; exact not_lt.mpr (Nat.cast_nonneg k)), notInteger_spec hp ha hd]
    simp only [bind, Except.bind, ne_eq, not_true_eq_false, decide_false, Bool.false_eq_true, if_false]
    rw [ofInt_eq hp]
    simp only [liftErr, Number.toInt, ht, truncQ_intCast, Int.toNat_natCast]
  · intro hk
    by_cases hneg : Number.toDecimal p a < 0
    · exact herr _ (if_pos hneg)
    · refine herr (.calc "Operator requires positive integers") ?_
      rw [if_neg hneg, notInteger_spec hp ha hd]
      have h0 : 0 ≤ a.val := (toDecimal_sign hp a).mp (not_lt.mp hneg)
      have : a.den ≠ 1 := by
        intro h1
        apply hk
        have hv : a.val = a.num := by unfold val; rw [h1]; simp
        rw [hv] at h0
        have h0' : 0 ≤ a.num := by exact_mod_cast h0
        exact ⟨a.num.toNat, by rw [hv]; exact_mod_cast (Int.toNat_of_nonneg h0').symm⟩
      simp [bind, Except.bind, this]

/-! ## Rounding to places -/

/-- The number of places a rounding function is asked for, by its remaining arguments. -/
inductive Places (c : Calc S U R K) (num? : S → Option Number) (p : ℕ) :
    List (Opd S U R) → List S → ℤ → Prop
  | none : Places c num? p [] [] 0
  | given {y : Opd S U R} {w : S} {b : Number} {n : ℤ} (hy : IsNum c y w) (hw : num? w = some b)
    (hb : Number.toInt p b = n) : Places c num? p [y] [w] n

theorem rounding_call (hc : HasNumbers c) (hn : ∀ n, c.isNumber (ofNum n) = true)
    {base : S → ℕ} {offset : S → ℤ} {name : String} {f : Number → Except Err Number}
    {x : Opd S U R} {ys : List (Opd S U R)} {w : S} {ws : List S} {a : Number} {places : ℤ}
    (hx : IsNum c x w) (hw : num? w = some a) (hy : Places c num? p ys ws places) (s : σ) :
    (∀ n, scaled p f (base w) (places + offset w) a = .ok n →
      ∃ r, call c (opRounding p num? ofNum base offset name f) (x :: ys) s = (.ok r, s) ∧
        IsResult c ofNum x r (w :: ws) n) ∧
    (∀ e, scaled p f (base w) (places + offset w) a = .error e →
      ∃ e', call c (opRounding p num? ofNum base offset name f) (x :: ys) s = (.error e', s)) := by
  have hl' : ∀ nums, normalised c (opRounding (σ := σ) (R := R) p num? ofNum base offset name f) nums
      = .ok (nums, none) := by
    intro nums
    unfold normalised
    cases c.normalise <;> rfl
  cases hy with
  | none =>
    rw [call_numbers (op := opRounding p num? ofNum base offset name f) ⟨rfl, rfl, rfl, rfl⟩ hc
      (.cons hx .nil) (by intro m hm; cases hm; simp) (by intro m hm; cases hm; simp)]
    simp only [List.map_cons, List.map_nil, List.zip_cons_cons, List.zip_nil_right, hl',
      List.zipWith_cons_cons, List.zipWith_nil_right, setNumbers]
    constructor
    · intro n hfn
      simp only [opRounding, numOp, numberOf, hw, bind, Except.bind, pure, Except.pure, hfn, liftErr]
      refine ⟨_, rfl, ?_⟩
      unfold finishResult IsResult
      cases hk : List.findSome? c.cast [w] <;> simp [hn]
    · intro e hfe
      simp only [opRounding, numOp, numberOf, hw, bind, Except.bind, hfe]
      cases e <;> exact ⟨_, rfl⟩
  | given hy hw' hb =>
    rename_i y w' b
    rw [call_numbers (op := opRounding p num? ofNum base offset name f) ⟨rfl, rfl, rfl, rfl⟩ hc
      (.cons hx (.cons hy .nil)) (by intro m hm; cases hm; simp) (by intro m hm; cases hm; simp)]
    simp only [List.map_cons, List.map_nil, List.zip_cons_cons, List.zip_nil_right, hl',
      List.zipWith_cons_cons, List.zipWith_nil_right, setNumbers]
    constructor
    · intro n hfn
      simp only [opRounding, numOp, numberOf, hw, hw', hb, bind, Except.bind, pure, Except.pure, hfn, liftErr]
      refine ⟨_, rfl, ?_⟩
      unfold finishResult IsResult
      cases hk : List.findSome? c.cast [w, w'] <;> simp [hn]
    · intro e hfe
      simp only [opRounding, numOp, numberOf, hw, hw', hb, bind, Except.bind, pure, Except.pure, hfe]
      cases e <;> exact ⟨_, rfl⟩

/-- **C66**: `floor(x, n)`, `ceil(x, n)` and `round(x, n)` are the greatest number with `n` places
not above `x`, the least not below it and the nearest one (ties away from zero), where the places
are those of the base `x` is shown in, and are counted after the percent shift if `x` is a
percentage. -/
theorem C66_rounding (hp : 1 ≤ p) (hc : HasNumbers c) (hn : ∀ n, c.isNumber (ofNum n) = true)
    {base : S → ℕ} {offset : S → ℤ} {x : Opd S U R} {ys : List (Opd S U R)} {w : S} {ws : List S}
    {a : Number} {places : ℤ} {n : ℕ} (hx : IsNum c x w) (hw : num? w = some a)
    (hy : Places c num? p ys ws places) (ha : a.Canonical) (hb : 2 ≤ base w)
    (hpl : places + offset w = n) (h1 : 10 * |a.num * (base w : ℤ) ^ n| + 10 < 10 ^ p)
    (h2 : a.den < 10 ^ p) (h3 : (base w : ℤ) ^ n < 10 ^ p) (s : σ) :
    (∃ r q, call c (opFloor p num? ofNum base offset) (x :: ys) s = (.ok r, s) ∧
      IsResult c ofNum x r (w :: ws) q ∧ q.Canonical ∧ IsFloorAt (base w) n a.val q.val) ∧
    (∃ r q, call c (opCeil p num? ofNum base offset) (x :: ys) s = (.ok r, s) ∧
      IsResult c ofNum x r (w :: ws) q ∧ q.Canonical ∧ IsCeilAt (base w) n a.val q.val) ∧
    (∃ r q, call c (opRound p num? ofNum base offset) (x :: ys) s = (.ok r, s) ∧
      IsResult c ofNum x r (w :: ws) q ∧ q.Canonical ∧ IsRoundAt (base w) n a.val q.val) := by
  refine ⟨?_, ?_, ?_⟩
  · obtain ⟨q, hq, hqc, hqv⟩ := scaled_spec hp (f := fun v => .ok (Number.floor p v)) hb ha h1 h2 h3
      (g := fun q => ⌊q⌋) (by
        intro v hv h
        have hh : 5 * |v.num| < 10 ^ p := by have := abs_nonneg v.num; omega
        simp only [Number.floor, floor_toDecimal hp hv.1 hh]) (by
        intro q
        have h1 := Int.floor_le q
        have h2 := Int.lt_floor_add_one q
        rw [abs_le]
        constructor <;> cases abs_cases q <;> linarith)
    obtain ⟨r, hr, hres⟩ := (rounding_call (name := "floor") (f := fun v => .ok (Number.floor p v))
      (base := base) (offset := offset) hc hn hx hw hy s).1 q (by rw [hpl]; exact hq)
    exact ⟨r, q, hr, hres, hqc, by rw [hqv]; exact floorAt hb _⟩
  · obtain ⟨q, hq, hqc, hqv⟩ := scaled_spec hp (f := fun v => .ok (Number.ceil p v)) hb ha h1 h2 h3
      (g := fun q => ⌈q⌉) (by
        intro v hv h
        have hh : 5 * |v.num| < 10 ^ p := by have := abs_nonneg v.num; omega
        simp only [Number.ceil, ceil_toDecimal hp hv.1 hh]) (by
        intro q
        have h1 := Int.le_ceil q
        have h2 := Int.ceil_lt_add_one q
        rw [abs_le]
        constructor <;> cases abs_cases q <;> linarith)
    obtain ⟨r, hr, hres⟩ := (rounding_call (name := "ceil") (f := fun v => .ok (Number.ceil p v))
      (base := base) (offset := offset) hc hn hx hw hy s).1 q (by rw [hpl]; exact hq)
    exact ⟨r, q, hr, hres, hqc, by rw [hqv]; exact ceilAt hb _⟩
  · obtain ⟨q, hq, hqc, hqv⟩ := scaled_spec hp (f := fun v => Number.round p v 0) hb ha h1 h2 h3
      (g := fun q => rhu q) (by
        intro v hv h
        rw [round_exact hp 0 hv.1 (by simpa using h) (by omega)]
        simp) (by
        intro q
        have h1 := rhu_abs_sub_le q
        rw [abs_le] at h1 ⊢
        constructor <;> cases abs_cases q <;> linarith)
    obtain ⟨r, hr, hres⟩ := (rounding_call (name := "round") (f := fun v => Number.round p v 0)
      (base := base) (offset := offset) hc hn hx hw hy s).1 q (by rw [hpl]; exact hq)
    exact ⟨r, q, hr, hres, hqc, by rw [hqv]; exact roundAt hb _⟩

/-- **C66**: asking for a negative number of places (after the percent shift) is an error. -/
theorem C66_negative_places (hc : HasNumbers c) (hn : ∀ n, c.isNumber (ofNum n) = true)
    {base : S → ℕ} {offset : S → ℤ} {x : Opd S U R} {ys : List (Opd S U R)} {w : S} {ws : List S}
    {a : Number} {places : ℤ} (hx : IsNum c x w) (hw : num? w = some a)
    (hy : Places c num? p ys ws places) (hneg : places + offset w < 0) (s : σ) :
    (∃ e, call c (opFloor p num? ofNum base offset) (x :: ys) s = (.error e, s)) ∧
    (∃ e, call c (opCeil p num? ofNum base offset) (x :: ys) s = (.error e, s)) ∧
    (∃ e, call c (opRound p num? ofNum base offset) (x :: ys) s = (.error e, s)) := by
  refine ⟨?_, ?_, ?_⟩ <;>
    exact (rounding_call (base := base) (offset := offset) hc hn hx hw hy s).2 _ (if_pos hneg)

/-! ## Functions of two numbers -/

/-- Two numbers and the result of an operation whose result takes the unit found by the
normaliser. -/
theorem arith_call (hc : HasNumbers c) (hn : ∀ n, c.isNumber (ofNum n) = true) {name : String}
    {f : Number → Number → Except Err Number} {x y : Opd S U R} {v w : S} {a b : Number}
    (hx : IsNum c x v) (hy : IsNum c y w) (hva : num? v = some a) (hwb : num? w = some b)
    (hl : LeavesPlain c) (hux : x.unit = none) (huy : y.unit = none) (s : σ) :
    (∀ n, f a b = .ok n → ∃ r, call c (opArith num? ofNum name f) [x, y] s = (.ok r, s) ∧
      IsResult c ofNum x r [v, w] n) ∧
    (∀ e, f a b = .error e → ∃ e', call c (opArith num? ofNum name f) [x, y] s = (.error e', s)) := by
  rw [call_numbers (op := opArith num? ofNum name f) ⟨rfl, rfl, rfl, rfl⟩ hc
    (.cons hx (.cons hy .nil)) (by intro m hm; cases hm; simp) (by intro m hm; cases hm; simp)]
  simp only [List.map_cons, List.map_nil, List.zip_cons_cons, List.zip_nil_right,
    plain_pair hl hux huy, List.zipWith_cons_cons, List.zipWith_nil_right, setNumbers]
  constructor
  · intro n hfn
    simp only [opArith, numOp, two, numberOf, hva, hwb, bind, Except.bind, pure, Except.pure, hfn, liftErr]
    refine ⟨_, rfl, ?_⟩
    unfold finishResult IsResult
    cases hk : List.findSome? c.cast [v, w] <;> simp [hn, hux]
  · intro e hfe
    simp only [opArith, numOp, two, numberOf, hva, hwb, bind, Except.bind, pure, Except.pure, hfe]
    cases e <;> exact ⟨_, rfl⟩

/-- **C66**: `x % y` is what is left of `x` after taking away a whole number of `y`s: it is
smaller in size than `y` and has the sign of `x`. -/
theorem C66_modulus (hc : HasNumbers c) (hn : ∀ n, c.isNumber (ofNum n) = true) {x y : Opd S U R}
    {v w : S} {a b : Number} (hx : IsNum c x v) (hy : IsNum c y w) (hva : num? v = some a)
    (hwb : num? w = some b) (hl : LeavesPlain c) (hux : x.unit = none) (huy : y.unit = none)
    (ha : a.Canonical) (hb : b.Canonical) (h0 : b.val ≠ 0)
    (h1 : |a.num * (Int.lcm a.den b.den : ℤ)| < 10 ^ p) (h2 : |b.num * (Int.lcm a.den b.den : ℤ)| < 10 ^ p)
    (h3 : (Int.lcm a.den b.den : ℤ) < 10 ^ p) (s : σ) :
    ∃ r n, call c (opModulus p num? ofNum) [x, y] s = (.ok r, s) ∧ IsResult c ofNum x r [v, w] n ∧
      |n.val| < |b.val| ∧ (∃ k : ℤ, a.val = k * b.val + n.val) ∧ (0 ≤ a.val → 0 ≤ n.val) ∧
      (a.val ≤ 0 → n.val ≤ 0) := by
  obtain ⟨n, hn', -, hlt, ⟨k, hk⟩, hs⟩ := C07_mod p a b ha hb h0 h1 h2 h3
  obtain ⟨r, hr, hres⟩ := (arith_call (σ := σ) (name := "operator %") (f := Number.mod p) hc hn hx hy hva hwb hl
    hux huy s).1 n hn'
  exact ⟨r, n, hr, hres, hlt, ⟨k, by linarith⟩, hs⟩

theorem integers_call (hp : 1 ≤ p) (hc : HasNumbers c) (hn : ∀ n, c.isNumber (ofNum n) = true) {name : String}
    {f : ℤ → ℤ → ℕ} {x y : Opd S U R} {v w : S} {a b : Number}
    (hx : IsNum c x v) (hy : IsNum c y w) (hva : num? v = some a) (hwb : num? w = some b)
    (ha : a.Canonical) (hb : b.Canonical) (hda : |a.num * a.den| < 10 ^ p) (hdb : |b.num * b.den| < 10 ^ p)
    (hl : LeavesPlain c) (hux : x.unit = none) (huy : y.unit = none) (s : σ) :
    (∀ i j : ℤ, a.val = i → b.val = j →
      ∃ r, call c (opIntegers p num? ofNum name f) [x, y] s = (.ok r, s) ∧
        IsResult c ofNum x r [v, w] ⟨f i j, 1⟩) ∧
    ((¬ ∃ i : ℤ, a.val = i) ∨ (¬ ∃ j : ℤ, b.val = j) →
      ∃ e, call c (opIntegers p num? ofNum name f) [x, y] s = (.error e, s)) := by
  rw [call_numbers (op := opIntegers p num? ofNum name f) ⟨rfl, rfl, rfl, rfl⟩ hc
    (.cons hx (.cons hy .nil)) (by intro m hm; cases hm; simp) (by intro m hm; cases hm; simp)]
  simp only [List.map_cons, List.map_nil, List.zip_cons_cons, List.zip_nil_right,
    plain_pair hl hux huy, List.zipWith_cons_cons, List.zipWith_nil_right, setNumbers]
  simp only [opIntegers, numOp, two, numberOf, hva, hwb, bind, Except.bind, pure, Except.pure,
    notInteger_spec hp ha hda, notInteger_spec hp hb hdb]
  constructor
  · intro i j hi hj
    have ea : a = ⟨i, 1⟩ := canonical_ext ha (canonical_int i) (by rw [hi, val_int])
    have eb : b = ⟨j, 1⟩ := canonical_ext hb (canonical_int j) (by rw [hj, val_int])
    subst ea eb
    simp only [mul_one] at hda hdb
    simp only [ne_eq, not_true_eq_false, decide_false, Bool.false_eq_true, if_false, ofInt_eq hp, liftErr,
      Number.toInt, toDecimal_int hda, toDecimal_int hdb, truncQ_intCast]
    refine ⟨_, rfl, ?_⟩
    unfold finishResult IsResult
    cases hk : List.findSome? c.cast [v, w] <;> simp [hn, hux]
  · intro h
    have den : ∀ q : Number, (¬ ∃ i : ℤ, q.val = i) → q.den ≠ 1 := by
      intro q hq h1
      exact hq ⟨q.num, by unfold val; rw [h1]; simp⟩
    by_cases hd : a.den = 1
    · have := den b (h.resolve_left (by
        intro hh; exact den a hh hd))
      simp [hd, this]
    · simp [hd]

/-- **C66**: `gcd` of two whole numbers is their greatest common divisor and `lcm` their least
common multiple; a fraction is rejected. -/
theorem C66_gcd_lcm (hp : 1 ≤ p) (hc : HasNumbers c) (hn : ∀ n, c.isNumber (ofNum n) = true)
    {x y : Opd S U R} {v w : S} {a b : Number}
    (hx : IsNum c x v) (hy : IsNum c y w) (hva : num? v = some a) (hwb : num? w = some b)
    (ha : a.Canonical) (hb : b.Canonical) (hda : |a.num * a.den| < 10 ^ p) (hdb : |b.num * b.den| < 10 ^ p)
    (hl : LeavesPlain c) (hux : x.unit = none) (huy : y.unit = none) (s : σ) :
    (∀ i j : ℤ, a.val = i → b.val = j →
      (∃ r d, call c (opGcd p num? ofNum) [x, y] s = (.ok r, s) ∧
        IsResult c ofNum x r [v, w] ⟨(d : ℕ), 1⟩ ∧ IsGreatestDivisor i j d) ∧
      (∃ r m, call c (opLcm p num? ofNum) [x, y] s = (.ok r, s) ∧
        IsResult c ofNum x r [v, w] ⟨(m : ℕ), 1⟩ ∧ IsLeastMultiple i j m)) ∧
    ((¬ ∃ i : ℤ, a.val = i) ∨ (¬ ∃ j : ℤ, b.val = j) →
      (∃ e, call c (opGcd p num? ofNum) [x, y] s = (.error e, s)) ∧
      ∃ e, call c (opLcm p num? ofNum) [x, y] s = (.error e, s)) := by
  have key := fun name f => integers_call (σ := σ) (name := name) (f := f) hp hc hn hx hy hva hwb ha hb hda hdb hl hux huy s
  refine ⟨fun i j hi hj => ⟨?_, ?_⟩, fun h => ⟨(key _ _).2 h, (key _ _).2 h⟩⟩
  · obtain ⟨r, h1, h2⟩ := (key "gcd" Int.gcd).1 i j hi hj
    exact ⟨r, _, h1, h2, Int.gcd_dvd_left .., Int.gcd_dvd_right .., fun e h1 h2 => Int.dvd_coe_gcd h1 h2⟩
  · obtain ⟨r, h1, h2⟩ := (key "lcm" Int.lcm).1 i j hi hj
    exact ⟨r, _, h1, h2, Int.dvd_lcm_left .., Int.dvd_lcm_right .., fun e h1 h2 => Int.coe_lcm_dvd h1 h2⟩

end
end MC.Props
