import Verif.Props.Numerical2

/-! # C66 for numbers with units -/

namespace MC.Props
open MC.Numerical MC.Numeric MC.Arrays MC.Boolean MC.Number MC.Spec
set_option linter.unusedSectionVars false

section
variable {S U R K σ : Type} {c : Calc S U R K} {num? : S → Option Number} {ofNum : Number → S}
  {ofBool : Bool → S} {p : ℕ}

/-- The unit normaliser is installed, and leaves a single number as it is (`C66_normalise_one` shows this of the model of the
normaliser). -/
def KeepsOne (c : Calc S U R K) (x : Opd S U R) (w : S) : Prop :=
  ∃ f, c.normalise = some f ∧ f [(w, x.unit)] false false = .ok ([(w, x.unit)], x.unit)

/-- The unit normaliser is installed, and brings the two numbers to these, the result to the unit `ru`. -/
def Brings (c : Calc S U R K) (x y : Opd S U R) (v w : S) (x' y' : S × Option U) (ru : Option U) : Prop :=
  ∃ f, c.normalise = some f ∧ f [(v, x.unit), (w, y.unit)] false false = .ok ([x', y'], ru)

theorem keeps_one {x : Opd S U R} {w : S} (h : KeepsOne c x w) {name : String} {f : Number → Except Raise Number} :
    normalised c (opUnary (σ := σ) (R := R) num? ofNum name f) [(w, x.unit)] = .ok ([(w, x.unit)], x.unit) := by
  obtain ⟨f, h1, h2⟩ := h
  simp only [normalised, h1]
  exact h2

theorem brings {x y : Opd S U R} {v w : S} {x' y' : S × Option U} {ru : Option U} (h : Brings c x y v w x' y' ru)
    {name : String} {f : ℤ → ℤ → ℕ} :
    normalised c (opIntegers (σ := σ) (R := R) p num? ofNum name f) [(v, x.unit), (w, y.unit)] = .ok ([x', y'], ru) := by
  obtain ⟨f, h1, h2⟩ := h
  simp only [normalised, h1]
  exact h2

/-- **C66**: `abs` of a quantity, with its unit. -/
theorem C66_abs_unit (hc : HasNumbers c) (hn : ∀ n, c.isNumber (ofNum n) = true) {x : Opd S U R} {w : S}
    {a : Number} (hx : IsNum c x w) (hw : num? w = some a) (ha : a.Canonical) (hd : |a.num| < 10 ^ p)
    (hu : KeepsOne c x w) (s : σ) :
    ∃ r n, call c (opAbs p num? ofNum) [x] s = (.ok r, s) ∧ IsResult c ofNum x r [w] n ∧
      n.Canonical ∧ n.val = |a.val| := by
  obtain ⟨r, h1, h2⟩ := (unary_call (σ := σ) (name := "abs") (f := fun x => .ok (Number.abs p x)) hc hn hx hw
    (.inl (keeps_one hu)) s).1 _ rfl
  exact ⟨r, _, h1, h2, C02_abs_exact p a ha hd⟩

/-- **C66**: `fact` of a quantity, with its unit. -/
theorem C66_fact_unit (hp : 1 ≤ p) (hc : HasNumbers c) (hn : ∀ n, c.isNumber (ofNum n) = true) {x : Opd S U R} {w : S}
    {a : Number} (hx : IsNum c x w) (hw : num? w = some a) (ha : a.Canonical)
    (hd : |a.num * a.den| < 10 ^ p) (hu : KeepsOne c x w) (s : σ) :
    (∀ k : ℕ, a.val = k → ∃ r, call c (opFact p num? ofNum) [x] s = (.ok r, s) ∧
      IsResult c ofNum x r [w] ⟨(k.factorial : ℤ), 1⟩) ∧
    ((¬ ∃ k : ℕ, a.val = k) → ∃ e, call c (opFact p num? ofNum) [x] s = (.error e, s)) := by
  obtain ⟨hok, herr⟩ := unary_call (σ := σ) (name := "fact") (f := fun x => do
      if Number.toDecimal p x < 0 then .error (.calc "Operator requires positive integers")
      else
        if ← notInteger p x then .error (.calc "Operator requires positive integers")
        else liftErr (Number.ofInt p ((Number.toInt p x).toNat.factorial : ℤ))) hc hn hx hw (.inl (keeps_one hu)) s
  constructor
  · rintro k hk
    have e : a = ⟨k, 1⟩ := canonical_ext ha (canonical_int k) (by rw [hk, val_int]; simp)
    subst e
    refine hok _ ?_
    have hkd : |(k : ℤ)| < 10 ^ p := by simpa using hd
    have ht : Number.toDecimal p ⟨(k : ℤ), 1⟩ = (k : ℤ) := toDecimal_int hkd
    rw [if_neg (by rw [ht]; push_cast; exact not_lt.mpr (Nat.cast_nonneg k)), notInteger_spec hp ha hd]
    simp only [bind, Except.bind, ne_eq, not_true_eq_false, decide_false, Bool.false_eq_true, if_false]
    rw [ofInt_eq hp]
    simp only [liftErr, Number.toInt, ht, truncQ_intCast, Int.toNat_natCast]
  · intro hk
    by_cases hneg : Number.toDecimal p a < 0
    · exact herr _ (if_pos hneg)
    · refine herr (.calc "Operator requires positive integers") ?_
      rw [if_neg hneg, notInteger_spec hp ha hd]
      have h0 : 0 ≤ a.val := (toDecimal_sign hp a).mp (not_lt.mp hneg)
      have : a.den ≠ 1 := by
        intro h1
        apply hk
        have hv : a.val = a.num := by unfold val; rw [h1]; simp
        rw [hv] at h0
        have h0' : 0 ≤ a.num := by exact_mod_cast h0
        exact ⟨a.num.toNat, by rw [hv]; exact_mod_cast (Int.toNat_of_nonneg h0').symm⟩
      simp [bind, Except.bind, this]

theorem integers_units (hp : 1 ≤ p) (hc : HasNumbers c) (hn : ∀ n, c.isNumber (ofNum n) = true) {name : String}
    {f : ℤ → ℤ → ℕ} {x y : Opd S U R} {v w v' w' : S} {a b : Number} {u₁ u₂ ru : Option U}
    (hx : IsNum c x v) (hy : IsNum c y w) (hf : Brings c x y v w (v', u₁) (w', u₂) ru) (hva : num? v' = some a) (hwb : num? w' = some b)
    (ha : a.Canonical) (hb : b.Canonical) (hda : |a.num * a.den| < 10 ^ p) (hdb : |b.num * b.den| < 10 ^ p)
    (s : σ) :
    (∀ i j : ℤ, a.val = i → b.val = j →
      ∃ r, call c (opIntegers p num? ofNum name f) [x, y] s = (.ok r, s) ∧
        IsResult c ofNum { x with unit := u₁ } r [v, w] ⟨f i j, 1⟩) ∧
    ((¬ ∃ i : ℤ, a.val = i) ∨ (¬ ∃ j : ℤ, b.val = j) →
      ∃ e, call c (opIntegers p num? ofNum name f) [x, y] s = (.error e, s)) := by
  rw [call_numbers (op := opIntegers p num? ofNum name f) ⟨rfl, rfl, rfl, rfl⟩ hc
    (.cons hx (.cons hy .nil)) (by intro m hm; cases hm; simp) (by intro m hm; cases hm; simp)]
  simp only [List.map_cons, List.map_nil, List.zip_cons_cons, List.zip_nil_right,
    brings hf, List.zipWith_cons_cons, List.zipWith_nil_right, setNumbers]
  simp only [opIntegers, numOp, two, numberOf, hva, hwb, bind, Except.bind, pure, Except.pure,
    notInteger_spec hp ha hda, notInteger_spec hp hb hdb]
  constructor
  · intro i j hi hj
    have ea : a = ⟨i, 1⟩ := canonical_ext ha (canonical_int i) (by rw [hi, val_int])
    have eb : b = ⟨j, 1⟩ := canonical_ext hb (canonical_int j) (by rw [hj, val_int])
    subst ea eb
    simp only [mul_one] at hda hdb
    simp only [ne_eq, not_true_eq_false, decide_false, Bool.false_eq_true, if_false, ofInt_eq hp, liftErr,
      Number.toInt, toDecimal_int hda, toDecimal_int hdb, truncQ_intCast]
    refine ⟨_, rfl, ?_⟩
    unfold finishResult IsResult
    cases hk : List.findSome? c.cast [v, w] <;> simp [hn]
  · intro h
    have den : ∀ q : Number, (¬ ∃ i : ℤ, q.val = i) → q.den ≠ 1 := by
      intro q hq h1
      exact hq ⟨q.num, by unfold val; rw [h1]; simp⟩
    by_cases hd : a.den = 1
    · have := den b (h.resolve_left (by
        intro hh; exact den a hh hd))
      simp [hd, this]
    · simp [hd]

/-- **C66**: `gcd` and `lcm` of two quantities, brought to one unit: their measures in this unit have to be whole, and the result
has this unit. -/
theorem C66_gcd_lcm_units (hp : 1 ≤ p) (hc : HasNumbers c) (hn : ∀ n, c.isNumber (ofNum n) = true)
    {x y : Opd S U R} {v w v' w' : S} {a b : Number} {u₁ u₂ ru : Option U}
    (hx : IsNum c x v) (hy : IsNum c y w) (hf : Brings c x y v w (v', u₁) (w', u₂) ru) (hva : num? v' = some a) (hwb : num? w' = some b)
    (ha : a.Canonical) (hb : b.Canonical) (hda : |a.num * a.den| < 10 ^ p) (hdb : |b.num * b.den| < 10 ^ p)
    (s : σ) :
    (∀ i j : ℤ, a.val = i → b.val = j →
      (∃ r d, call c (opGcd p num? ofNum) [x, y] s = (.ok r, s) ∧
        IsResult c ofNum { x with unit := u₁ } r [v, w] ⟨(d : ℕ), 1⟩ ∧ IsGreatestDivisor i j d) ∧
      (∃ r m, call c (opLcm p num? ofNum) [x, y] s = (.ok r, s) ∧
        IsResult c ofNum { x with unit := u₁ } r [v, w] ⟨(m : ℕ), 1⟩ ∧ IsLeastMultiple i j m)) ∧
    ((¬ ∃ i : ℤ, a.val = i) ∨ (¬ ∃ j : ℤ, b.val = j) →
      (∃ e, call c (opGcd p num? ofNum) [x, y] s = (.error e, s)) ∧
      ∃ e, call c (opLcm p num? ofNum) [x, y] s = (.error e, s)) := by
  have key := fun name f => integers_units (σ := σ) (name := name) (f := f) hp hc hn hx hy hf hva hwb ha hb hda hdb s
  refine ⟨fun i j hi hj => ⟨?_, ?_⟩, fun h => ⟨(key _ _).2 h, (key _ _).2 h⟩⟩
  · obtain ⟨r, h1, h2⟩ := (key "gcd" Int.gcd).1 i j hi hj
    exact ⟨r, _, h1, h2, Int.gcd_dvd_left .., Int.gcd_dvd_right .., fun e h1 h2 => Int.dvd_coe_gcd h1 h2⟩
  · obtain ⟨r, h1, h2⟩ := (key "lcm" Int.lcm).1 i j hi hj
    exact ⟨r, _, h1, h2, Int.dvd_lcm_left .., Int.dvd_lcm_right .., fun e h1 h2 => Int.coe_lcm_dvd h1 h2⟩


/-- **C66**: `x % y` of two quantities, brought to one unit. -/
theorem C66_modulus_units (hc : HasNumbers c) (hn : ∀ n, c.isNumber (ofNum n) = true) {x y : Opd S U R}
    {v w v' w' : S} {a b : Number} {u₁ u₂ ru : Option U} (hx : IsNum c x v) (hy : IsNum c y w)
    (hf : Brings c x y v w (v', u₁) (w', u₂) ru) (hva : num? v' = some a) (hwb : num? w' = some b)
    (ha : a.Canonical) (hb : b.Canonical) (h0 : b.val ≠ 0)
    (h1 : |a.num * (Int.lcm a.den b.den : ℤ)| < 10 ^ p) (h2 : |b.num * (Int.lcm a.den b.den : ℤ)| < 10 ^ p)
    (h3 : (Int.lcm a.den b.den : ℤ) < 10 ^ p) (s : σ) :
    ∃ r n, call c (opModulus p num? ofNum) [x, y] s = (.ok r, s) ∧ IsResult c ofNum { x with unit := ru } r [v, w] n ∧
      |n.val| < |b.val| ∧ (∃ k : ℤ, a.val = k * b.val + n.val) ∧ (0 ≤ a.val → 0 ≤ n.val) ∧
      (a.val ≤ 0 → n.val ≤ 0) := by
  obtain ⟨n, hn', -, hlt, ⟨k, hk⟩, hs⟩ := C07_mod p a b ha hb h0 h1 h2 h3
  obtain ⟨f, hf1, hf2⟩ := hf
  obtain ⟨r, hr, hres⟩ := (C61_common_unit (σ := σ) hc hn hf1 hx hy hva hwb s).2 hf2 n hn'
  exact ⟨r, n, hr, hres, hlt, ⟨k, by linarith⟩, hs⟩

/-- **C66**: `x \\ y` of two quantities, brought to one unit, is the floor of what `/` answers for them, in the unit of that
answer; when `/` raises, so does `\\`. -/
theorem C66_integer_division_units (hp : 1 ≤ p) (hc : HasNumbers c) (hn : ∀ n, c.isNumber (ofNum n) = true)
    {divide : Operation S U R σ} {x y : Opd S U R} {v w v' w' : S} {u₁ u₂ ru : Option U} (hx : IsNum c x v) (hy : IsNum c y w)
    (hf : Brings c x y v w (v', u₁) (w', u₂) ru) (s s' : σ) :
    (∀ r n, call c divide [⟨.sc v', u₁, none, none⟩, ⟨.sc w', u₂, none, none⟩] s = (.ok r, s') →
      numberOf num? r = .ok n → n.Canonical → 5 * |n.num| < 10 ^ p →
      ∃ t q, call c (opIntDivide p num? ofNum c divide) [x, y] s = (.ok t, s') ∧
        IsResult c ofNum r t [v, w] q ∧ q.Canonical ∧ q.val = ⌊n.val⌋) ∧
    (∀ e, call c divide [⟨.sc v', u₁, none, none⟩, ⟨.sc w', u₂, none, none⟩] s = (.error e, s') →
      ∃ e', call c (opIntDivide p num? ofNum c divide) [x, y] s = (.error e', s')) := by
  have hno : normalised c (opIntDivide p num? ofNum c divide) [(v, x.unit), (w, y.unit)]
      = .ok ([(v', u₁), (w', u₂)], ru) := by
    obtain ⟨f, h1, h2⟩ := hf
    simp only [normalised, h1]
    exact h2
  rw [call_numbers (op := opIntDivide p num? ofNum c divide) ⟨rfl, rfl, rfl, rfl⟩ hc
    (.cons hx (.cons hy .nil)) (by intro m hm; cases hm; simp) (by intro m hm; cases hm; simp)]
  simp only [List.map_cons, List.map_nil, List.zip_cons_cons, List.zip_nil_right,
    hno, List.zipWith_cons_cons, List.zipWith_nil_right, setNumbers]
  constructor
  · intro r n hr hnum hcan hd
    obtain ⟨h1, h2⟩ := C09_floor p hp n hcan hd
    simp only [opIntDivide, numOp, hr, hnum]
    refine ⟨_, _, rfl, ?_, h1, h2⟩
    unfold finishResult IsResult
    cases hk : List.findSome? c.cast [v, w] <;> simp [hn]
  · intro e he
    simp only [opIntDivide, numOp, he]
    exact ⟨_, rfl⟩

/-- **C66**: when the quantities have no common unit, none of these operations answers. -/
theorem C66_no_common_unit (hc : HasNumbers c) {x y : Opd S U R} {v w : S} {f} {e : Raise} (hx : IsNum c x v) (hy : IsNum c y w)
    (h1 : c.normalise = some f) (h2 : f [(v, x.unit), (w, y.unit)] false false = .error e) {divide : Operation S U R σ} (s : σ) :
    (∃ e', call c (opModulus p num? ofNum) [x, y] s = (.error e', s)) ∧
    (∃ e', call c (opGcd p num? ofNum) [x, y] s = (.error e', s)) ∧
    (∃ e', call c (opLcm p num? ofNum) [x, y] s = (.error e', s)) ∧
    (∃ e', call c (opIntDivide p num? ofNum c divide) [x, y] s = (.error e', s)) := by
  have key : ∀ op : Operation S U R σ, NumbersOnly op → op.minParams = some 2 → op.maxParams = some 2 →
      op.unitsNormalise = true → op.unitsMulti = false → op.unitsRelative = false → ∃ e', call c op [x, y] s = (.error e', s) := by
    intro op hop k1 k2 k3 k4 k5
    rw [call_numbers hop hc (.cons hx (.cons hy .nil)) (by intro m hm; rw [k1] at hm; cases hm; simp)
      (by intro m hm; rw [k2] at hm; cases hm; simp)]
    have hno : normalised c op [(v, x.unit), (w, y.unit)] = .error e := by
      simp only [normalised, h1, k3, k4, k5, if_true]
      exact h2
    simp only [List.map_cons, List.map_nil, List.zip_cons_cons, List.zip_nil_right, hno]
    exact ⟨_, rfl⟩
  exact ⟨key _ ⟨rfl, rfl, rfl, rfl⟩ rfl rfl rfl rfl rfl, key _ ⟨rfl, rfl, rfl, rfl⟩ rfl rfl rfl rfl rfl,
    key _ ⟨rfl, rfl, rfl, rfl⟩ rfl rfl rfl rfl rfl, key _ ⟨rfl, rfl, rfl, rfl⟩ rfl rfl rfl rfl rfl⟩

end

section
open MC.Unit MC.Unit.Spec
variable {U D K : Type} [DecidableEq U] [DecidableEq D] [Field K] [DecidableEq K] {pw : K → ℚ → K} {N : Norm U D K}

/-- **C66**: the normaliser leaves a single number as it is. -/
theorem C66_normalise_one (n : ℕ) (relative : Bool) (x : K × Option (PL U)) :
    normaliseInputs pw N n false relative [x] = some (.ok ([x], x.2)) := by
  obtain ⟨v, a⟩ := x
  cases a <;> rfl

/-- **C66**: what `%`, `gcd` and `lcm` work on are the measures of the two quantities in the unit of the result, for units
proportional to a base unit; so what holds of the measures (a remainder, a common divisor, a common multiple) holds of the
quantities. -/
theorem C66_measures (hL : Lawful pw N) {n : ℕ} {x y x' y' : K × Option (PL U)} {ru : Option (PL U)}
    (hx : Proportional N false (x.2.getD [])) (hy : Proportional N false (y.2.getD []))
    (h : normaliseInputs pw N n false false [x, y] = some (.ok ([x', y'], ru))) :
    x'.2 = ru ∧ ru = x.2 ∧ quantity pw N x = x'.1 * size pw N (ru.getD []) ∧
      quantity pw N y = y'.1 * size pw N (ru.getD []) := by
  obtain ⟨rfl, rfl, hc⟩ := normSame_pair h
  exact ⟨rfl, rfl, rfl, ((conversion_quantity hL hy hx hc).2).symm⟩

/-- **C66**: a remainder of the measures is a remainder of the quantities. -/
theorem C66_remainder [LinearOrder K] [IsStrictOrderedRing K] (hL : Lawful pw N) {n : ℕ} {x y x' y' : K × Option (PL U)}
    {ru : Option (PL U)} (hx : Proportional N false (x.2.getD [])) (hy : Proportional N false (y.2.getD []))
    (hs : 0 < size pw N (x.2.getD []))
    (h : normaliseInputs pw N n false false [x, y] = some (.ok ([x', y'], ru))) {r : K} {k : ℤ} (h1 : |r| < |y'.1|)
    (h2 : x'.1 = k * y'.1 + r) :
    |quantity pw N (r, ru)| < |quantity pw N y| ∧ quantity pw N x = k * quantity pw N y + quantity pw N (r, ru) := by
  obtain ⟨-, rfl, e1, e2⟩ := C66_measures hL hx hy h
  rw [e1, e2, h2]
  have e3 : quantity pw N (r, x.2) = r * size pw N (x.2.getD []) := rfl
  rw [e3, abs_mul, abs_mul]
  refine ⟨mul_lt_mul_of_pos_right h1 (abs_pos.mpr hs.ne'), ?_⟩
  ring

end

/-! ## Concrete cases -/

/-- `2 km % 300 m` is taken of the metres. -/
example : ∃ r n, call arrCalc (opModulus (σ := ℕ) 30 AS.num? (fun n => .n n none)) [len 2 true, len 300 false] 0 = (.ok r, 0) ∧
    IsResult arrCalc (fun n => .n n none) { len 2 true with unit := some false } r [.n ⟨2, 1⟩ none, .n ⟨300, 1⟩ none] n ∧
    ∃ k : ℤ, val ⟨2000, 1⟩ = k * val ⟨300, 1⟩ + n.val :=
  let ⟨r, n, h1, h2, _, h3, _⟩ := C66_modulus_units (p := 30) (σ := ℕ) (num? := AS.num?) (ofNum := fun n => .n n none)
    arrCalc_numbers (fun _ => rfl) (isNum_len 2 true) (isNum_len 300 false) ⟨_, rfl, rfl⟩ rfl rfl
    ⟨by norm_num, by decide⟩ ⟨by norm_num, by decide⟩ (by norm_num [val]) (by norm_num) (by norm_num) (by norm_num) 0
  ⟨r, n, h1, h2, h3⟩

/-- `gcd(2 km, 300 m)` is taken of the metres. -/
example : ∃ r d, call arrCalc (opGcd (σ := ℕ) 30 AS.num? (fun n => .n n none)) [len 2 true, len 300 false] 0 = (.ok r, 0) ∧
    IsResult arrCalc (fun n => .n n none) { len 2 true with unit := some false } r
      [.n ⟨2, 1⟩ none, .n ⟨300, 1⟩ none] ⟨(d : ℕ), 1⟩ ∧ IsGreatestDivisor 2000 300 d :=
  ((C66_gcd_lcm_units (p := 30) (σ := ℕ) (num? := AS.num?) (ofNum := fun n => .n n none) (by norm_num)
    arrCalc_numbers (fun _ => rfl) (isNum_len 2 true) (isNum_len 300 false) ⟨_, rfl, rfl⟩ rfl rfl
    ⟨by norm_num, by decide⟩ ⟨by norm_num, by decide⟩ (by norm_num) (by norm_num) 0).1
    2000 300 (by norm_num [val]) (by norm_num [val])).1

/-- `fact(5 m)` is `120 m`. -/
example : ∃ r, call arrCalc (opFact (σ := ℕ) 30 AS.num? (fun n => .n n none)) [len 5 false] 0 = (.ok r, 0) ∧
    IsResult arrCalc (fun n => .n n none) (len 5 false) r [.n ⟨5, 1⟩ none] ⟨120, 1⟩ :=
  (C66_fact_unit (p := 30) (σ := ℕ) (num? := AS.num?) (ofNum := fun n => .n n none) (by norm_num)
    arrCalc_numbers (fun _ => rfl) (isNum_len 5 false) rfl ⟨by norm_num, by decide⟩ (by norm_num)
    ⟨_, rfl, rfl⟩ 0).1 5 (by norm_num [val])

end MC.Props
