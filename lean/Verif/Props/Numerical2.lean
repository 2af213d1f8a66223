import Mathlib.Algebra.Order.Ring.Defs
import Verif.Props.Numerical
import Verif.Props.Units2
import Verif.Props.Stats
import Verif.Props.Operation

/-! # C65, C66: comparisons with units, negation, integer division; concrete cases -/

namespace MC.Props
open MC.Numerical MC.Numeric MC.Arrays MC.Boolean MC.Number MC.Spec
set_option linter.unusedSectionVars false

/-! ## Comparing quantities -/

section
open MC.Unit MC.Unit.Spec
variable {U D K : Type} [DecidableEq U] [DecidableEq D] [Field K]
variable {pw : K → ℚ → K} {N : Norm U D K}

/-- **C65**: the normaliser leaves numbers without units alone. -/
theorem C65_normalise_none (n : ℕ) (multi relative : Bool) {xs : List (K × Option (PL U))}
    (h : ∀ x ∈ xs, x.2 = none) :
    normaliseInputs pw N n multi relative xs = some (.ok (xs, none)) := by
  have : xs.filterMap (·.2) = [] := by
    rw [List.filterMap_eq_nil_iff]; exact h
  unfold normaliseInputs
  simp [this]

/-- **C65**: what the comparisons compare (the numbers after normalisation, see `C65_units`) is in
the order of the quantities, for units proportional to a base unit. -/
theorem C65_quantities [LinearOrder K] [IsStrictOrderedRing K] (hL : Lawful pw N) {n : ℕ}
    {x y x' y' : K × Option (PL U)} {ru : Option (PL U)}
    (hx : Proportional N false (x.2.getD [])) (hy : Proportional N false (y.2.getD []))
    (hs : 0 < size pw N (x.2.getD []))
    (h : normaliseInputs pw N n false false [x, y] = some (.ok ([x', y'], ru))) :
    (x'.1 < y'.1 ↔ quantity pw N x < quantity pw N y) ∧
    (x'.1 = y'.1 ↔ quantity pw N x = quantity pw N y) := by
  obtain ⟨rfl, -, hc⟩ := normSame_pair h
  have e := (conversion_quantity hL hy hx hc).2
  have e' : y'.1 * size pw N (x'.2.getD []) = quantity pw N y := e
  rw [← e']
  unfold quantity
  exact ⟨(mul_lt_mul_iff_left₀ hs).symm, (mul_left_inj' hs.ne').symm⟩

/-- **C65**: quantities of different dimensions are not compared: an error is raised.  Partial: for
the unit lists `C43_conversion_partial` covers. -/
theorem C65_dimensions_partial [DecidableEq K] (n : ℕ) (v w : K) {a b : PL U}
    (ha : Steady (contributions N a)) (hb : Steady (contributions N b))
    (hd : ∃ d, dimOf N a d ≠ dimOf N b d) :
    ∃ m, normaliseInputs pw N n false false [(v, some a), (w, some b)] = some (.error (.calc m)) := by
  obtain ⟨d, hd⟩ := hd
  obtain ⟨m, hm⟩ := (C43_conversion_partial (pw := pw) hb ha w false).2 ⟨d, fun h => hd h.symm⟩
  refine ⟨m, ?_⟩
  rw [normalise_pair, hm]
  rfl

end

section
variable {S U R K σ : Type} {c : Calc S U R K} {num? : S → Option Number} {ofNum : Number → S}
  {ofBool : Bool → S} {asBool : S → Option Bool} {p : ℕ}

/-! ## `not` -/

/-- **C65**: `not` answers the opposite truth value, so applying it twice gives back the first. -/
theorem C65_not (hc : HasLogic c asBool) (hab : ∀ b, asBool (ofBool b) = some b) {x : Opd S U R} {b : Bool} (hx : IsBool asBool x b) (s : σ) :
    call c (opNot asBool ofBool) [x] s = (.ok (truth ofBool (!b)), s) ∧
    ∃ r, call c (opNot asBool ofBool) [x] s = (.ok r, s) ∧
      call c (opNot asBool ofBool) [r] s = (.ok (truth ofBool b), s) := by
  have key : ∀ (y : Opd S U R) (d : Bool), IsBool asBool y d →
      call c (opNot asBool ofBool) [y] s = (.ok (truth ofBool (!d)), s) := by
    intro y d hy
    obtain ⟨v, hv, hd⟩ := hy
    have hsc : ∀ z ∈ [y], Strings.IsScalar z := by simp [Strings.IsScalar, hv]
    rw [call_direct (Strings.spreads_scalar hsc 0) (by
        intro h; simp [opNot, Operation.mustBe, Operation.onlyType, Operation.applies, ObjType.main] at h) rfl
      (by intro z hz; simp at hz; rw [hz, hv]; rfl)]
    have hbo : boolean asBool y = .ok d := by simp [boolean, hv, hd]
    have hval : validate c (opNot (σ := σ) asBool ofBool) [y] = .ok () := by
      simp [validate, opNot, checkValues, checkFrom, Operation.applies, anyType, validateInput,
        hc.boolean, validateBoolean, hbo, checkUnits]
    have hprep : prepare c (opNot (σ := σ) asBool ofBool) [y] = .ok ([y], none, none) := by
      simp [prepare, opNot, convertFrom, convertible, castOf, numbersFrom, Operation.canBe,
        Operation.applies, ObjType.main, normaliseArrays, hv]
    unfold attempt
    rw [hval, hprep]
    simp [opNot, hbo, finishResult, truth]
  refine ⟨key x b hx, _, key x b hx, ?_⟩
  rw [key _ (!b) ⟨_, rfl, hab _⟩, Bool.not_not]

/-! ## Integer division -/

/-- **C66**: `x \ y` is the floor of `x / y`, in the unit of `x / y`; when `/` raises, so does
`\`. -/
theorem C66_integer_division (hp : 1 ≤ p) (hc : HasNumbers c) (hn : ∀ n, c.isNumber (ofNum n) = true)
    {divide : Operation S U R σ} {x y : Opd S U R} {v w : S} (hx : IsNum c x v) (hy : IsNum c y w)
    (hl : LeavesPlain c) (hux : x.unit = none) (huy : y.unit = none) (s s' : σ) :
    (∀ r n, call c divide [⟨.sc v, none, none, none⟩, ⟨.sc w, none, none, none⟩] s = (.ok r, s') →
      numberOf num? r = .ok n → n.Canonical → 5 * |n.num| < 10 ^ p →
      ∃ t q, call c (opIntDivide p num? ofNum c divide) [x, y] s = (.ok t, s') ∧
        IsResult c ofNum r t [v, w] q ∧ q.Canonical ∧ q.val = ⌊n.val⌋) ∧
    (∀ e, call c divide [⟨.sc v, none, none, none⟩, ⟨.sc w, none, none, none⟩] s = (.error e, s') →
      ∃ e', call c (opIntDivide p num? ofNum c divide) [x, y] s = (.error e', s')) := by
  rw [call_numbers (op := opIntDivide p num? ofNum c divide) ⟨rfl, rfl, rfl, rfl⟩ hc
    (.cons hx (.cons hy .nil)) (by intro m hm; cases hm; simp) (by intro m hm; cases hm; simp)]
  simp only [List.map_cons, List.map_nil, List.zip_cons_cons, List.zip_nil_right,
    plain_pair hl hux huy, List.zipWith_cons_cons, List.zipWith_nil_right, setNumbers]
  constructor
  · intro r n hr hnum hcan hd
    obtain ⟨h1, h2⟩ := C09_floor p hp n hcan hd
    simp only [opIntDivide, numOp, hr, hnum]
    refine ⟨_, _, rfl, ?_, h1, h2⟩
    unfold finishResult IsResult
    cases hk : List.findSome? c.cast [v, w] <;> simp [hn]
  · intro e he
    simp only [opIntDivide, numOp, he]
    exact ⟨_, rfl⟩
/-- **C61**: `+` and `-` bring their operands to a common unit as differences (of two temperatures
`10 °C` is ten degrees, not ten degrees above the melting point), `%` as points on the scale; then
they work on the numbers in the common unit, and the result has this unit. -/
theorem C61_common_unit (hc : HasNumbers c) (hn : ∀ n, c.isNumber (ofNum n) = true)
    {f} (hf : c.normalise = some f) {x y : Opd S U R} {v w v' w' : S} {u₁ u₂ ru : Option U}
    {a b : Number} (hx : IsNum c x v) (hy : IsNum c y w) (ha : num? v' = some a)
    (hb : num? w' = some b) (s : σ) :
    (f [(v, x.unit), (w, y.unit)] false true = .ok ([(v', u₁), (w', u₂)], ru) →
      (∀ n, Number.add p a b = .ok n → ∃ r, call c (opAdd p num? ofNum) [x, y] s = (.ok r, s) ∧
        IsResult c ofNum { x with unit := ru } r [v, w] n) ∧
      (∀ n, Number.sub p a b = .ok n → ∃ r, call c (opSubtract p num? ofNum) [x, y] s = (.ok r, s) ∧
        IsResult c ofNum { x with unit := ru } r [v, w] n)) ∧
    (f [(v, x.unit), (w, y.unit)] false false = .ok ([(v', u₁), (w', u₂)], ru) →
      ∀ n, Number.mod p a b = .ok n → ∃ r, call c (opModulus p num? ofNum) [x, y] s = (.ok r, s) ∧
        IsResult c ofNum { x with unit := ru } r [v, w] n) := by
  have key : ∀ (name : String) (g : Number → Number → Except Err Number) (rel : Bool),
      f [(v, x.unit), (w, y.unit)] false rel = .ok ([(v', u₁), (w', u₂)], ru) →
      ∀ n, g a b = .ok n → ∃ r,
        call c { opArith (σ := σ) num? ofNum name g with unitsRelative := rel } [x, y] s = (.ok r, s) ∧
          IsResult c ofNum { x with unit := ru } r [v, w] n := by
    intro name g rel h n hg
    rw [call_numbers ⟨rfl, rfl, rfl, rfl⟩ hc
      (.cons hx (.cons hy .nil)) (by intro m hm; cases hm; simp) (by intro m hm; cases hm; simp)]
    have hno : normalised c { opArith (σ := σ) (R := R) num? ofNum name g with unitsRelative := rel }
        [(v, x.unit), (w, y.unit)] = .ok ([(v', u₁), (w', u₂)], ru) := by
      simp only [normalised, hf]; exact h
    simp only [List.map_cons, List.map_nil, List.zip_cons_cons, List.zip_nil_right, hno,
      List.zipWith_cons_cons, List.zipWith_nil_right, setNumbers]
    simp only [opArith, numOp, two, numberOf, ha, hb, bind, Except.bind, pure, Except.pure, liftErr, hg]
    refine ⟨_, rfl, ?_⟩
    unfold finishResult IsResult
    cases List.findSome? c.cast [v, w] <;> simp [hn]
  exact ⟨fun h => ⟨key _ _ true h, key _ _ true h⟩, fun h => key _ _ false h⟩
end

/-! ## Concrete cases

The calculator of `Props/Stats.lean`: numbers with an optional base as their type, truth values,
lengths. -/

theorem arrCalc_numbers : HasNumbers arrCalc := arrCalc_has.number
theorem arrCalc_plain : LeavesPlain arrCalc := by
  intro f hf nums m r h
  cases hf
  have : nums.all (fun v => v.2 = none) = true := by
    rw [List.all_eq_true]; intro q hq; simpa using h q hq
  simp [toMetres, this]
theorem isNum_numV (z : ℤ) : IsNum arrCalc (numV z) (.n ⟨z, 1⟩ none) := ⟨_, rfl, rfl, rfl⟩
theorem isNum_len (z : ℤ) (km : Bool) : IsNum arrCalc (len z km) (.n ⟨z, 1⟩ none) := ⟨_, rfl, rfl, rfl⟩

/-- The fraction `n/d`, shown in base `k`. -/
def fracV (n d : ℤ) (k : Option ℕ) : Opd AS Bool Unit := ⟨.sc (.n ⟨n, d⟩ k), none, none, none⟩

/-- `2 < 3`, with the other five answers. -/
example : ∃ lt eq : Bool, call arrCalc (opLess (σ := ℕ) 30 AS.num? AS.b) [numV 2, numV 3] 0 = (.ok (truth AS.b lt), 0) ∧
    call arrCalc (opEqual (σ := ℕ) 30 AS.num? AS.b) [numV 2, numV 3] 0 = (.ok (truth AS.b eq), 0) :=
  let ⟨lt, eq, h1, h2, _⟩ := C65_compare (p := 30) (σ := ℕ) (ofBool := AS.b) (num? := AS.num?) (by norm_num)
    arrCalc_numbers (fun _ => rfl) arrCalc_plain (x := numV 2) (y := numV 3)
    ⟨_, isNum_numV 2, rfl⟩ ⟨_, isNum_numV 3, rfl⟩ rfl rfl 0
  ⟨lt, eq, h1, h2⟩

/-- `2 km` against `1999 m`: the comparison is of the metres. -/
example : call arrCalc (opLess (σ := ℕ) 30 AS.num? AS.b) [len 1999 false, len 2 true] 0
    = (.ok (truth AS.b (Number.lt 30 ⟨1999, 1⟩ ⟨2000, 1⟩)), 0) :=
  ((C65_units (p := 30) (σ := ℕ) (ofBool := AS.b) (num? := AS.num?) arrCalc_numbers (fun _ => rfl) rfl
    (isNum_len 1999 false) (isNum_len 2 true) 0).1 _ _ _ _ _ _ _ rfl rfl rfl).1

example : ∃ r, call demoCalc (opNot (σ := ℕ) DS.asBool DS.b) [r] 0
    = (.ok (truth DS.b true), 0) :=
  let ⟨_, r, _, h⟩ := C65_not (c := demoCalc) (σ := ℕ) (ofBool := DS.b)
    (asBool := DS.asBool) ⟨rfl, rfl⟩ (fun _ => rfl) (x := ⟨.sc (.b true), none, none, none⟩) ⟨_, rfl, rfl⟩ 0
  ⟨r, h⟩

/-- `2 km - 1 m` is `1999 m` (the normaliser of this calculator uses metres). -/
example : ∃ r, call arrCalc (opSubtract (σ := ℕ) 30 AS.num? (fun n => .n n none)) [len 2 true, len 1 false] 0
    = (.ok r, 0) ∧ IsResult arrCalc (fun n => .n n none) { len 2 true with unit := some false } r
      [.n ⟨2, 1⟩ none, .n ⟨1, 1⟩ none] ⟨1999, 1⟩ :=
  ((C61_common_unit (p := 30) (σ := ℕ) (num? := AS.num?) (ofNum := fun n => .n n none) arrCalc_numbers
    (fun _ => rfl) rfl (isNum_len 2 true) (isNum_len 1 false) rfl rfl 0).1 rfl).2 ⟨1999, 1⟩
      (by decide +kernel)

/-- `floor(11/8, 2)` in base 2 is `1.01` in base 2, that is `5/4`. -/
example : ∃ r q, call arrCalc (opFloor (σ := ℕ) 30 AS.num? (fun n => .n n none)
      (fun x => (arrCalc.cast x).getD 10) (fun _ => 0)) [fracV 11 8 (some 2), numV 2] 0 = (.ok r, 0) ∧
    IsResult arrCalc (fun n => .n n none) (fracV 11 8 (some 2)) r [.n ⟨11, 8⟩ (some 2), .n ⟨2, 1⟩ none] q ∧
    q.Canonical ∧ IsFloorAt 2 2 (val ⟨11, 8⟩) q.val :=
  (C66_rounding (p := 30) (σ := ℕ) (num? := AS.num?) (ofNum := fun n => .n n none) (n := 2) (by norm_num)
    arrCalc_numbers (fun _ => rfl) (x := fracV 11 8 (some 2)) ⟨_, rfl, rfl, rfl⟩ rfl
    (Places.given (isNum_numV 2) rfl rfl) ⟨by norm_num, by decide⟩ (by decide)
    (by simp [Number.toInt, toDecimal_int (p := 30) (z := 2) (by norm_num), truncQ]) (by norm_num [arrCalc, bareCalc]) (by norm_num) (by norm_num [arrCalc, bareCalc]) 0).1

/-- `fact(5)` is `120`; `fact(1/2)` is rejected. -/
example : ∃ r, call arrCalc (opFact (σ := ℕ) 30 AS.num? (fun n => .n n none)) [numV 5] 0 = (.ok r, 0) ∧
    IsResult arrCalc (fun n => .n n none) (numV 5) r [.n ⟨5, 1⟩ none] ⟨120, 1⟩ :=
  (C66_fact (p := 30) (σ := ℕ) (num? := AS.num?) (ofNum := fun n => .n n none) (by norm_num)
    arrCalc_numbers (fun _ => rfl) (isNum_numV 5) rfl ⟨by norm_num, by decide⟩ (by norm_num)
    ⟨rfl, arrCalc_plain⟩ 0).1 5 (by norm_num [val])

example : ∃ e, call arrCalc (opFact (σ := ℕ) 30 AS.num? (fun n => .n n none)) [fracV 1 2 none] 0 = (.error e, 0) :=
  (C66_fact (p := 30) (σ := ℕ) (num? := AS.num?) (ofNum := fun n => .n n none) (by norm_num)
    arrCalc_numbers (fun _ => rfl) (x := fracV 1 2 none) ⟨_, rfl, rfl, rfl⟩ rfl ⟨by norm_num, by decide⟩ (by norm_num)
    ⟨rfl, arrCalc_plain⟩ 0).2 (by
      rintro ⟨k, hk⟩
      have h2 : (1 : ℚ) = 2 * k := by rw [← hk]; norm_num [val]
      have : 1 = 2 * k := by exact_mod_cast h2
      omega)

/-- `-7 % 3` is `-1`. -/
example : ∃ r n, call arrCalc (opModulus (σ := ℕ) 30 AS.num? (fun n => .n n none)) [numV (-7), numV 3] 0 = (.ok r, 0) ∧
    IsResult arrCalc (fun n => .n n none) (numV (-7)) r [.n ⟨-7, 1⟩ none, .n ⟨3, 1⟩ none] n ∧
    |n.val| < |val ⟨3, 1⟩| :=
  let ⟨r, n, h1, h2, h3, _⟩ := C66_modulus (p := 30) (σ := ℕ) (num? := AS.num?) (ofNum := fun n => .n n none)
    arrCalc_numbers (fun _ => rfl) (isNum_numV (-7)) (isNum_numV 3) rfl rfl arrCalc_plain rfl rfl
    ⟨by norm_num, by decide⟩ ⟨by norm_num, by decide⟩ (by norm_num [val]) (by norm_num) (by norm_num) (by norm_num) 0
  ⟨r, n, h1, h2, h3⟩

/-- `gcd(12, -18)`. -/
example : ∃ r d, call arrCalc (opGcd (σ := ℕ) 30 AS.num? (fun n => .n n none)) [numV 12, numV (-18)] 0 = (.ok r, 0) ∧
    IsResult arrCalc (fun n => .n n none) (numV 12) r [.n ⟨12, 1⟩ none, .n ⟨-18, 1⟩ none] ⟨(d : ℕ), 1⟩ ∧
    IsGreatestDivisor 12 (-18) d :=
  ((C66_gcd_lcm (p := 30) (σ := ℕ) (num? := AS.num?) (ofNum := fun n => .n n none) (by norm_num)
    arrCalc_numbers (fun _ => rfl) (isNum_numV 12) (isNum_numV (-18)) rfl rfl
    ⟨by norm_num, by decide⟩ ⟨by norm_num, by decide⟩ (by norm_num) (by norm_num) arrCalc_plain rfl rfl 0).1
    12 (-18) (by norm_num [val]) (by norm_num [val])).1

end MC.Props
