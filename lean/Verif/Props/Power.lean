import Mathlib.Analysis.SpecialFunctions.Log.Basic
import Verif.Lemmas.Power
import Verif.Props.Arithmetic
import Verif.Props.Constants

/-! # C93: powers and `exp` against the powers of the real numbers -/

namespace MC.Props
open MC MC.Spec MC.Numerical MC.Numeric MC.Arrays MC.Boolean MC.Number
open MC.Strings (Texts)
open MC.Constants (constant)
set_option linter.unusedSectionVars false

section
variable {S U R K σ : Type} {c : Calc S U R K} {num? : S → Option Number} {ofNum : Number → S} {asBool : S → Option Bool}
  {ofBool : Bool → S} {ua : UnitAlgebra S U} {Q : S → Prop} {T : Texts S U R} {p : ℕ}

/-- The operand holds the number `n`. -/
def IsThe (num? : S → Option Number) (x : Opd S U R) (n : Number) : Prop := ∃ w, x.value = .sc w ∧ num? w = some n

/-- The unit of a power: none without a unit, else that of the algebra of units. -/
def PowerUnit (ua : UnitAlgebra S U) (u : Option U) (b : Number) (ru : Option U) : Prop :=
  match u with
  | none => ru = none
  | some u => ∃ w, ua.power u b = .ok w ∧ ru = some w

variable (ho : Arithmetical c num? ofNum asBool ofBool ua Q T)
include ho

/-- **C93**: `x ^ y` of a positive number and any exponent is the power of the real numbers, up to an error in the last digits
of the working precision, and `^` fails on no such numbers unless the powers of the library do. -/
theorem C93_power (hp : 2 ≤ p) {powF : ℚ → ℚ → Except Err ℚ} (hw : AnswersPowers p powF) {x y : Opd S U R} {a b : Number}
    (hx : IsThe num? x a) (hy : IsThe num? y b) (ha : a.Canonical) (h0 : 0 < a.val) (hyu : y.unit = none) {ru : Option U}
    (hu : PowerUnit ua x.unit b ru) (hb : |(b.val : ℝ) * Real.log a.val| * 20 ≤ 10 ^ p) (s : σ) :
    (∃ r n, call c (opPower p num? ofNum ua powF) [x, y] s = (.ok r, s) ∧ IsThe num? r n ∧ r.unit = ru ∧
      |(n.val : ℝ) - (a.val : ℝ) ^ (b.val : ℝ)| * 10 ^ p
        ≤ (150 + 10 * |(b.val : ℝ) * Real.log a.val|) * (a.val : ℝ) ^ (b.val : ℝ)) ∨
    (∃ e, call c (opPower p num? ofNum ua powF) [x, y] s = (.error e, s)) ∧ ∃ z t e, powF z t = .error e := by
  obtain ⟨v, hv1, hv2⟩ := hx
  obtain ⟨w, hw1, hw2⟩ := hy
  have hnum : 0 < a.num := by
    have h1 : (0:ℚ) < a.den := ha.den_pos
    have h2 : (0:ℚ) < a.num := by
      rcases div_pos_iff.mp h0 with h | h
      · exact h.1
      · linarith [h.2]
    exact_mod_cast h2
  have hsame := ho.same
  rw [call_two (op := opPower p num? ofNum ua powF) ⟨⟨_, _, rfl⟩, rfl, rfl, rfl, rfl, rfl⟩ ho.numbers
    (v := v) (w := w) ⟨v, hv1, hsame v a hv2, hsame v a hv2⟩ ⟨w, hw1, hsame w b hw2, hsame w b hw2⟩]
  have hnorm : normalised c (opPower (R := R) (σ := σ) p num? ofNum ua powF) [(v, x.unit), (w, y.unit)]
      = .ok ([(v, x.unit), (w, y.unit)], none) := by
    unfold normalised
    cases c.normalise <;> rfl
  rw [hnorm]
  simp only [setNumbers, opPower, two, power, unitValue, ho.notUnit v a hv2, numberOf, hv2, hw2, bind, Except.bind, pure,
    Except.pure, hyu]
  rcases pow_real (b := b) hp hw hnum ha.1 hb with ⟨r, h1, h2, h3⟩ | ⟨e, h1, h2⟩
  · left
    simp only [h1, liftErr]
    cases hxu : x.unit with
    | none =>
      rw [hxu] at hu
      refine ⟨_, r, rfl, ?_, ?_, h3⟩
      · unfold finishResult
        cases hk : List.findSome? c.cast [v, w] with
        | none => exact ⟨_, rfl, ho.read r⟩
        | some k =>
          simp only [Bool.true_and, ho.isNumber, if_true]
          exact ⟨_, rfl, ho.cast k _ r (ho.read r)⟩
      · simp only [PowerUnit] at hu
        subst hu
        rfl
    | some u =>
      rw [hxu] at hu
      obtain ⟨u', h4, rfl⟩ := hu
      simp only [h4]
      refine ⟨_, r, rfl, ?_, rfl, h3⟩
      unfold finishResult
      cases hk : List.findSome? c.cast [v, w] with
      | none => exact ⟨_, rfl, ho.read r⟩
      | some k =>
        simp only [Bool.true_and, ho.isNumber, if_true]
        exact ⟨_, rfl, ho.cast k _ r (ho.read r)⟩
  · right
    simp only [h1, liftErr]
    refine ⟨by cases e <;> exact ⟨_, rfl⟩, ?_⟩
    rcases h2 with h2 | h2
    · exact ⟨_, _, _, h2⟩
    · exact ⟨_, _, _, h2⟩

omit ho in
/-- The logarithm of the stored `e`. -/
theorem log_stored {q : ℝ} (h : |q - Real.exp 1| < 1 / 10 ^ 50) : 2 < q ∧ |Real.log q - 1| ≤ 1 / 10 ^ 50 := by
  obtain ⟨e1, e2⟩ := e_digits
  obtain ⟨h1, h2⟩ := abs_lt.mp h
  have hE : (5 / 2 : ℝ) < Real.exp 1 := by
    refine lt_of_lt_of_le ?_ e1
    norm_num
  have hq : 2 < q := by
    norm_num only at h1 ⊢
    linarith
  refine ⟨hq, ?_⟩
  have e : Real.log q - 1 = Real.log (q / Real.exp 1) := by
    rw [Real.log_div (by linarith) (Real.exp_pos 1).ne', Real.log_exp]
  have hE0 := Real.exp_pos 1
  have hq0 : 0 < q := by linarith
  rw [e, abs_le]
  constructor
  · have := Real.one_sub_inv_le_log_of_pos (show 0 < q / Real.exp 1 by positivity)
    refine le_trans ?_ this
    rw [inv_div]
    have : Real.exp 1 / q ≤ 1 + 1 / 10 ^ 50 := by
      rw [div_le_iff₀ hq0]
      have : (1:ℝ) / 10 ^ 50 * 1 ≤ 1 / 10 ^ 50 * q := by gcongr; linarith
      linarith
    linarith
  · have := Real.log_le_sub_one_of_pos (show 0 < q / Real.exp 1 by positivity)
    refine this.trans ?_
    have : q / Real.exp 1 ≤ 1 + 1 / 10 ^ 50 := by
      rw [div_le_iff₀ hE0]
      have : (1:ℝ) / 10 ^ 50 * 1 ≤ 1 / 10 ^ 50 * Real.exp 1 := by gcongr; linarith
      linarith
    linarith

omit ho in
/-- Powers of the stored `e`. -/
theorem exp_real (hp : 51 ≤ p) {powF : ℚ → ℚ → Except Err ℚ} (hw : AnswersPowers p powF) {e b : Number}
    (he : constant p "e" = some (.ok (e, none))) (hb : |(b.val : ℝ)| ≤ 10 ^ 49) :
    (∃ r, Number.pow p powF e b = .ok r ∧ 0 < r.den ∧
      |(r.val : ℝ) - Real.exp b.val| ≤ (250 + 40 * |(b.val : ℝ)|) / 10 ^ p * Real.exp b.val
        + 2 * |(b.val : ℝ)| / 10 ^ 50 * Real.exp b.val) ∨
    ∃ z t e', powF z t = .error e' ∧ Number.pow p powF e b = .error e' := by
  obtain ⟨n, hn, hc, hd⟩ := C92_close hp (name := "e") (x := Real.exp 1) (.head _)
  rw [he] at hn
  cases hn
  obtain ⟨h1, h2⟩ := log_stored hd
  obtain ⟨h3, h4⟩ := abs_le.mp h2
  have hev : 0 < e.val := by
    have : (0:ℝ) < e.val := by linarith
    exact_mod_cast this
  have hnum : 0 < e.num := by
    have h2 : (0:ℚ) < e.num := by
      rcases div_pos_iff.mp hev with h | h
      · exact h.1
      · linarith [h.2, hc.den_pos]
    exact_mod_cast h2
  have hlog : |Real.log e.val| ≤ 2 := by
    rw [abs_le]
    norm_num only at h3 h4 ⊢
    constructor <;> linarith
  have hT : (0:ℝ) < 10 ^ p := by positivity
  have hpT : (10:ℝ) ^ 51 ≤ 10 ^ p := pow_le_pow_right₀ (by norm_num) hp
  have hprod : |(b.val : ℝ) * Real.log e.val| ≤ 2 * |(b.val : ℝ)| := by
    rw [abs_mul, mul_comm]
    gcongr
  have hbound : |(b.val : ℝ) * Real.log e.val| * 20 ≤ 10 ^ p := by
    refine le_trans ?_ hpT
    have e1 : (10:ℝ) ^ 51 = 10 ^ 49 * 100 := by norm_num
    rw [e1]
    have : (0:ℝ) ≤ 10 ^ 49 := by positivity
    nlinarith
  rcases pow_real (b := b) (by omega) hw hnum hc.1 hbound with ⟨r, g1, g2, g3⟩ | ⟨e', g1, g2⟩
  · left
    refine ⟨r, g1, g2, ?_⟩
    have hδ : |(b.val : ℝ) * (Real.log e.val - 1)| ≤ |(b.val : ℝ)| / 10 ^ 50 := by
      rw [abs_mul, div_eq_mul_one_div]
      gcongr
    have hδ' : |(b.val : ℝ)| / 10 ^ 50 ≤ 1 / 4 := by
      rw [div_le_iff₀ (by positivity)]
      have e1 : (10:ℝ) ^ 50 = 10 ^ 49 * 10 := by norm_num
      rw [e1]
      have : (0:ℝ) ≤ 10 ^ 49 := by positivity
      linarith
    rw [← le_div_iff₀ hT, mul_div_right_comm] at g3
    have g4 := rel_shift (Q := Real.exp b.val) (δ := (b.val : ℝ) * (Real.log e.val - 1)) (Real.exp_pos _) (by positivity)
      (hδ.trans hδ')
      (by
        rw [Real.rpow_def_of_pos (by linarith), ← Real.exp_add]
        congr 1
        ring) g3
    refine g4.trans ?_
    rw [← add_mul]
    apply mul_le_mul_of_nonneg_right _ (Real.exp_pos _).le
    have k1 : (150 + 10 * |(b.val : ℝ) * Real.log e.val|) / 10 ^ p ≤ (150 + 20 * |(b.val : ℝ)|) / 10 ^ p := by
      gcongr ?_ / _
      linarith
    have k2 : 3 / 2 * ((150 + 20 * |(b.val : ℝ)|) / 10 ^ p) ≤ (250 + 40 * |(b.val : ℝ)|) / 10 ^ p := by
      rw [mul_div_assoc']
      gcongr ?_ / _
      have := abs_nonneg (b.val : ℝ)
      linarith
    have k3 : 2 * |(b.val : ℝ) * (Real.log e.val - 1)| ≤ 2 * |(b.val : ℝ)| / 10 ^ 50 := by
      rw [mul_div_assoc]
      gcongr
    linarith
  · right
    rcases g2 with g2 | g2
    · exact ⟨_, _, _, g2, g1⟩
    · exact ⟨_, _, _, g2, g1⟩

/-- **C93** (partial, because of `C93_exp_violation`): `exp(x)` is the exponential function of `x`, up to an error in the last
digits of the working precision and one in the fiftieth place relative to `x`, which stems from the stored `e`. -/
theorem C93_exp_partial (hp : 51 ≤ p) {powF : ℚ → ℚ → Except Err ℚ} (hw : AnswersPowers p powF) {e : Number}
    (he : constant p "e" = some (.ok (e, none))) {x : Opd S U R} {b : Number} (hx : IsThe num? x b) (hu : x.unit = none)
    (hb : |(b.val : ℝ)| ≤ 10 ^ 49) (s : σ) :
    (∃ r n, call c (opExp p num? ofNum powF e) [x] s = (.ok r, s) ∧ IsThe num? r n ∧ r.unit = none ∧
      |(n.val : ℝ) - Real.exp b.val| ≤ (250 + 40 * |(b.val : ℝ)|) / 10 ^ p * Real.exp b.val
        + 2 * |(b.val : ℝ)| / 10 ^ 50 * Real.exp b.val) ∨
    (∃ e', call c (opExp p num? ofNum powF e) [x] s = (.error e', s)) ∧ ∃ z t e', powF z t = .error e' := by
  obtain ⟨v, hv1, hv2⟩ := hx
  have hcall := unary_call (σ := σ) (c := c) (num? := num?) (ofNum := ofNum) ho.numbers ho.isNumber (name := "exp")
    (f := fun x => liftErr (Number.pow p powF e x)) (x := x) (w := v) (a := b)
    ⟨v, hv1, ho.same v b hv2, ho.same v b hv2⟩ hv2 (.inr ⟨hu, ho.plain⟩) s
  rcases exp_real hp hw he hb with ⟨r, h1, -, h3⟩ | ⟨z, t, e', h1, h2⟩
  · left
    obtain ⟨r', h4, h5, h6, -⟩ := hcall.1 r (by rw [h1]; rfl)
    refine ⟨r', r, h4, ⟨_, h5, ?_⟩, by rw [h6, hu], h3⟩
    split
    · exact ho.cast _ _ r (ho.read r)
    · exact ho.read r
  · right
    obtain ⟨e'', h3⟩ : ∃ e'', liftErr (Number.pow p powF e b) = .error e'' := by
      rw [h2]
      cases e' <;> exact ⟨_, rfl⟩
    exact ⟨hcall.2 _ h3, z, t, e', h1⟩

/-- **C93**: `exp(1)` is wrong in the fifty-first place, although the calculator works with a hundred digits. -/
theorem C93_exp_violation (powF : ℚ → ℚ → Except Err ℚ) {e : Number} (he : constant 100 "e" = some (.ok (e, none)))
    {x : Opd S U R} (hx : IsThe num? x ⟨1, 1⟩) (hu : x.unit = none) (s : σ) :
    ∃ r n, call c (opExp 100 num? ofNum powF e) [x] s = (.ok r, s) ∧ IsThe num? r n ∧
      1 / 10 ^ 51 < |(n.val : ℝ) - Real.exp 1| := by
  obtain ⟨v, hv1, hv2⟩ := hx
  have hcall := unary_call (σ := σ) (c := c) (num? := num?) (ofNum := ofNum) ho.numbers ho.isNumber (name := "exp")
    (f := fun x => liftErr (Number.pow 100 powF e x)) (x := x) (w := v) (a := ⟨1, 1⟩)
    ⟨v, hv1, ho.same v _ hv2, ho.same v _ hv2⟩ hv2 (.inr ⟨hu, ho.plain⟩) s
  have h0 := stored_constant (p := 100) (by norm_num) (name := "e") (.head _)
  rw [he] at h0
  cases h0
  have hpow : Number.pow 100 powF
      ⟨(271828182845904523536028747135266249775724709369995 / 10 ^ 50 : ℚ).num,
       (271828182845904523536028747135266249775724709369995 / 10 ^ 50 : ℚ).den⟩ ⟨1, 1⟩
      = .ok ⟨(271828182845904523536028747135266249775724709369995 / 10 ^ 50 : ℚ).num,
       (271828182845904523536028747135266249775724709369995 / 10 ^ 50 : ℚ).den⟩ := by
    obtain ⟨r, h1, h2, h3⟩ := C08_integer_power 100 powF _
      (stored_number (271828182845904523536028747135266249775724709369995 / 10 ^ 50)).1 1 (by norm_num) (.inr (by norm_num))
      (by decide +kernel) (by decide +kernel)
    rw [h1]
    congr 1
    refine canonical_ext h2 (stored_number _).1 ?_
    rw [h3]
    simp
  obtain ⟨r', h4, h5, -, -⟩ := hcall.1 _ (by rw [hpow]; rfl)
  refine ⟨r', ⟨(271828182845904523536028747135266249775724709369995 / 10 ^ 50 : ℚ).num,
       (271828182845904523536028747135266249775724709369995 / 10 ^ 50 : ℚ).den⟩, h4, ⟨_, h5, ?_⟩, ?_⟩
  · split
    · exact ho.cast _ _ _ (ho.read _)
    · exact ho.read _
  · rw [(stored_number _).2]
    push_cast
    obtain ⟨e1, e2⟩ := e_digits
    rw [lt_abs]
    right
    norm_num only at e1 e2 ⊢
    linarith

end

/-! ## The hypotheses can be met -/

/-- There are powers as `AnswersPowers` asks for them, with an answer every time. -/
theorem powers_exist (p : ℕ) : ∃ powF : ℚ → ℚ → Except Err ℚ, AnswersPowers p powF ∧ ∀ x y, ∃ q, powF x y = .ok q := by
  have key : ∀ x y : ℚ, ∃ q : ℚ, 1 ≤ x → 0 < q ∧ |(q : ℝ) - (x : ℝ) ^ (y : ℝ)| * 10 ^ p ≤ 10 * (x : ℝ) ^ (y : ℝ) := by
    intro x y
    by_cases hx : 1 ≤ x
    · have hx0 : (0:ℝ) < x := by
        have : (0:ℚ) < x := by linarith
        exact_mod_cast this
      have hP := Real.rpow_pos_of_pos hx0 (y : ℝ)
      obtain ⟨q, h1, h2⟩ := exists_rat_btwn (lt_add_of_pos_right ((x : ℝ) ^ (y : ℝ)) (show 0 < (x : ℝ) ^ (y : ℝ) / 10 ^ p by positivity))
      refine ⟨q, fun _ => ⟨by exact_mod_cast hP.trans h1, ?_⟩⟩
      rw [abs_of_pos (by linarith), ← le_div_iff₀ (by positivity)]
      have : (x : ℝ) ^ (y : ℝ) / 10 ^ p ≤ 10 * (x : ℝ) ^ (y : ℝ) / 10 ^ p := by
        gcongr
        linarith
      linarith
    · exact ⟨0, fun h => absurd h hx⟩
  choose f hf using key
  refine ⟨fun x y => .ok (f x y), ?_, fun x y => ⟨_, rfl⟩⟩
  intro x y q hx _ hq
  cases hq
  exact hf x y hx

/-- Non-vacuity: `2 ^ 0.5` is the root of two, to the last digits. -/
example {powF : ℚ → ℚ → Except Err ℚ} (hw : AnswersPowers 100 powF) (ht : ∀ x y, ∃ q, powF x y = .ok q) (s : ℕ) :
    ∃ r n, call quietCalc (opPower 100 AS.num? AS.ofNum noAlgebra powF)
      [⟨.sc (.n ⟨2, 1⟩ none), none, none, none⟩, ⟨.sc (.n ⟨1, 2⟩ none), none, none, none⟩] s = (.ok r, s) ∧
      IsThe AS.num? r n ∧ |(n.val : ℝ) - √2| ≤ 1 / 10 ^ 97 := by
  have h2 : (1:ℝ) ≤ √2 := by rw [show (1:ℝ) = √1 by simp]; exact Real.sqrt_le_sqrt (by norm_num)
  have h3 : √2 ≤ 2 := by rw [Real.sqrt_le_left (by norm_num)]; norm_num
  have h1 : |Real.log 2| ≤ 1 := by
    rw [abs_of_pos (Real.log_pos (by norm_num))]
    have := Real.log_le_sub_one_of_pos (show (0:ℝ) < 2 by norm_num)
    linarith
  have ev : ((⟨2, 1⟩ : Number).val) = 2 := by norm_num [Number.val]
  have ew : ((⟨1, 2⟩ : Number).val) = 1 / 2 := by norm_num [Number.val]
  have er : (((⟨2, 1⟩ : Number).val : ℚ) : ℝ) ^ ((((⟨1, 2⟩ : Number).val : ℚ)) : ℝ) = √2 := by
    rw [ev, ew, Real.sqrt_eq_rpow]
    norm_num
  have hb : |((((⟨1, 2⟩ : Number).val : ℚ)) : ℝ) * Real.log (((⟨2, 1⟩ : Number).val : ℚ) : ℝ)| ≤ 1 := by
    rw [ev, ew, abs_mul]
    push_cast
    rw [show |(1 / 2 : ℝ)| = 1 / 2 by norm_num]
    linarith [abs_nonneg (Real.log 2)]
  rcases C93_power quietCalc_arithmetical (p := 100) (by norm_num) hw (x := ⟨.sc (.n ⟨2, 1⟩ none), none, none, none⟩)
    (y := ⟨.sc (.n ⟨1, 2⟩ none), none, none, none⟩) (a := ⟨2, 1⟩) (b := ⟨1, 2⟩) ⟨_, rfl, rfl⟩ ⟨_, rfl, rfl⟩ ⟨by decide, by decide⟩
    (by rw [ev]; norm_num) rfl (ru := none) rfl (by
      refine (mul_le_mul_of_nonneg_right hb (by norm_num)).trans ?_
      norm_num) s with ⟨r, n, h4, h5, -, h6⟩ | ⟨-, z, t, e, h⟩
  · refine ⟨r, n, h4, h5, ?_⟩
    rw [er] at h6
    rw [← le_div_iff₀ (by positivity)] at h6
    refine h6.trans ?_
    have : (150 + 10 * |((((⟨1, 2⟩ : Number).val : ℚ)) : ℝ) * Real.log (((⟨2, 1⟩ : Number).val : ℚ) : ℝ)|) * √2 ≤ 160 * 2 := by
      apply mul_le_mul _ h3 (by positivity) (by norm_num)
      linarith
    rw [div_le_div_iff₀ (by positivity) (by positivity)]
    refine (mul_le_mul_of_nonneg_right this (by positivity)).trans ?_
    norm_num
  · obtain ⟨q, hq⟩ := ht z t
    rw [h] at hq
    cases hq

/-- Non-vacuity: `exp(0.5)` is right to 49 digits. -/
example {powF : ℚ → ℚ → Except Err ℚ} (hw : AnswersPowers 100 powF) (ht : ∀ x y, ∃ q, powF x y = .ok q) (s : ℕ) :
    ∃ e, constant 100 "e" = some (.ok (e, none)) ∧
    ∃ r n, call quietCalc (opExp 100 AS.num? AS.ofNum powF e) [⟨.sc (.n ⟨1, 2⟩ none), none, none, none⟩] s = (.ok r, s) ∧
      IsThe AS.num? r n ∧ |(n.val : ℝ) - Real.exp (1 / 2)| ≤ 2 / 10 ^ 50 * Real.exp (1 / 2) := by
  have ew : ((⟨1, 2⟩ : Number).val) = 1 / 2 := by norm_num [Number.val]
  have er : ((((⟨1, 2⟩ : Number).val : ℚ)) : ℝ) = 1 / 2 := by rw [ew]; norm_num
  refine ⟨_, stored_constant (p := 100) (by norm_num) (name := "e") (.head _), ?_⟩
  rcases C93_exp_partial quietCalc_arithmetical (p := 100) (by norm_num) hw
    (stored_constant (p := 100) (by norm_num) (name := "e") (.head _))
    (x := ⟨.sc (.n ⟨1, 2⟩ none), none, none, none⟩) (b := ⟨1, 2⟩) ⟨_, rfl, rfl⟩ rfl (by
      rw [er]
      norm_num) s with ⟨r, n, h4, h5, -, h6⟩ | ⟨-, z, t, e, h⟩
  · refine ⟨r, n, h4, h5, ?_⟩
    rw [er] at h6
    refine h6.trans ?_
    rw [← add_mul]
    apply mul_le_mul_of_nonneg_right _ (Real.exp_pos _).le
    norm_num
  · obtain ⟨q, hq⟩ := ht z t
    rw [h] at hq
    cases hq

end MC.Props
