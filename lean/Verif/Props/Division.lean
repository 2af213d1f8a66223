import Verif.Props.Arithmetic

/-! # C94: whole division and remainder -/

namespace MC.Props
open MC MC.Spec MC.Numerical MC.Numeric MC.Arrays MC.Boolean MC.Number
open MC.Strings (Texts)

section
variable {S U R K σ : Type} {c : Calc S U R K} {num? : S → Option Number} {ofNum : Number → S} {asBool : S → Option Bool}
  {ofBool : Bool → S} {ua : UnitAlgebra S U} {Q : S → Prop} {T : Texts S U R} {p k : ℕ}

/-- What `\` and `%` answer for `a` and `b`: a whole number and a number. -/
def Divides (num? : S → Option Number) (Q : S → Prop) (whole rest : List (Opd S U R) → Act σ (Opd S U R))
    (x y : Opd S U R) (s : σ) (q : ℤ) (r : ℚ) : Prop :=
  ∃ z w m n, whole [x, y] s = (.ok z, s) ∧ rest [x, y] s = (.ok w, s) ∧ PlainNumber num? Q z m ∧ PlainNumber num? Q w n ∧
    m.val = q ∧ n.val = r

variable (ho : Arithmetical c num? ofNum asBool ofBool ua Q T)
include ho

theorem dividing_answers (hk : 3 * k + 1 ≤ p) (powF : ℚ → ℚ → Except Err ℚ)
    (others : String → List (Opd S U R) → Act σ (Opd S U R)) {x y : Opd S U R} {a b : Number}
    (hx : PlainNumber num? Q x a) (hy : PlainNumber num? Q y b) (ha : Short k a.val) (hb : Short k b.val) (h0 : b.val ≠ 0)
    (s : σ) :
    Divides num? Q (callOf p num? ofNum ua asBool ofBool T powF c others "\\")
      (callOf p num? ofNum ua asBool ofBool T powF c others "%") x y s ⌊a.val / b.val⌋
      (a.val - b.val * wholePart (a.val / b.val)) := by
  have hin : List.Forall₂ (HasPlain num? Q asBool T) [x, y] [.num a.val, .num b.val] :=
    .cons ⟨a, hx, rfl⟩ (.cons ⟨b, hy, rfl⟩ .nil)
  obtain ⟨z, h1, m, h2, h3⟩ := school_does (rounding := false) ho hk (by simp) powF others (o := "\\")
    (w := .num ⌊a.val / b.val⌋) (by simp [school, h0, short, ha, hb]) hin s
  obtain ⟨w, h4, n, h5, h6⟩ := school_does (rounding := false) ho hk (by simp) powF others (o := "%")
    (w := .num (a.val - b.val * wholePart (a.val / b.val))) (by simp [school, h0, short, ha, hb]) hin s
  exact ⟨z, w, m, n, h1, h4, h2, h5, h3, h6⟩

/-- **C94** (partial, because of `C94_violation`): when the quotient is not negative, or whole, `x` is `(x \ y) * y + x % y`,
and `x \ y` is the quotient without its fraction. -/
theorem C94_partial (hk : 3 * k + 1 ≤ p) (powF : ℚ → ℚ → Except Err ℚ)
    (others : String → List (Opd S U R) → Act σ (Opd S U R)) {x y : Opd S U R} {a b : Number}
    (hx : PlainNumber num? Q x a) (hy : PlainNumber num? Q y b) (ha : Short k a.val) (hb : Short k b.val) (h0 : b.val ≠ 0)
    (hs : 0 ≤ a.val / b.val ∨ ∃ z : ℤ, a.val / b.val = z) (s : σ) :
    ∃ q r, Divides num? Q (callOf p num? ofNum ua asBool ofBool T powF c others "\\")
      (callOf p num? ofNum ua asBool ofBool T powF c others "%") x y s q r ∧
      a.val = q * b.val + r ∧ |r| < |b.val| ∧ q = wholePart (a.val / b.val) := by
  refine ⟨_, _, dividing_answers ho hk powF others hx hy ha hb h0 s, ?_⟩
  have hw : ⌊a.val / b.val⌋ = wholePart (a.val / b.val) := by
    unfold wholePart
    rcases hs with h | ⟨z, h⟩
    · rw [if_pos h]
    · rw [h]
      simp
  refine ⟨by rw [hw]; ring, ?_, hw⟩
  rw [← hw]
  have e : a.val - b.val * (⌊a.val / b.val⌋ : ℤ) = b.val * Int.fract (a.val / b.val) := by
    unfold Int.fract
    field_simp
  rw [e, abs_mul, abs_of_nonneg (Int.fract_nonneg (a.val / b.val))]
  have := Int.fract_lt_one (a.val / b.val)
  have hb' := abs_pos.mpr h0
  nlinarith

/-- **C94**: when the quotient is negative and not whole, `(x \ y) * y + x % y` is not `x`: it is `x - y`, and `x \ y` is one
less than the quotient without its fraction. -/
theorem C94_violation (hk : 3 * k + 1 ≤ p) (powF : ℚ → ℚ → Except Err ℚ)
    (others : String → List (Opd S U R) → Act σ (Opd S U R)) {x y : Opd S U R} {a b : Number}
    (hx : PlainNumber num? Q x a) (hy : PlainNumber num? Q y b) (ha : Short k a.val) (hb : Short k b.val) (h0 : b.val ≠ 0)
    (hs : a.val / b.val < 0) (hz : ¬ ∃ z : ℤ, a.val / b.val = z) (s : σ) :
    ∃ q r, Divides num? Q (callOf p num? ofNum ua asBool ofBool T powF c others "\\")
      (callOf p num? ofNum ua asBool ofBool T powF c others "%") x y s q r ∧
      q * b.val + r = a.val - b.val ∧ q + 1 = wholePart (a.val / b.val) := by
  refine ⟨_, _, dividing_answers ho hk powF others hx hy ha hb h0 s, ?_⟩
  have hw : ⌊a.val / b.val⌋ + 1 = wholePart (a.val / b.val) := by
    unfold wholePart
    rw [if_neg (not_le.mpr hs)]
    symm
    rw [Int.ceil_eq_iff]
    push_cast
    have h1 := Int.floor_le (a.val / b.val)
    have h2 := Int.lt_floor_add_one (a.val / b.val)
    have h3 : (⌊a.val / b.val⌋ : ℚ) ≠ a.val / b.val := fun e => hz ⟨_, e.symm⟩
    exact ⟨by linarith [lt_of_le_of_ne h1 h3], h2.le⟩
  refine ⟨?_, hw⟩
  rw [← hw]
  push_cast
  ring

end

/-- Non-vacuity: `7 \ 2` and `7 % 2`. -/
example (s : ℕ) : ∃ q r, Divides AS.num? AS.Ten
    (callOf 30 AS.num? AS.ofNum noAlgebra AS.asBool AS.b AS.texts (fun _ _ => .ok 0) quietCalc
      (fun _ _ s => (.error (.calc "no"), s)) "\\")
    (callOf 30 AS.num? AS.ofNum noAlgebra AS.asBool AS.b AS.texts (fun _ _ => .ok 0) quietCalc
      (fun _ _ s => (.error (.calc "no"), s)) "%")
    ⟨.sc (.n ⟨7, 1⟩ none), none, none, none⟩ ⟨.sc (.n ⟨2, 1⟩ none), none, none, none⟩ s q r ∧
    (7 : ℚ) = q * 2 + r := by
  have e1 : (⟨7, 1⟩ : Number).val = 7 := by norm_num [val]
  have e2 : (⟨2, 1⟩ : Number).val = 2 := by norm_num [val]
  obtain ⟨q, r, h1, h2, -⟩ := C94_partial quietCalc_arithmetical (p := 30) (k := 9) (by norm_num) (fun _ _ => .ok 0)
    (fun _ _ s => (.error (.calc "no"), s)) (a := ⟨7, 1⟩) (b := ⟨2, 1⟩) (x := ⟨.sc (.n ⟨7, 1⟩ none), none, none, none⟩)
    (y := ⟨.sc (.n ⟨2, 1⟩ none), none, none, none⟩)
    ⟨rfl, ⟨by norm_num, by decide⟩, _, rfl, rfl, rfl⟩ ⟨rfl, ⟨by norm_num, by decide⟩, _, rfl, rfl, rfl⟩
    (by rw [e1]; decide) (by rw [e2]; decide) (by rw [e2]; norm_num) (.inl (by rw [e1, e2]; norm_num)) s
  rw [e1, e2] at h2
  exact ⟨q, r, h1, h2⟩

/-- Non-vacuity: `-7 \ 2` is `-4` and `-7 % 2` is `-1`, which give `-9`. -/
example (s : ℕ) : ∃ q r, Divides AS.num? AS.Ten
    (callOf 30 AS.num? AS.ofNum noAlgebra AS.asBool AS.b AS.texts (fun _ _ => .ok 0) quietCalc
      (fun _ _ s => (.error (.calc "no"), s)) "\\")
    (callOf 30 AS.num? AS.ofNum noAlgebra AS.asBool AS.b AS.texts (fun _ _ => .ok 0) quietCalc
      (fun _ _ s => (.error (.calc "no"), s)) "%")
    ⟨.sc (.n ⟨-7, 1⟩ none), none, none, none⟩ ⟨.sc (.n ⟨2, 1⟩ none), none, none, none⟩ s q r ∧
    q * 2 + r = (-9 : ℚ) := by
  have e1 : (⟨-7, 1⟩ : Number).val = -7 := by norm_num [val]
  have e2 : (⟨2, 1⟩ : Number).val = 2 := by norm_num [val]
  obtain ⟨q, r, h1, h2, -⟩ := C94_violation quietCalc_arithmetical (p := 30) (k := 9) (by norm_num) (fun _ _ => .ok 0)
    (fun _ _ s => (.error (.calc "no"), s)) (a := ⟨-7, 1⟩) (b := ⟨2, 1⟩) (x := ⟨.sc (.n ⟨-7, 1⟩ none), none, none, none⟩)
    (y := ⟨.sc (.n ⟨2, 1⟩ none), none, none, none⟩)
    ⟨rfl, ⟨by norm_num, by decide⟩, _, rfl, rfl, rfl⟩ ⟨rfl, ⟨by norm_num, by decide⟩, _, rfl, rfl, rfl⟩
    (by rw [e1]; decide) (by rw [e2]; decide) (by rw [e2]; norm_num) (by rw [e1, e2]; norm_num) (by
      rw [e1, e2]
      rintro ⟨z, h⟩
      have h' : (-7 : ℚ) = 2 * z := by linarith
      have h'' : (-7 : ℤ) = 2 * z := by exact_mod_cast h'
      omega) s
  rw [e1, e2] at h2
  exact ⟨q, r, h1, by linarith⟩

end MC.Props
