import Verif.Model.RoundCast
import Verif.Spec.RoundCast
import Verif.Props.Notation
import Verif.Props.Numerical

/-! # C66: rounding a number in the notation it is written in -/

namespace MC.Props
open MC.Notation MC.Numeric MC.Numerical MC.Number MC.Arrays MC.Strings MC.Spec
set_option linter.unusedSectionVars false

variable {U R σ : Type} {p : ℕ} {powF : ℚ → ℚ → Except Err ℚ} {types : List NumType} {prec fuel stack : ℕ}
  {unitText : U → List Char}
  {f : List (Scal × Option U) → Bool → Bool → Except Raise (List (Scal × Option U) × Option U)}

local notation "C" => (calculator (R := R) p powF types prec fuel stack unitText f)

theorem hundred_places {n : ℕ} {g : ℚ} : HasPlaces 10 (n + 2) g ↔ HasPlaces 10 n (100 * g) := by
  unfold HasPlaces
  have : g * ((10 : ℕ) : ℚ) ^ (n + 2) = 100 * g * ((10 : ℕ) : ℚ) ^ n := by push_cast; ring
  rw [this]

theorem hundred_back {n : ℕ} {g : ℚ} (h : HasPlaces 10 n g) : HasPlaces 10 (n + 2) (g / 100) := by
  rw [hundred_places, mul_div_cancel₀ _ (by norm_num)]
  exact h

theorem hundred_floor {n : ℕ} {x r : ℚ} (h : IsFloorAt 10 (n + 2) x r) : IsFloorAt 10 n (100 * x) (100 * r) := by
  refine ⟨hundred_places.1 h.1, by linarith [h.2.1], fun g hg hx => ?_⟩
  have := h.2.2 (g / 100) (hundred_back hg) (by linarith)
  linarith

theorem hundred_ceil {n : ℕ} {x r : ℚ} (h : IsCeilAt 10 (n + 2) x r) : IsCeilAt 10 n (100 * x) (100 * r) := by
  refine ⟨hundred_places.1 h.1, by linarith [h.2.1], fun g hg hx => ?_⟩
  have := h.2.2 (g / 100) (hundred_back hg) (by linarith)
  linarith

theorem hundred_abs (x g : ℚ) : |100 * x - g| = 100 * |x - g / 100| := by
  rw [show 100 * x - g = 100 * (x - g / 100) by ring, abs_mul, abs_of_pos (by norm_num : (0:ℚ) < 100)]

theorem hundred_round {n : ℕ} {x r : ℚ} (h : IsRoundAt 10 (n + 2) x r) : IsRoundAt 10 n (100 * x) (100 * r) := by
  have hr : 100 * r / 100 = r := by ring
  refine ⟨hundred_places.1 h.1, fun g hg => ?_, fun g hg hx => ?_⟩
  · have := h.2.1 (g / 100) (hundred_back hg)
    rw [hundred_abs, hundred_abs, hr]
    linarith
  · rw [hundred_abs, hundred_abs, hr] at hx
    have := h.2.2 (g / 100) (hundred_back hg) (by linarith)
    rw [abs_div, abs_of_pos (by norm_num : (0:ℚ) < 100)] at this
    rw [abs_mul, abs_of_pos (by norm_num : (0:ℚ) < 100)]
    linarith

/-- The number of places: none given means zero. -/
def GivenPlaces (p : ℕ) (powF : ℚ → ℚ → Except Err ℚ) (types : List NumType) (ys : List (Opd Scal U R)) (k : ℕ) : Prop :=
  ys = [] ∧ k = 0 ∨ ∃ y m, ys = [y] ∧ IsShown p powF types y m ∧ m.num = ⟨(k : ℤ), 1⟩

theorem given_places {ys : List (Opd Scal U R)} {k : ℕ} (h : GivenPlaces p powF types ys k) (hk : (k : ℤ) < 10 ^ p) :
    ∃ ws, Places C scalNumber p ys ws k := by
  rcases h with ⟨rfl, rfl⟩ | ⟨y, m, rfl, hy, hm⟩
  · exact ⟨[], .none⟩
  · refine ⟨[.num m], .given (b := m.num) hy.isNum rfl ?_⟩
    rw [hm]
    exact toInt_int (by rwa [abs_of_nonneg (by positivity)])

/-- `r` is the number `q` in the notation of `n`, with the unit of `x`. -/
structure RoundedTo (n : Shown) (x r : Opd Scal U R) (q : ℚ) : Prop where
  value : ∃ m : Number, r.value = .sc (.num ⟨m, n.cast, none⟩) ∧ m.Canonical ∧ m.val = q
  unit : r.unit = x.unit

/-- **C66**: a number is rounded to places of the notation it is written in: the digits of the answer are the digits of the
number rounded, in the base they are written in, and for percentages they are the digits before the percent sign.  The answer has the
same notation and unit. -/
theorem C66_notation (hp : 1 ≤ p) {x : Opd Scal U R} {ys : List (Opd Scal U R)} {n : Shown} {k : ℕ} (hx : IsShown p powF types x n)
    (hc : n.cast ≠ none) (hy : GivenPlaces p powF types ys k) (ha : n.num.Canonical) (hb : 2 ≤ writtenBase n.cast)
    (h1 : 10 * |n.num.num * (writtenBase n.cast : ℤ) ^ (k + 2)| + 10 < 10 ^ p) (h2 : n.num.den < 10 ^ p)
    (h3 : (writtenBase n.cast : ℤ) ^ (k + 2) < 10 ^ p) (s : σ) :
    (∃ r q, call C (opFloor p scalNumber ofNumber castBase castOffset) (x :: ys) s = (.ok r, s) ∧ RoundedTo n x r q ∧
      IsFloorAt (writtenBase n.cast) k (writtenValue n.cast n.num.val) (writtenValue n.cast q)) ∧
    (∃ r q, call C (opCeil p scalNumber ofNumber castBase castOffset) (x :: ys) s = (.ok r, s) ∧ RoundedTo n x r q ∧
      IsCeilAt (writtenBase n.cast) k (writtenValue n.cast n.num.val) (writtenValue n.cast q)) ∧
    (∃ r q, call C (opRound p scalNumber ofNumber castBase castOffset) (x :: ys) s = (.ok r, s) ∧ RoundedTo n x r q ∧
      IsRoundAt (writtenBase n.cast) k (writtenValue n.cast n.num.val) (writtenValue n.cast q)) := by
  obtain ⟨a, c, w⟩ := n
  cases c with
  | none => exact absurd rfl hc
  | some c =>
    set b := writtenBase (some c) with hbdef
    have hbase : castBase (.num ⟨a, some c, w⟩) = b := by cases c <;> rfl
    have hb1 : (1 : ℤ) ≤ b := by omega
    have hkp : (k : ℤ) < 10 ^ p := by
      have h4 : k < b ^ (k + 2) := lt_of_lt_of_le (Nat.lt_of_lt_of_le (Nat.lt_succ_self k) (Nat.le_succ _)) (Nat.lt_pow_self (by omega)).le
      have h5 : ((k : ℕ) : ℤ) < (b : ℤ) ^ (k + 2) := by exact_mod_cast h4
      exact h5.trans h3
    obtain ⟨ws, hws⟩ := given_places (R := R) (prec := prec) (fuel := fuel) (stack := stack) (unitText := unitText) (f := f) hy hkp
    have finish : ∀ (r : Opd Scal U R) (q : Number),
        IsResult C ofNumber x r (.num ⟨a, some c, w⟩ :: ws) q → q.Canonical → RoundedTo ⟨a, some c, w⟩ x r q.val := by
      intro r q hr hq
      refine ⟨⟨q, ?_, hq, rfl⟩, hr.2.1⟩
      rw [hr.1]
      rfl
    have pow_le : ∀ m ≤ k + 2, (b : ℤ) ^ m ≤ (b : ℤ) ^ (k + 2) := fun m hm => pow_le_pow_right₀ hb1 hm
    have small : ∀ m ≤ k + 2, 10 * |a.num * (b : ℤ) ^ m| + 10 < 10 ^ p := by
      intro m hm
      refine lt_of_le_of_lt ?_ h1
      rw [abs_mul, abs_mul, abs_of_pos (by positivity : (0:ℤ) < (b:ℤ) ^ m), abs_of_pos (by positivity : (0:ℤ) < (b:ℤ) ^ (k + 2))]
      have := mul_le_mul_of_nonneg_left (pow_le m hm) (abs_nonneg a.num)
      linarith
    have key := fun (m : ℕ) (hm : m ≤ k + 2) (hoff : (k : ℤ) + castOffset (.num ⟨a, some c, w⟩) = m) =>
      C66_rounding (σ := σ) (c := C) (num? := scalNumber) (ofNum := ofNumber) (base := castBase) (offset := castOffset) hp notation_numbers
        (fun _ => rfl) (hx.isNum) rfl hws ha (by rw [hbase]; exact hb) hoff (by rw [hbase]; exact small m hm) h2
        (by rw [hbase]; exact lt_of_le_of_lt (pow_le m hm) h3) s
    rw [hbase] at key
    by_cases hpc : c = .percentage
    · subst hpc
      obtain ⟨⟨r, q, e, hr, hq, hf⟩, ⟨r', q', e', hr', hq', hf'⟩, ⟨r'', q'', e'', hr'', hq'', hf''⟩⟩ :=
        key (k + 2) le_rfl (by simp [castOffset])
      exact ⟨⟨r, q.val, e, finish r q hr hq, hundred_floor hf⟩, ⟨r', q'.val, e', finish r' q' hr' hq', hundred_ceil hf'⟩,
        ⟨r'', q''.val, e'', finish r'' q'' hr'' hq'', hundred_round hf''⟩⟩
    · have hv : ∀ q, writtenValue (some c) q = q := by
        intro q
        cases c <;> first | rfl | exact absurd rfl hpc
      obtain ⟨⟨r, q, e, hr, hq, hf⟩, ⟨r', q', e', hr', hq', hf'⟩, ⟨r'', q'', e'', hr'', hq'', hf''⟩⟩ :=
        key k (by omega) (by
          have : castOffset (.num ⟨a, some c, w⟩) = 0 := by cases c <;> first | rfl | exact absurd rfl hpc
          rw [this, add_zero])
      simp only [hv]
      exact ⟨⟨r, q.val, e, finish r q hr hq, hf⟩, ⟨r', q'.val, e', finish r' q' hr' hq', hf'⟩,
        ⟨r'', q''.val, e'', finish r'' q'' hr'' hq'', hf''⟩⟩

/-- `round(12.345%, 1)`: the hypotheses hold, with 100 digits. -/
example {s : σ} : ∃ r q, call (calculator (R := R) 100 powF [] 30 5 5 unitText f)
      (opRound 100 scalNumber ofNumber castBase castOffset)
      [Opd.pure (.sc (.num ⟨⟨2469, 20000⟩, some .percentage, none⟩)), Opd.pure (.sc (.num ⟨⟨1, 1⟩, none, none⟩))] s = (.ok r, s) ∧
    RoundedTo ⟨⟨2469, 20000⟩, some .percentage, none⟩ (Opd.pure (.sc (.num ⟨⟨2469, 20000⟩, some .percentage, none⟩))) r q ∧
    IsRoundAt 10 1 (100 * ((⟨2469, 20000⟩ : Number).val)) (100 * q) :=
  (C66_notation (p := 100) (k := 1) (n := ⟨⟨2469, 20000⟩, some .percentage, none⟩) (by norm_num) ⟨_, rfl, rfl⟩ (by simp)
    (.inr ⟨_, ⟨⟨1, 1⟩, none, none⟩, rfl, ⟨_, rfl, rfl⟩, rfl⟩) ⟨by decide, by decide +kernel⟩ (by decide) (by decide +kernel) (by decide +kernel)
    (by decide +kernel) s).2.2

/-- The answer is then 12.3%. -/
example : IsRoundAt 10 1 (100 * ((⟨2469, 20000⟩ : Number).val)) (100 * (123 / 1000)) := by
  have e : 100 * ((⟨2469, 20000⟩ : Number).val) = 2469 / 200 := by norm_num [Number.val]
  have near : ∀ g, HasPlaces 10 1 g → |(2469 / 200 : ℚ) - 123 / 10| ≤ |2469 / 200 - g| ∧
      (|2469 / 200 - g| = |(2469 / 200 : ℚ) - 123 / 10| → g = 123 / 10) := by
    rintro g ⟨z, hz⟩
    have hg : g = z / 10 := by push_cast at hz; rw [← hz]; ring
    subst hg
    rw [abs_of_pos (by norm_num : (0:ℚ) < 2469 / 200 - 123 / 10)]
    rcases lt_trichotomy z 123 with h | h | h
    · have : (z : ℚ) ≤ 122 := by exact_mod_cast (by omega : z ≤ 122)
      rw [abs_of_pos (by linarith)]
      exact ⟨by linarith, fun h => by linarith⟩
    · subst h
      exact ⟨by norm_num [abs_of_pos], fun _ => by norm_num⟩
    · have : (124 : ℚ) ≤ z := by exact_mod_cast (by omega : 124 ≤ z)
      rw [abs_of_neg (by linarith)]
      exact ⟨by linarith, fun h => by linarith⟩
  rw [e, show (100 : ℚ) * (123 / 1000) = 123 / 10 by norm_num]
  exact ⟨⟨123, by norm_num⟩, fun g hg => (near g hg).1, fun g hg h => by rw [(near g hg).2 h]⟩

end MC.Props
