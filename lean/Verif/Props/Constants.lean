import Verif.Lemmas.Constants
import Verif.Model.Constants
import Verif.Props.Display
import Verif.Props.International
import Verif.Spec.Constants

/-! # C92: the constants are right -/

namespace MC.Props
open MC.Constants MC.Number MC.Spec MC.Unit MC.Unit.Table MC.Unit.Spec MC.Spec.International

/-- The three numbers as they are in the calculator. -/
def stored : List (String × ℚ) :=
  [("e", 271828182845904523536028747135266249775724709369995 / 10 ^ 50),
   ("pi", 314159265358979323846264338327950288419716939937511 / 10 ^ 50),
   ("tau", 628318530717958647692528676655900576839433879875022 / 10 ^ 50)]

theorem ofText_exact {p : ℕ} {s : String} {neg : Bool} {ip fp : List Char}
    (hm : matchDecimal s.toList = some (neg, ip, fp, [])) {q : ℚ} (hq : decimalOf neg ip fp = q)
    (hd : (q.den : ℤ) < 10 ^ p) : ofText p s = .ok ⟨q.num, q.den⟩ := by
  unfold ofText
  rw [hm]
  dsimp only
  rw [hq]
  exact mk'_lit _ hd

/-- The text as a rational number. -/
def textValue (s : String) : Option ℚ :=
  match matchDecimal s.toList with
  | some (neg, ip, fp, []) => some (decimalOf neg ip fp)
  | _ => none

theorem ofText_value {p : ℕ} {s : String} {q : ℚ} (h : textValue s = some q) (hd : (q.den : ℤ) < 10 ^ p) :
    ofText p s = .ok ⟨q.num, q.den⟩ := by
  unfold textValue at h
  split at h
  · rename_i hm
    exact ofText_exact hm (by simpa using h) hd
  · simp at h

theorem den_lt {p k : ℕ} (hp : k < p) {q : ℚ} (h : q.den ≤ 10 ^ k) : (q.den : ℤ) < 10 ^ p := by
  have : (10:ℤ) ^ k < 10 ^ p := pow_lt_pow_right₀ (by norm_num) hp
  have h' : (q.den : ℤ) ≤ 10 ^ k := by exact_mod_cast h
  omega

/-- What the calculator has under the name of a constant. -/
theorem stored_constant {p : ℕ} (hp : 51 ≤ p) {name : String} {q : ℚ} (h : (name, q) ∈ stored) :
    constant p name = some (.ok (⟨q.num, q.den⟩, none)) := by
  simp only [stored, List.mem_cons, List.not_mem_nil, or_false, Prod.mk.injEq] at h
  have key : ∀ (name s : String) (q : ℚ), table.lookup name = some (s, none) → textValue s = some q → q.den ≤ 10 ^ 50 →
      constant p name = some (.ok (⟨q.num, q.den⟩, none)) := by
    intro name s q h1 h2 h3
    have ht := ofText_value (p := p) h2 (den_lt (k := 50) (by omega) h3)
    unfold constant
    rw [h1]
    simp only [Option.map_some, ht, Except.map, Option.map_none]
  rcases h with ⟨rfl, rfl⟩ | ⟨rfl, rfl⟩ | ⟨rfl, rfl⟩
  · exact key _ "2.71828182845904523536028747135266249775724709369995" _ (by decide +kernel) (by decide +kernel)
      (by decide +kernel)
  · exact key _ "3.14159265358979323846264338327950288419716939937511" _ (by decide +kernel) (by decide +kernel)
      (by decide +kernel)
  · exact key _ "6.28318530717958647692528676655900576839433879875022" _ (by decide +kernel) (by decide +kernel)
      (by decide +kernel)

/-- The number with the value `q`. -/
theorem stored_number (q : ℚ) : (⟨q.num, q.den⟩ : Number).Canonical ∧ (⟨q.num, q.den⟩ : Number).val = q :=
  ⟨canonical_ofRat q, val_ofRat q⟩

/-- How far the three numbers are from the mathematical constants. -/
theorem stored_near {name : String} {x : ℝ} (h : (name, x) ∈ mathematical) :
    ∃ q, (name, q) ∈ stored ∧ |(q : ℝ) - x| < 1 / 10 ^ 50 := by
  simp only [mathematical, List.mem_cons, List.not_mem_nil, or_false, Prod.mk.injEq] at h
  obtain ⟨p1, p2⟩ := pi_digits
  obtain ⟨e1, e2⟩ := e_digits
  rcases h with ⟨rfl, rfl⟩ | ⟨rfl, rfl⟩ | ⟨rfl, rfl⟩
  · refine ⟨_, .head _, ?_⟩
    push_cast
    rw [abs_lt]
    norm_num only at e1 e2 ⊢
    constructor <;> linarith
  · refine ⟨_, .tail _ (.head _), ?_⟩
    push_cast
    rw [abs_lt]
    norm_num only at p1 p2 ⊢
    constructor <;> linarith
  · refine ⟨_, .tail _ (.tail _ (.head _)), ?_⟩
    push_cast
    rw [abs_lt]
    norm_num only at p1 p2 ⊢
    constructor <;> linarith

/-- **C92**: `e`, `pi` and `tau` are the mathematical constants to less than one unit of the fiftieth decimal place, and
have no unit. -/
theorem C92_close {p : ℕ} (hp : 51 ≤ p) {name : String} {x : ℝ} (h : (name, x) ∈ mathematical) :
    ∃ n, constant p name = some (.ok (n, none)) ∧ n.Canonical ∧ |(n.val : ℝ) - x| < 1 / 10 ^ 50 := by
  obtain ⟨q, hq, hx⟩ := stored_near h
  exact ⟨_, stored_constant hp hq, (stored_number q).1, by rw [(stored_number q).2]; exact hx⟩

/-- **C92**: `tau` is exactly twice `pi`. -/
theorem C92_tau {p : ℕ} (hp : 51 ≤ p) : ∃ m n, constant p "tau" = some (.ok (m, none)) ∧
    constant p "pi" = some (.ok (n, none)) ∧ m.val = 2 * n.val := by
  refine ⟨_, _, stored_constant hp (.tail _ (.tail _ (.head _))), stored_constant hp (.tail _ (.head _)), ?_⟩
  rw [(stored_number _).2, (stored_number _).2]
  norm_num

theorem nearest_of_half {k : ℕ} {x : ℝ} {m : ℤ} (h : |(m : ℝ) / 10 ^ k - x| ≤ 1 / 2 / 10 ^ k) :
    NearestDecimal k x (m / 10 ^ k) := by
  refine ⟨⟨m, rfl⟩, fun m' => ?_⟩
  push_cast
  by_cases e : m' = m
  · rw [e]
  · have h1 : (1:ℝ) ≤ |(m':ℝ) - m| := by
      have : (1:ℤ) ≤ |m' - m| := Int.one_le_abs (sub_ne_zero.mpr e)
      exact_mod_cast this
    have h2 : 1 / 10 ^ k ≤ |(m' : ℝ) / 10 ^ k - m / 10 ^ k| := by
      rw [← sub_div, abs_div, abs_of_pos (by positivity : (0:ℝ) < 10 ^ k)]
      gcongr
    have h3 := abs_sub_le ((m' : ℝ) / 10 ^ k) x (m / 10 ^ k)
    rw [abs_sub_comm x] at h3
    have : (1:ℝ) / 10 ^ k = 1 / 2 / 10 ^ k + 1 / 2 / 10 ^ k := by ring
    linarith

/-- **C92**: `pi` is the decimal with fifty places that is nearest to π.  Partial: this is false of the other two, see
`C92_e_violation` and `C92_tau_violation`. -/
theorem C92_nearest_partial {p : ℕ} (hp : 51 ≤ p) :
    ∃ n, constant p "pi" = some (.ok (n, none)) ∧ NearestDecimal 50 Real.pi n.val := by
  refine ⟨_, stored_constant hp (.tail _ (.head _)), ?_⟩
  rw [(stored_number _).2]
  have := nearest_of_half (k := 50) (x := Real.pi) (m := 314159265358979323846264338327950288419716939937511) (by
    obtain ⟨p1, p2⟩ := pi_digits
    rw [abs_le]
    norm_num only at p1 p2 ⊢
    constructor <;> linarith)
  rw [Int.cast_ofNat] at this
  exact this

/-- `e` is cut off after fifty places, not rounded: the next decimal is nearer. -/
theorem C92_e_violation {p : ℕ} (hp : 51 ≤ p) :
    ∃ n, constant p "e" = some (.ok (n, none)) ∧ ¬ NearestDecimal 50 (Real.exp 1) n.val := by
  refine ⟨_, stored_constant hp (.head _), ?_⟩
  rw [(stored_number _).2]
  rintro ⟨-, h⟩
  have := h 271828182845904523536028747135266249775724709369996
  obtain ⟨e1, e2⟩ := e_digits
  push_cast at this
  rw [abs_of_nonpos (by norm_num only at e1 e2 ⊢; linarith), abs_of_nonneg (by norm_num only at e1 e2 ⊢; linarith)] at this
  norm_num only at e1 e2 this
  linarith

/-- `tau` is twice the rounded `pi`, not the rounded 2π: the decimal before it is nearer. -/
theorem C92_tau_violation {p : ℕ} (hp : 51 ≤ p) :
    ∃ n, constant p "tau" = some (.ok (n, none)) ∧ ¬ NearestDecimal 50 (2 * Real.pi) n.val := by
  refine ⟨_, stored_constant hp (.tail _ (.tail _ (.head _))), ?_⟩
  rw [(stored_number _).2]
  rintro ⟨-, h⟩
  have := h 628318530717958647692528676655900576839433879875021
  obtain ⟨e1, e2⟩ := pi_digits
  push_cast at this
  rw [abs_of_nonneg (by norm_num only at e1 e2 ⊢; linarith), abs_of_nonpos (by norm_num only at e1 e2 ⊢; linarith)] at this
  norm_num only at e1 e2 this
  linarith

/-- **C92**: shown with any number of places below fifty, a constant is right to half a unit of the last place shown, and
one unit of the fiftieth place. -/
theorem C92_shown {p prec : ℕ} (hp : prec + 53 ≤ p) {name : String} {x : ℝ} (h : (name, x) ∈ mathematical) :
    ∃ n t r, constant p name = some (.ok (n, none)) ∧ toText p prec n = .ok t ∧ parseDecimal p t = some (.ok r) ∧
      |(r.val : ℝ) - x| ≤ 1 / 2 / 10 ^ prec + 1 / 10 ^ 50 := by
  obtain ⟨q, hq, hx⟩ := stored_near h
  have hnum : |q.num| ≤ 10 ^ 51 := by
    simp only [stored, List.mem_cons, List.not_mem_nil, or_false, Prod.mk.injEq] at hq
    rcases hq with ⟨-, rfl⟩ | ⟨-, rfl⟩ | ⟨-, rfl⟩ <;> decide +kernel
  obtain ⟨t, r, h1, h2, -, h3, -⟩ := C10_read_back p prec (by omega) ⟨q.num, q.den⟩ (stored_number q).1 (by
    calc (10:ℤ) ^ (prec + 1) * |q.num| ≤ 10 ^ (prec + 1) * 10 ^ 51 := by gcongr
      _ = 10 ^ (prec + 52) := by rw [← pow_add]
      _ < 10 ^ p := pow_lt_pow_right₀ (by norm_num) (by omega))
  refine ⟨_, t, r, stored_constant (by omega) hq, h1, h2, ?_⟩
  rw [(stored_number q).2] at h3
  have h3' := (Rat.cast_le (K := ℝ)).mpr h3
  push_cast at h3'
  have := abs_sub_le (r.val : ℝ) q x
  linarith

/-- **C92**: with the settings the calculator starts with, what is shown for a constant is the nearest decimal with thirty
places. -/
theorem C92_default {name : String} {x : ℝ} (h : (name, x) ∈ mathematical) :
    ∃ n t r, constant 100 name = some (.ok (n, none)) ∧ toText 100 30 n = .ok t ∧ parseDecimal 100 t = some (.ok r) ∧
      NearestDecimal 30 x r.val := by
  simp only [mathematical, List.mem_cons, List.not_mem_nil, or_false, Prod.mk.injEq] at h
  obtain ⟨p1, p2⟩ := pi_digits
  obtain ⟨e1, e2⟩ := e_digits
  have key : ∀ (m : ℤ) (t : List Char) (q : ℚ) (name : String) (x : ℝ), (name, q) ∈ stored →
      toText 100 30 ⟨q.num, q.den⟩ = .ok t →
      parseDecimal 100 t = some (.ok ⟨((m:ℚ) / 10 ^ 30).num, ((m:ℚ) / 10 ^ 30).den⟩) →
      |(m : ℝ) / 10 ^ 30 - x| ≤ 1 / 2 / 10 ^ 30 →
      ∃ n t r, constant 100 name = some (.ok (n, none)) ∧ toText 100 30 n = .ok t ∧ parseDecimal 100 t = some (.ok r) ∧
      NearestDecimal 30 x r.val := by
    intro m t q name x h1 h2 h3 h4
    refine ⟨_, t, _, stored_constant (by norm_num) h1, h2, h3, ?_⟩
    rw [(stored_number _).2]
    exact nearest_of_half h4
  rcases h with ⟨rfl, rfl⟩ | ⟨rfl, rfl⟩ | ⟨rfl, rfl⟩
  · refine key 2718281828459045235360287471353 "2.718281828459045235360287471353".toList _ _ _ (.head _) (by decide +kernel)
      (by decide +kernel) ?_
    rw [abs_le]
    push_cast
    norm_num only at e1 e2 ⊢
    constructor <;> linarith
  · refine key 3141592653589793238462643383280 "3.14159265358979323846264338328".toList _ _ _ (.tail _ (.head _))
      (by decide +kernel) (by decide +kernel) ?_
    rw [abs_le]
    push_cast
    norm_num only at p1 p2 ⊢
    constructor <;> linarith
  · refine key 6283185307179586476925286766559 "6.283185307179586476925286766559".toList _ _ _
      (.tail _ (.tail _ (.head _))) (by decide +kernel) (by decide +kernel) ?_
    rw [abs_le]
    push_cast
    norm_num only at p1 p2 ⊢
    constructor <;> linarith

/-! ## Constants with units -/

section
variable {K : Type} [Field K] [CharZero K] {pw : K → ℚ → K}
variable {closer : K → K → Except Raise Bool} {simpler : K → K → Bool}

/-- The sizes and powers of the units of a list. -/
def steps (us : PL Shipped) : List (ℚ × ℚ) := us.map (fun o => (o.1.1.step, o.2))

/-- The powers of the base quantities of a list of units. -/
def powersOf (us : PL Shipped) : List ℚ := quantities.map (fun d => (us.map (fun o => o.2 * o.1.1.power d)).sum)

theorem planck_units : steps (multiOf [("joule", 1), ("second", 1)]) = [(1, 1), (1, 1)] ∧
    powersOf (multiOf [("joule", 1), ("second", 1)]) = [2, 1, -1, 0, 0, 0, 0, 0, 0, 0] := by decide +kernel

theorem speed_units : steps (multiOf [("meter", 1), ("second", -1)]) = [(1, 1), (1, -1)] ∧
    powersOf (multiOf [("meter", 1), ("second", -1)]) = [1, 0, -1, 0, 0, 0, 0, 0, 0, 0] := by decide +kernel

theorem gravity_units : steps (multiOf [("meter", 1), ("second", -2)]) = [(1, 1), (1, -2)] ∧
    powersOf (multiOf [("meter", 1), ("second", -2)]) = [1, 0, -2, 0, 0, 0, 0, 0, 0, 0] := by decide +kernel

theorem newton_units : steps (multiOf [("meter", 3), ("kilogram", -1), ("second", -2)]) = [(1, 3), (1, -1), (1, -2)] ∧
    powersOf (multiOf [("meter", 3), ("kilogram", -1), ("second", -2)]) = [3, -1, -2, 0, 0, 0, 0, 0, 0, 0] := by decide +kernel

theorem newton_entry : table.lookup "G" = some ("0.0000000000667408", some [("meter", 3), ("kilogram", -1), ("second", -2)]) ∧
    textValue "0.0000000000667408" = some (667408 / 10 ^ 16) ∧ (667408 / 10 ^ 16 : ℚ).den ≤ 10 ^ 50 := by decide +kernel

theorem physical_texts : textValue "299792458" = some 299792458 ∧ textValue "9.80665" = some (980665 / 10 ^ 5) ∧
    textValue "0.000000000000000000000000000000000662607015" = some (662607015 / 10 ^ 42) := by decide +kernel

theorem physical_dens : (299792458 : ℚ).den ≤ 10 ^ 50 ∧ (980665 / 10 ^ 5 : ℚ).den ≤ 10 ^ 50 ∧
    (662607015 / 10 ^ 42 : ℚ).den ≤ 10 ^ 50 := by decide +kernel

theorem physical_entries : table.lookup "speedoflight" = some ("299792458", some [("meter", 1), ("second", -1)]) ∧
    table.lookup "earthgravity" = some ("9.80665", some [("meter", 1), ("second", -2)]) ∧
    table.lookup "Planck" = some ("0.000000000000000000000000000000000662607015", some [("joule", 1), ("second", 1)]) := by
  decide +kernel

attribute [local irreducible] Table.units lines

theorem size_ones (hp : Powers pw) {us : PL Shipped} (h : ∀ o ∈ steps us, o.1 = 1) :
    Unit.Spec.size pw (norm K closer simpler) us = 1 := by
  unfold Unit.Spec.size
  apply List.prod_eq_one
  intro k hk
  obtain ⟨o, ho, rfl⟩ := List.mem_map.1 hk
  have h1 : o.1.1.step = 1 := h _ (List.mem_map_of_mem (f := fun o : Shipped × ℚ => (o.1.1.step, o.2)) ho)
  rw [stepSize_norm, h1]
  simpa using hp.one o.2

/-- **C92**: the speed of light, the constant of Planck, the standard acceleration of free fall and the constant of gravitation
are what they should be: the number times the size of the unit is the value in the list, and the unit has the right dimension. -/
theorem C92_physical (hpw : Powers pw) {p : ℕ} (hp : 51 ≤ p) {name : String} {w : Worth} (h : (name, w) ∈ physical) :
    ∃ n us, constant p name = some (.ok (n, some us)) ∧
      quantity pw (norm K closer simpler) ((n.val : K), some us) = (w.value : K) ∧
      quantities.map (fun d => dimOf (norm K closer simpler) us d) = w.powers.map (fun z : ℤ => (z : ℚ)) := by
  have key : ∀ (name s : String) (l : List (String × ℤ)) (w : Worth) (st : List (ℚ × ℚ)),
      table.lookup name = some (s, some l) → textValue s = some w.value → w.value.den ≤ 10 ^ 50 →
      steps (multiOf l) = st → (∀ o ∈ st, o.1 = 1) → powersOf (multiOf l) = w.powers.map (fun z : ℤ => (z : ℚ)) →
      ∃ n us, constant p name = some (.ok (n, some us)) ∧
      quantity pw (norm K closer simpler) ((n.val : K), some us) = (w.value : K) ∧
      quantities.map (fun d => dimOf (norm K closer simpler) us d) = w.powers.map (fun z : ℤ => (z : ℚ)) := by
    intro name s l w st h1 h2 h3 h4 h5 h6
    refine ⟨⟨w.value.num, w.value.den⟩, multiOf l, ?_, ?_, ?_⟩
    · have ht := ofText_value (p := p) h2 (den_lt (k := 50) (by omega) h3)
      unfold constant
      rw [h1]
      simp only [Option.map_some, ht, Except.map]
    · unfold quantity
      simp only [Option.getD_some]
      rw [size_ones hpw (h4 ▸ h5), mul_one, (stored_number _).2]
    · rw [← h6]
      unfold powersOf dimOf
      refine List.map_congr_left fun d _ => ?_
      congr 1
      refine List.map_congr_left fun o _ => ?_
      rw [unitDim_norm]
  simp only [physical, List.mem_cons, List.not_mem_nil, or_false, Prod.mk.injEq] at h
  rcases h with ⟨rfl, rfl⟩ | ⟨rfl, rfl⟩ | ⟨rfl, rfl⟩ | ⟨rfl, rfl⟩
  · exact key _ _ _ _ _ physical_entries.1 physical_texts.1 physical_dens.1 speed_units.1 (by simp)
      (by rw [speed_units.2]; norm_num)
  · exact key _ _ _ _ _ physical_entries.2.2 physical_texts.2.2 physical_dens.2.2 planck_units.1 (by simp)
      (by rw [planck_units.2]; norm_num)
  · exact key _ _ _ _ _ physical_entries.2.1 physical_texts.2.1 physical_dens.2.1 gravity_units.1 (by simp)
      (by rw [gravity_units.2]; norm_num)
  · exact key _ _ _ _ _ newton_entry.1 newton_entry.2.1 newton_entry.2.2 newton_units.1 (by simp)
      (by rw [newton_units.2]; norm_num)

end

example : ("pi", Real.pi) ∈ mathematical ∧ (∃ n, constant 100 "pi" = some (.ok (n, none)) ∧
    NearestDecimal 50 Real.pi n.val) := ⟨.tail _ (.head _), C92_nearest_partial (by norm_num)⟩

example : toText 100 10 ⟨314159265358979323846264338327950288419716939937511, 10 ^ 50⟩
    = .ok "3.1415926536".toList := by decide +kernel

end MC.Props
