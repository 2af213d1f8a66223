import Mathlib.Analysis.SpecialFunctions.Complex.Arctan
import Mathlib.Analysis.SpecialFunctions.Trigonometric.Arctan
import Mathlib.Analysis.SpecificLimits.Normed
import Mathlib.Analysis.Complex.Exponential

/-! # π and e to fifty-three decimal places -/

namespace MC.Props
open Finset Filter

/-- A partial sum of the series of the arctangent of `1 / d`. -/
def arctanSum (d : ℚ) (n : ℕ) : ℚ := ∑ i ∈ range n, (-1) ^ i * (1 / (d ^ (2 * i + 1) * (2 * i + 1)))

/-- A partial sum of the series of `e`. -/
def expSum (n : ℕ) : ℚ := ∑ i ∈ range n, 1 / (i.factorial : ℚ)

theorem arctan_bounds {d : ℚ} (hd : 1 < d) (k : ℕ) :
    (arctanSum d (2 * k) : ℝ) ≤ Real.arctan (d : ℝ)⁻¹ ∧ Real.arctan (d : ℝ)⁻¹ ≤ (arctanSum d (2 * k + 1) : ℝ) := by
  have hd' : (1:ℝ) < d := by exact_mod_cast hd
  have h0 : (0:ℝ) < d := by linarith
  have hs := (Real.hasSum_arctan (x := (d:ℝ)⁻¹) (by
    rw [Real.norm_of_nonneg (by positivity)]; exact inv_lt_one_of_one_lt₀ hd')).tendsto_sum_nat
  let f : ℕ → ℝ := fun i => 1 / ((d:ℝ) ^ (2 * i + 1) * (2 * i + 1))
  have hf : Antitone f := by
    refine antitone_nat_of_succ_le fun n => ?_
    refine one_div_le_one_div_of_le (by positivity) ?_
    have : (d:ℝ) ^ (2 * n + 1) ≤ d ^ (2 * (n + 1) + 1) := pow_le_pow_right₀ hd'.le (by omega)
    refine mul_le_mul this ?_ (by positivity) (by positivity)
    push_cast
    linarith
  have hs' : Tendsto (fun n => ∑ i ∈ range n, (-1) ^ i * f i) atTop (nhds (Real.arctan (d:ℝ)⁻¹)) := by
    refine hs.congr fun n => ?_
    refine Finset.sum_congr rfl fun i _ => ?_
    simp only [f, inv_pow]
    push_cast
    field_simp
  have e : ∀ n, (arctanSum d n : ℝ) = ∑ i ∈ range n, (-1) ^ i * f i := by
    intro n
    unfold arctanSum
    push_cast
    rfl
  rw [e, e]
  exact ⟨hf.alternating_series_le_tendsto hs' k, hf.tendsto_le_alternating_series hs' k⟩

/-- π between two decimals with fifty-three places. -/
theorem pi_digits :
    (314159265358979323846264338327950288419716939937510582 / 10 ^ 53 : ℝ) ≤ Real.pi ∧
    Real.pi ≤ 314159265358979323846264338327950288419716939937510583 / 10 ^ 53 := by
  have m := Real.four_mul_arctan_inv_5_sub_arctan_inv_239
  obtain ⟨a1, a2⟩ := arctan_bounds (d := 5) (by norm_num) 19
  obtain ⟨b1, b2⟩ := arctan_bounds (d := 239) (by norm_num) 6
  have l : (314159265358979323846264338327950288419716939937510582 / 10 ^ 53 : ℚ)
      ≤ 4 * (4 * arctanSum 5 (2 * 19) - arctanSum 239 (2 * 6 + 1)) := by decide +kernel
  have u : 4 * (4 * arctanSum 5 (2 * 19 + 1) - arctanSum 239 (2 * 6))
      ≤ (314159265358979323846264338327950288419716939937510583 / 10 ^ 53 : ℚ) := by decide +kernel
  have l' := (Rat.cast_le (K := ℝ)).mpr l
  have u' := (Rat.cast_le (K := ℝ)).mpr u
  push_cast at l' u' a1 a2 b1 b2
  constructor <;> linarith

/-- `e` between two decimals with fifty-three places. -/
theorem e_digits :
    (271828182845904523536028747135266249775724709369995957 / 10 ^ 53 : ℝ) ≤ Real.exp 1 ∧
    Real.exp 1 ≤ 271828182845904523536028747135266249775724709369995958 / 10 ^ 53 := by
  have h1 := Real.sum_le_exp_of_nonneg (x := 1) (by norm_num) 45
  have h2 := Real.exp_bound' (x := 1) (by norm_num) le_rfl (n := 45) (by norm_num)
  have l : (271828182845904523536028747135266249775724709369995957 / 10 ^ 53 : ℚ) ≤ expSum 45 := by decide +kernel
  have u : expSum 45 + 46 / ((Nat.factorial 45 : ℚ) * 45)
      ≤ (271828182845904523536028747135266249775724709369995958 / 10 ^ 53 : ℚ) := by decide +kernel
  have l' := (Rat.cast_le (K := ℝ)).mpr l
  have u' := (Rat.cast_le (K := ℝ)).mpr u
  unfold expSum at l' u'
  push_cast at l' u'
  simp only [one_pow] at h1 h2
  push_cast at h1 h2
  norm_num only at h2 u' ⊢
  constructor <;> linarith

end MC.Props
