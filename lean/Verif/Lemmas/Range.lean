import Verif.Model.Range
import Verif.Spec.Range
import Verif.Lemmas.Grid
import Verif.Props.Number

/-! Lemmas on ranges. -/

namespace MC.Range
open Number Spec

theorem isRange_nil {a b s : ℚ} (h : ¬ (0 < s ∧ a ≤ b ∨ s < 0 ∧ b ≤ a)) : IsRange a b s [] := by
  intro k x
  simp only [List.getElem?_nil, reduceCtorEq, false_iff, not_and]
  rintro rfl hk
  apply h
  have hk0 : (0:ℚ) ≤ k := by positivity
  rcases hk with ⟨h1, h2⟩ | ⟨h1, h2⟩
  · left; exact ⟨h1, by nlinarith⟩
  · right; exact ⟨h1, by nlinarith⟩

theorem isRange_cons {a b s : ℚ} {l : List ℚ} (h : 0 < s ∧ a ≤ b ∨ s < 0 ∧ b ≤ a)
    (hl : IsRange (a + s) b s l) : IsRange a b s (a :: l) := by
  intro k x
  cases k with
  | zero =>
    simp only [List.getElem?_cons_zero, Option.some.injEq, Nat.cast_zero, zero_mul, add_zero]
    constructor
    · rintro rfl; exact ⟨rfl, h⟩
    · rintro ⟨rfl, -⟩; rfl
  | succ k =>
    rw [List.getElem?_cons_succ, hl k x]
    have : a + s + k * s = a + (k + 1 : ℕ) * s := by push_cast; ring
    rw [this]

/-- A progression is determined by its bounds and step. -/
theorem isRange_unique {a b s : ℚ} {l m : List ℚ} (hl : IsRange a b s l) (hm : IsRange a b s m) :
    l = m := by
  apply List.ext_getElem?
  intro k
  cases h : l[k]? with
  | some x => exact ((hm k x).mpr ((hl k x).mp h)).symm
  | none =>
    cases h' : m[k]? with
    | none => rfl
    | some x => rw [(hl k x).mpr ((hm k x).mp h')] at h; cases h

variable {p k : ℕ}

theorem toDecimal_pos (hp : 1 ≤ p) (a : Number) : 0 < a.toDecimal p ↔ 0 < a.val := by
  constructor
  · intro h
    rcases lt_trichotomy a.val 0 with h' | h' | h'
    · have := rnd_neg_of_neg hp h'; unfold toDecimal at h; unfold val at this; linarith
    · unfold toDecimal at h; unfold val at h'; rw [h'] at h; simp [rnd] at h
    · exact h'
  · intro h; exact rnd_pos hp h

theorem toDecimal_neg (hp : 1 ≤ p) (a : Number) : a.toDecimal p < 0 ↔ a.val < 0 := by
  have := toDecimal_sign hp a
  constructor
  · intro h; by_contra hc; push Not at hc; have := this.mpr hc; linarith
  · intro h; by_contra hc; push Not at hc; have := this.mp hc; linarith

/-- Comparison of two numbers with a common denominator. -/
theorem le_grid (hp : 1 ≤ p) {a b : Number} {A B D : ℤ} (hD : 0 < D)
    (h1 : a.val = (A:ℚ) / D) (h2 : b.val = (B:ℚ) / D) (hs : 5 * (|A| + |B|) < 10 ^ p) :
    a.le p b = true ↔ A ≤ B := by
  have hDq : (0:ℚ) < D := by exact_mod_cast hD
  constructor
  · intro h
    by_contra hc
    push Not at hc
    have hsep : b.lt p a = true := by
      apply Props.C05_separation
      rw [h1, h2, abs_div, abs_div, abs_of_pos hDq]
      have e1 : (1:ℚ) ≤ A - B := by
        have : (1:ℤ) ≤ A - B := by omega
        exact_mod_cast this
      have e2 : 5 * (|(A:ℚ)| + |(B:ℚ)|) < 10 ^ p := by exact_mod_cast hs
      have e3 : 5 * (|(B:ℚ)| / D + |(A:ℚ)| / D) = 5 * (|(A:ℚ)| + |(B:ℚ)|) / D := by ring
      have e4 : ((A:ℚ) / D - B / D) * 10 ^ p = ((A - B) * 10 ^ p) / D := by ring
      rw [e3, e4, div_lt_div_iff_of_pos_right hDq]
      have : (0:ℚ) < 10 ^ p := by positivity
      nlinarith
    unfold Number.le at h
    unfold Number.lt at hsep
    simp only [decide_eq_true_eq] at h hsep
    linarith
  · intro h
    refine (Props.C05_sound p hp a b).2 ?_
    rw [h1, h2, div_le_div_iff_of_pos_right hDq]
    exact_mod_cast h

theorem ge_eq_le (a b : Number) : a.ge p b = b.le p a := by
  unfold Number.ge Number.le; simp [ge_iff_le]

/-- Whether the loop goes on. -/
theorem more_grid (hp : 1 ≤ p) {n b s : Number} {N B S D : ℤ} (hD : 0 < D)
    (h1 : n.val = (N:ℚ) / D) (h2 : b.val = (B:ℚ) / D) (h3 : s.val = (S:ℚ) / D)
    (hs : 5 * (|N| + |B|) < 10 ^ p) :
    more p b s n = true ↔ 0 < S ∧ N ≤ B ∨ S < 0 ∧ B ≤ N := by
  have hDq : (0:ℚ) < D := by exact_mod_cast hD
  unfold more
  rw [Bool.or_eq_true, Bool.and_eq_true, Bool.and_eq_true, decide_eq_true_iff, decide_eq_true_iff,
    toDecimal_pos hp, toDecimal_neg hp, ge_eq_le, le_grid hp hD h1 h2 hs,
    le_grid hp hD h2 h1 (by rwa [add_comm] at hs), h3]
  rw [div_pos_iff_of_pos_right hDq, div_neg_iff]
  simp only [Int.cast_pos, Int.cast_lt_zero]
  have : ¬ (D < 0) := by omega
  simp [this, hD]

theorem loop_grid {b s : Number} (hs : s.Canonical) {B S D : ℤ} (hD : 0 < D)
    (h2 : b.val = (B:ℚ) / D) (h3 : s.val = (S:ℚ) / D)
    (hB' : |B| < 10 ^ k) (hS' : |S| < 10 ^ k) (hD' : D < 10 ^ k) (hp : 2 * k + 2 ≤ p) :
    ∀ (m : ℕ) (n : Number) (N : ℤ), n.Canonical → n.val = (N:ℚ) / D → |N| < 2 * 10 ^ k →
      (B - N) * S < m * (S * S) →
      ∃ l, rangeLoop p b s m n = some (.ok l) ∧ (∀ x ∈ l, x.Canonical) ∧
        IsRange n.val b.val s.val (l.map val) := by
  have hDq : (0:ℚ) < D := by exact_mod_cast hD
  have hk1 : (1:ℤ) ≤ 10 ^ k := one_le_pow₀ (by norm_num)
  have hpk : (100:ℤ) * (10 ^ k * 10 ^ k) ≤ 10 ^ p := by
    calc (100:ℤ) * (10 ^ k * 10 ^ k) = 10 ^ (2 * k + 2) := by rw [pow_add, two_mul, pow_add]; ring
      _ ≤ 10 ^ p := pow_le_pow_right₀ (by norm_num) hp
  have hbig : (100:ℤ) * 10 ^ k ≤ 10 ^ p := by nlinarith
  have hcond : ∀ (n : Number) (N : ℤ), n.val = (N:ℚ) / D → |N| < 2 * 10 ^ k →
      (more p b s n = true ↔ 0 < S ∧ N ≤ B ∨ S < 0 ∧ B ≤ N) := fun n N hn hN =>
    more_grid (by omega) hD hn h2 h3 (by omega)
  have hQ : ∀ (n : Number) (N : ℤ), n.val = (N:ℚ) / D →
      ((0 < s.val ∧ n.val ≤ b.val ∨ s.val < 0 ∧ b.val ≤ n.val) ↔
        (0 < S ∧ N ≤ B ∨ S < 0 ∧ B ≤ N)) := by
    intro n N hn
    rw [h2, h3, hn, div_pos_iff_of_pos_right hDq, div_neg_iff, div_le_div_iff_of_pos_right hDq,
      div_le_div_iff_of_pos_right hDq]
    have : ¬ (D < 0) := by omega
    simp [this, hD]
  intro m
  induction m with
  | zero =>
    intro n N hn hv hN hm
    simp only [Nat.cast_zero, zero_mul] at hm
    have hno : ¬ (0 < S ∧ N ≤ B ∨ S < 0 ∧ B ≤ N) := by
      rintro (⟨x, y⟩ | ⟨x, y⟩) <;> nlinarith
    refine ⟨[], ?_, by simp, isRange_nil (by rwa [hQ n N hv])⟩
    have : more p b s n = false := by
      rw [← Bool.not_eq_true, hcond n N hv hN]; exact hno
    simp [rangeLoop, this]
  | succ m ih =>
    intro n N hn hv hN hm
    by_cases hin : 0 < S ∧ N ≤ B ∨ S < 0 ∧ B ≤ N
    · have hmore := (hcond n N hv hN).mpr hin
      obtain ⟨r, hr, hrc, hrv⟩ := add_grid (p := p) hn hs hD hv h3 (by
          have := abs_nonneg N
          nlinarith) (by
          have := abs_nonneg S
          nlinarith) (by omega) (by omega)
      obtain ⟨l, hl, hc, hrange⟩ := ih r (N + S) hrc hrv (by
          rw [abs_lt] at *
          omega) (by push_cast at hm; nlinarith)
      refine ⟨n :: l, ?_, ?_, ?_⟩
      · simp [rangeLoop, hmore, hr, lift, hl, Except.map]
      · simp only [List.mem_cons, forall_eq_or_imp]; exact ⟨hn, hc⟩
      · rw [List.map_cons]
        apply isRange_cons ((hQ n N hv).mpr hin)
        have : r.val = n.val + s.val := by rw [hrv, hv, h3]; push_cast; ring
        rwa [this] at hrange
    · refine ⟨[], ?_, by simp, isRange_nil (by rwa [hQ n N hv])⟩
      have : more p b s n = false := by
        rw [← Bool.not_eq_true, hcond n N hv hN]; exact hin
      rw [rangeLoop, if_neg (by simp [this])]

end MC.Range
