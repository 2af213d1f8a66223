import Verif.Lemmas.Range

/-! # C50 and C51: ranges -/

namespace MC.Props
open MC Number Range Spec

variable {U σ : Type} {p k : ℕ}

/-- `x` is a multiple of `1/D` with a numerator of at most `k` digits (over `D`). -/
def OnGrid (D : ℤ) (k : ℕ) (x : Number) : Prop :=
  x.Canonical ∧ ∃ N : ℤ, x.val = (N:ℚ) / D ∧ |N| < 10 ^ k

/-- `x'` is `x` in the unit of the start `a`; either neither has a unit or both have. -/
def InUnitOf (conv : Number × U → Number × U → Except Raise Number) (a x : Number × Option U)
    (x' : Number) : Prop :=
  (a.2 = none ∧ x.2 = none ∧ x' = x.1) ∨
  ∃ u w, a.2 = some u ∧ x.2 = some w ∧ conv (a.1, u) (x.1, w) = .ok x'

theorem unifyAll_of {conv : Number × U → Number × U → Except Raise Number}
    {a b s : Number × Option U} {b' s' : Number} (hb : InUnitOf conv a b b')
    (hs : InUnitOf conv a s s') : unifyAll conv a b s = .ok (b', s') := by
  rcases hb with ⟨h1, h2, rfl⟩ | ⟨u, w, h1, h2, h3⟩
  · rcases hs with ⟨-, h5, rfl⟩ | ⟨u, w, h4, -⟩
    · simp [unifyAll, h1, h2, h5]
    · rw [h1] at h4; cases h4
  · rcases hs with ⟨h4, -⟩ | ⟨u', w', h4, h5, h6⟩
    · rw [h1] at h4; cases h4
    · rw [h1] at h4; cases h4
      simp [unifyAll, h1, unify, h2, h3, h5, h6, bind, Except.bind, pure, Except.pure]

theorem mul_num_grid {x s : Number} (hx : x.Canonical) (hs : s.Canonical) {X S D : ℤ} (hD : 0 < D)
    (h1 : x.val = (X:ℚ) / D) (h2 : s.val = (S:ℚ) / D) (hX : |X| * |S| < 10 ^ p) (hDD : D * D < 10 ^ p) :
    ∃ r, mul p x s = .ok r ∧ r.Canonical ∧ r.val = x.val * s.val := by
  have n1 := num_le_of_val hx hD.ne' h1
  have n2 := num_le_of_val hs hD.ne' h2
  have d1 := Int.le_of_dvd hD (grid_den hx h1)
  have d2 := Int.le_of_dvd hD (grid_den hs h2)
  refine mul_exact hx.1 hs.1 ?_ ?_
  · rw [abs_mul]
    exact lt_of_le_of_lt (mul_le_mul n1 n2 (abs_nonneg _) (abs_nonneg _)) hX
  · exact lt_of_le_of_lt (mul_le_mul d1 d2 hs.1.le hD.le) hDD

/-- The product whose sign decides whether the end can be reached. -/
theorem direction {a b s : Number} {D : ℤ} (hD : 0 < D) (hDk : D < 10 ^ k) (hp : 2 * k + 2 ≤ p)
    (ha : OnGrid D k a) (hb : OnGrid D k b) (hs : OnGrid D k s) :
    ∃ d, lift (do (← b.sub p a).mul p s) = .ok d ∧ d.val = (b.val - a.val) * s.val := by
  obtain ⟨hac, A, hA, hA'⟩ := ha
  obtain ⟨hbc, B, hB, hB'⟩ := hb
  obtain ⟨hsc, S, hS, hS'⟩ := hs
  have hk1 : (1:ℤ) ≤ 10 ^ k := one_le_pow₀ (by norm_num)
  have hpk : (100:ℤ) * (10 ^ k * 10 ^ k) ≤ 10 ^ p := by
    calc (100:ℤ) * (10 ^ k * 10 ^ k) = 10 ^ (2 * k + 2) := by rw [pow_add, two_mul, pow_add]; ring
      _ ≤ 10 ^ p := pow_le_pow_right₀ (by norm_num) hp
  have hbig : (100:ℤ) * 10 ^ k ≤ 10 ^ p := by nlinarith
  have key : ∀ X : ℤ, |X| < 10 ^ k → |X| * D < 10 ^ p := by
    intro X hX; have := abs_nonneg X; nlinarith
  obtain ⟨r, hr, hrc, hrv⟩ := sub_grid (p := p) hbc hac hD hB hA (key B hB') (key A hA') (by omega) (by omega)
  have hBA : |B - A| < 2 * 10 ^ k := lt_of_le_of_lt (abs_sub _ _) (by omega)
  obtain ⟨d, hd, -, hdv⟩ := mul_num_grid (p := p) hrc hsc hD hrv hS (by
      have := abs_nonneg S; have := abs_nonneg (B - A); nlinarith) (by nlinarith)
  refine ⟨d, ?_, ?_⟩
  · simp [hr, hd, lift, bind, Except.bind]
  · rw [hdv, hrv, hB, hA]; push_cast; ring

theorem progression_grid {a b s : Number} {D : ℤ} (hD : 0 < D) (hDk : D < 10 ^ k)
    (hp : 2 * k + 2 ≤ p) (ha : OnGrid D k a) (hb : OnGrid D k b) (hs : OnGrid D k s)
    (hs0 : s.val ≠ 0) (hdir : 0 ≤ (b.val - a.val) * s.val) :
    ∃ (fuel : ℕ) (l : List Number), progression p fuel a b s = some (.ok l) ∧
      (∀ x ∈ l, x.Canonical) ∧ IsRange a.val b.val s.val (l.map val) := by
  obtain ⟨d, hd, hdv⟩ := direction hD hDk hp ha hb hs
  obtain ⟨hac, A, hA, hA'⟩ := ha
  obtain ⟨hbc, B, hB, hB'⟩ := hb
  obtain ⟨hsc, S, hS, hS'⟩ := hs
  have hS0 : S ≠ 0 := by rintro rfl; apply hs0; rw [hS]; simp
  have hSS : 0 < S * S := mul_self_pos.mpr hS0
  obtain ⟨m, hm⟩ : ∃ m : ℕ, (B - A) * S < m * (S * S) := by
    refine ⟨((B - A) * S).natAbs + 1, ?_⟩
    push_cast
    have := le_abs_self ((B - A) * S)
    have := abs_nonneg ((B - A) * S)
    nlinarith
  obtain ⟨l, hl, hc, hr⟩ := loop_grid hsc hD hB hS hB' hS' hDk hp m a A hac hA (by omega) hm
  refine ⟨m, l, ?_, hc, hr⟩
  have : ¬ d.toDecimal p < 0 := by
    rw [toDecimal_neg (by omega), hdv]; push Not; exact hdir
  simp only [progression, hd, this, if_false, hl]

/-- **C50**: a range contains exactly the progression, in the unit of the start.  Start, end
and step are `a`, `b'`, `s'` in that unit; on a grid of `k` digits with `2 k + 2` digits of
precision all arithmetic is exact. -/
theorem C50_range (conv : Number × U → Number × U → Except Raise Number)
    {start stop step : Act σ (RRes U)} {s₀ s₁ s₂ s₃ : σ} {a b s b' s' : Number}
    {ua ub us : Option U} {D : ℤ}
    (h1 : start s₀ = (.ok ⟨.num a, ua⟩, s₁)) (h2 : stop s₁ = (.ok ⟨.num b, ub⟩, s₂))
    (h3 : step s₂ = (.ok ⟨.num s, us⟩, s₃))
    (hb : InUnitOf conv (a, ua) (b, ub) b') (hs : InUnitOf conv (a, ua) (s, us) s')
    (hD : 0 < D) (hDk : D < 10 ^ k) (hp : 2 * k + 2 ≤ p)
    (ga : OnGrid D k a) (gb : OnGrid D k b') (gs : OnGrid D k s') (hs0 : s'.val ≠ 0)
    (hdir : 0 ≤ (b'.val - a.val) * s'.val) :
    ∃ (fuel : ℕ) (l : List Number),
      elementValue p conv fuel start (some stop) (some step) s₀ =
        some (.ok (l.map (fun n => ⟨.num n, ua⟩)), s₃) ∧
      (∀ x ∈ l, x.Canonical) ∧ IsRange a.val b'.val s'.val (l.map val) := by
  obtain ⟨fuel, l, hl, hc, hr⟩ := progression_grid hD hDk hp ga gb gs hs0 hdir
  refine ⟨fuel, l, ?_, hc, hr⟩
  simp [elementValue, h1, component, h2, h3, rangeFinish, unifyAll_of hb hs, hl, Except.map]

/-- **C50**: a step of the wrong sign raises. -/
theorem C50_wrong_sign (conv : Number × U → Number × U → Except Raise Number)
    {start stop step : Act σ (RRes U)} {s₀ s₁ s₂ s₃ : σ} {a b s b' s' : Number}
    {ua ub us : Option U} {D : ℤ}
    (h1 : start s₀ = (.ok ⟨.num a, ua⟩, s₁)) (h2 : stop s₁ = (.ok ⟨.num b, ub⟩, s₂))
    (h3 : step s₂ = (.ok ⟨.num s, us⟩, s₃))
    (hb : InUnitOf conv (a, ua) (b, ub) b') (hs : InUnitOf conv (a, ua) (s, us) s')
    (hD : 0 < D) (hDk : D < 10 ^ k) (hp : 2 * k + 2 ≤ p)
    (ga : OnGrid D k a) (gb : OnGrid D k b') (gs : OnGrid D k s')
    (hdir : (b'.val - a.val) * s'.val < 0) (fuel : ℕ) :
    ∃ e, elementValue p conv fuel start (some stop) (some step) s₀ = some (.error (.exec e), s₃) := by
  obtain ⟨d, hd, hdv⟩ := direction hD hDk hp ga gb gs
  have : d.toDecimal p < 0 := by rw [toDecimal_neg (by omega), hdv]; exact hdir
  simp [elementValue, h1, component, h2, h3, rangeFinish, unifyAll_of hb hs, progression, hd, this,
    Except.map]

theorem lt_grid (hp : 1 ≤ p) {a b : Number} {A B D : ℤ} (hD : 0 < D)
    (h1 : a.val = (A:ℚ) / D) (h2 : b.val = (B:ℚ) / D) (hs : 5 * (|A| + |B|) < 10 ^ p) :
    a.lt p b = true ↔ A < B := by
  have := le_grid hp hD h2 h1 (by rwa [add_comm] at hs)
  unfold Number.le at this
  unfold Number.lt
  simp only [decide_eq_true_eq] at this ⊢
  rw [← not_le, this, not_le]

/-- **C50**: without a step, and with start and end in the same unit (or none), the range goes
from the start towards the end in steps of one. -/
theorem C50_default_step (conv : Number × U → Number × U → Except Raise Number)
    (hconv : ∀ x y : Number, ∀ u : U, conv (x, u) (y, u) = .ok y)
    {start stop : Act σ (RRes U)} {s₀ s₁ s₂ : σ} {a b : Number} {u : Option U} {D : ℤ}
    (h1 : start s₀ = (.ok ⟨.num a, u⟩, s₁)) (h2 : stop s₁ = (.ok ⟨.num b, u⟩, s₂))
    (hD : 0 < D) (hDk : D < 10 ^ k) (hp : 2 * k + 2 ≤ p)
    (ga : OnGrid D k a) (gb : OnGrid D k b) :
    ∃ (fuel : ℕ) (l : List Number),
      elementValue p conv fuel start (some stop) none s₀ =
        some (.ok (l.map (fun n => ⟨.num n, u⟩)), s₂) ∧
      (∀ x ∈ l, x.Canonical) ∧
      IsRange a.val b.val (if b.val < a.val then -1 else 1) (l.map val) := by
  have hDq : (0:ℚ) < D := by exact_mod_cast hD
  have hin : ∀ x : Number, InUnitOf conv (a, u) (x, u) x := by
    intro x
    cases u with
    | none => left; exact ⟨rfl, rfl, rfl⟩
    | some u => right; exact ⟨u, u, rfl, rfl, hconv _ _ _⟩
  obtain ⟨A, hA, hA'⟩ := ga.2
  obtain ⟨B, hB, hB'⟩ := gb.2
  have hk1 : (1:ℤ) ≤ 10 ^ k := one_le_pow₀ (by norm_num)
  have hbig : (100:ℤ) * 10 ^ k ≤ 10 ^ p := by
    calc (100:ℤ) * 10 ^ k = 10 ^ (k + 2) := by rw [pow_add]; ring
      _ ≤ 10 ^ p := pow_le_pow_right₀ (by norm_num) (by omega)
  have hlt : b.lt p a = true ↔ b.val < a.val := by
    rw [lt_grid (by omega) hD hB hA (by omega), hA, hB, div_lt_div_iff_of_pos_right hDq]
    exact_mod_cast Iff.rfl
  have gi : ∀ z : ℤ, |z| = 1 → OnGrid D k ⟨z, 1⟩ := by
    intro z hz
    refine ⟨canonical_int z, z * D, ?_, ?_⟩
    · rw [val_int]; push_cast; field_simp
    · rw [abs_mul, hz, one_mul, abs_of_pos hD]; exact hDk
  by_cases hc : b.val < a.val
  · rw [if_pos hc]
    obtain ⟨fuel, l, hl, hcan, hr⟩ := progression_grid hD hDk hp ga gb (gi (-1) (by simp))
      (by rw [val_int]; norm_num) (by rw [val_int]; push_cast; linarith)
    refine ⟨fuel, l, ?_, hcan, by rw [val_int] at hr; simpa using hr⟩
    simp [elementValue, h1, component, h2, rangeFinish, defaultStep, hlt.mpr hc, unifyAll_of (hin b) (hin _), hl,
      Except.map]
  · rw [if_neg hc]
    obtain ⟨fuel, l, hl, hcan, hr⟩ := progression_grid hD hDk hp ga gb (gi 1 (by simp))
      (by rw [val_int]; norm_num) (by rw [val_int]; push_cast; linarith)
    refine ⟨fuel, l, ?_, hcan, by rw [val_int] at hr; simpa using hr⟩
    have hf : b.lt p a = false := by rw [← Bool.not_eq_true, hlt]; exact hc
    simp [elementValue, h1, component, h2, rangeFinish, defaultStep, hf, unifyAll_of (hin b) (hin _), hl,
      Except.map]

/-- **C50, exception**: without a step, the direction is taken from the numbers as written,
before the end is converted to the unit of the start.  If the conversion turns the comparison
around, the range raises: `[500 m .. 1 km]` does. -/
theorem C50_mixed_units_violation (conv : Number × U → Number × U → Except Raise Number)
    (hconv : ∀ x y : Number, ∀ u : U, conv (x, u) (y, u) = .ok y)
    {start stop : Act σ (RRes U)} {s₀ s₁ s₂ : σ} {a b b' : Number} {u w : U} {D : ℤ}
    (h1 : start s₀ = (.ok ⟨.num a, some u⟩, s₁)) (h2 : stop s₁ = (.ok ⟨.num b, some w⟩, s₂))
    (hb : conv (a, u) (b, w) = .ok b')
    (hD : 0 < D) (hDk : D < 10 ^ k) (hp : 2 * k + 2 ≤ p)
    (ga : OnGrid D k a) (gb : OnGrid D k b) (gb' : OnGrid D k b')
    (hrev : b.val < a.val ∧ a.val < b'.val ∨ a.val ≤ b.val ∧ b'.val < a.val) (fuel : ℕ) :
    ∃ e, elementValue p conv fuel start (some stop) none s₀ = some (.error (.exec e), s₂) := by
  have hDq : (0:ℚ) < D := by exact_mod_cast hD
  obtain ⟨A, hA, hA'⟩ := ga.2
  obtain ⟨B, hB, hB'⟩ := gb.2
  have hk1 : (1:ℤ) ≤ 10 ^ k := one_le_pow₀ (by norm_num)
  have hbig : (100:ℤ) * 10 ^ k ≤ 10 ^ p := by
    calc (100:ℤ) * 10 ^ k = 10 ^ (k + 2) := by rw [pow_add]; ring
      _ ≤ 10 ^ p := pow_le_pow_right₀ (by norm_num) (by omega)
  have hlt : b.lt p a = true ↔ b.val < a.val := by
    rw [lt_grid (by omega) hD hB hA (by omega), hA, hB, div_lt_div_iff_of_pos_right hDq]
    exact_mod_cast Iff.rfl
  have gi : ∀ z : ℤ, |z| = 1 → OnGrid D k ⟨z, 1⟩ := by
    intro z hz
    refine ⟨canonical_int z, z * D, ?_, ?_⟩
    · rw [val_int]; push_cast; field_simp
    · rw [abs_mul, hz, one_mul, abs_of_pos hD]; exact hDk
  have hin : ∀ x : Number, InUnitOf conv (a, some u) (x, some u) x :=
    fun x => Or.inr ⟨u, u, rfl, rfl, hconv _ _ _⟩
  have hin' : InUnitOf conv (a, some u) (b, some w) b' := Or.inr ⟨u, w, rfl, rfl, hb⟩
  rcases hrev with ⟨hr1, hr2⟩ | ⟨hr1, hr2⟩
  · obtain ⟨d, hd, hdv⟩ := direction hD hDk hp ga gb' (gi (-1) (by simp))
    have : d.toDecimal p < 0 := by
      rw [toDecimal_neg (by omega), hdv, val_int]; push_cast; linarith
    simp [elementValue, h1, component, h2, rangeFinish, defaultStep, hlt.mpr hr1, unifyAll_of hin' (hin _),
      progression, hd, this, Except.map]
  · obtain ⟨d, hd, hdv⟩ := direction hD hDk hp ga gb' (gi 1 (by simp))
    have : d.toDecimal p < 0 := by
      rw [toDecimal_neg (by omega), hdv, val_int]; push_cast; linarith
    have hf : b.lt p a = false := by rw [← Bool.not_eq_true, hlt]; push Not; exact hr1
    simp [elementValue, h1, component, h2, rangeFinish, defaultStep, hf, unifyAll_of hin' (hin _),
      progression, hd, this, Except.map]

/-- **C50**: without a step, and with an end in another unit, the range goes from the start towards
the end in steps of one of the start's unit, if the numbers as written compare like the quantities. -/
theorem C50_default_step_units (conv : Number × U → Number × U → Except Raise Number)
    (hconv : ∀ x y : Number, ∀ u : U, conv (x, u) (y, u) = .ok y)
    {start stop : Act σ (RRes U)} {s₀ s₁ s₂ : σ} {a b b' : Number} {u w : U} {D : ℤ}
    (h1 : start s₀ = (.ok ⟨.num a, some u⟩, s₁)) (h2 : stop s₁ = (.ok ⟨.num b, some w⟩, s₂))
    (hb : conv (a, u) (b, w) = .ok b')
    (hD : 0 < D) (hDk : D < 10 ^ k) (hp : 2 * k + 2 ≤ p)
    (ga : OnGrid D k a) (gb : OnGrid D k b) (gb' : OnGrid D k b')
    (hsame : b.val < a.val ↔ b'.val < a.val) :
    ∃ (fuel : ℕ) (l : List Number),
      elementValue p conv fuel start (some stop) none s₀ =
        some (.ok (l.map (fun n => ⟨.num n, some u⟩)), s₂) ∧
      (∀ x ∈ l, x.Canonical) ∧
      IsRange a.val b'.val (if b'.val < a.val then -1 else 1) (l.map val) := by
  have hDq : (0:ℚ) < D := by exact_mod_cast hD
  obtain ⟨A, hA, hA'⟩ := ga.2
  obtain ⟨B, hB, hB'⟩ := gb.2
  have hk1 : (1:ℤ) ≤ 10 ^ k := one_le_pow₀ (by norm_num)
  have hbig : (100:ℤ) * 10 ^ k ≤ 10 ^ p := by
    calc (100:ℤ) * 10 ^ k = 10 ^ (k + 2) := by rw [pow_add]; ring
      _ ≤ 10 ^ p := pow_le_pow_right₀ (by norm_num) (by omega)
  have hlt : b.lt p a = true ↔ b.val < a.val := by
    rw [lt_grid (by omega) hD hB hA (by omega), hA, hB, div_lt_div_iff_of_pos_right hDq]
    exact_mod_cast Iff.rfl
  have gi : ∀ z : ℤ, |z| = 1 → OnGrid D k ⟨z, 1⟩ := by
    intro z hz
    refine ⟨canonical_int z, z * D, ?_, ?_⟩
    · rw [val_int]; push_cast; field_simp
    · rw [abs_mul, hz, one_mul, abs_of_pos hD]; exact hDk
  have hin : ∀ x : Number, InUnitOf conv (a, some u) (x, some u) x :=
    fun x => Or.inr ⟨u, u, rfl, rfl, hconv _ _ _⟩
  have hin' : InUnitOf conv (a, some u) (b, some w) b' := Or.inr ⟨u, w, rfl, rfl, hb⟩
  by_cases hc : b'.val < a.val
  · rw [if_pos hc]
    obtain ⟨fuel, l, hl, hcan, hr⟩ := progression_grid hD hDk hp ga gb' (gi (-1) (by simp))
      (by rw [val_int]; norm_num) (by rw [val_int]; push_cast; linarith)
    refine ⟨fuel, l, ?_, hcan, by rw [val_int] at hr; simpa using hr⟩
    simp [elementValue, h1, component, h2, rangeFinish, defaultStep, hlt.mpr (hsame.2 hc), unifyAll_of hin' (hin _), hl,
      Except.map]
  · rw [if_neg hc]
    obtain ⟨fuel, l, hl, hcan, hr⟩ := progression_grid hD hDk hp ga gb' (gi 1 (by simp))
      (by rw [val_int]; norm_num) (by rw [val_int]; push_cast; linarith)
    refine ⟨fuel, l, ?_, hcan, by rw [val_int] at hr; simpa using hr⟩
    have hf : b.lt p a = false := by rw [← Bool.not_eq_true, hlt, hsame]; exact hc
    simp [elementValue, h1, component, h2, rangeFinish, defaultStep, hf, unifyAll_of hin' (hin _), hl,
      Except.map]

/-- **C50**: an element without `..` is the array's element as it is. -/
theorem C50_single (conv : Number × U → Number × U → Except Raise Number) {start : Act σ (RRes U)}
    {s₀ s₁ : σ} {x : RRes U} (h : start s₀ = (.ok x, s₁)) (hx : ∀ e, x.value ≠ .err e) (fuel : ℕ) :
    elementValue p conv fuel start none none s₀ = some (.ok [x], s₁) := by
  obtain ⟨v, u⟩ := x
  cases v with
  | err e => exact absurd rfl (hx e)
  | _ => simp [elementValue, h]

/-- **C50**: if the element, the start, the end or the step cannot be computed, the array cannot either,
and the error is that one. -/
theorem C50_failed (conv : Number × U → Number × U → Except Raise Number)
    {start : Act σ (RRes U)} {s₀ s₁ : σ} (e : ExecErr) (fuel : ℕ) :
    (∀ (u : Option U) (stop step : Option (Act σ (RRes U))), start s₀ = (.ok ⟨.err e, u⟩, s₁) →
      elementValue p conv fuel start stop step s₀ = some (.error (.exec e), s₁)) ∧
    (∀ (stop : Act σ (RRes U)) (step : Option (Act σ (RRes U))) (a : Number) (ua u : Option U) (s₂ : σ),
      start s₀ = (.ok ⟨.num a, ua⟩, s₁) → stop s₁ = (.ok ⟨.err e, u⟩, s₂) →
      elementValue p conv fuel start (some stop) step s₀ = some (.error (.exec e), s₂)) ∧
    (∀ (stop step : Act σ (RRes U)) (a b : Number) (ua ub u : Option U) (s₂ s₃ : σ),
      start s₀ = (.ok ⟨.num a, ua⟩, s₁) → stop s₁ = (.ok ⟨.num b, ub⟩, s₂) →
      step s₂ = (.ok ⟨.err e, u⟩, s₃) →
      elementValue p conv fuel start (some stop) (some step) s₀ = some (.error (.exec e), s₃)) := by
  refine ⟨fun u stop step h => ?_, fun stop step a ua u s₂ h h' => ?_, fun stop step a b ua ub u s₂ s₃ h h' h'' => ?_⟩
  · cases stop <;> simp [elementValue, h, component]
  · simp [elementValue, h, h', component]
  · simp [elementValue, h, h', h'', component]

/-- **C50**: a step of zero gives the empty range. -/
theorem C50_zero_step (conv : Number × U → Number × U → Except Raise Number)
    {start stop step : Act σ (RRes U)} {s₀ s₁ s₂ s₃ : σ} {a b s b' s' : Number}
    {ua ub us : Option U} {D : ℤ}
    (h1 : start s₀ = (.ok ⟨.num a, ua⟩, s₁)) (h2 : stop s₁ = (.ok ⟨.num b, ub⟩, s₂))
    (h3 : step s₂ = (.ok ⟨.num s, us⟩, s₃))
    (hb : InUnitOf conv (a, ua) (b, ub) b') (hs : InUnitOf conv (a, ua) (s, us) s')
    (hD : 0 < D) (hDk : D < 10 ^ k) (hp : 2 * k + 2 ≤ p)
    (ga : OnGrid D k a) (gb : OnGrid D k b') (gs : OnGrid D k s') (hs0 : s'.val = 0) (fuel : ℕ) :
    elementValue p conv fuel start (some stop) (some step) s₀ = some (.ok [], s₃) := by
  obtain ⟨d, hd, hdv⟩ := direction hD hDk hp ga gb gs
  have hn : ¬ d.toDecimal p < 0 := by rw [toDecimal_neg (by omega), hdv, hs0]; simp
  have hm : more p b' s' a = false := by
    have e1 := toDecimal_pos (p := p) (by omega) s'
    have e2 := toDecimal_neg (p := p) (by omega) s'
    rw [hs0] at e1 e2
    simp only [lt_irrefl, iff_false] at e1 e2
    simp [more, e1, e2]
  have hl : rangeLoop p b' s' fuel a = some (.ok []) := by unfold rangeLoop; simp [hm]
  simp [elementValue, h1, component, h2, h3, rangeFinish, unifyAll_of hb hs, progression, hd, hn, Except.map,
    hl]

/-- **C50**: units must be on all three parts or on none. -/
theorem C50_units_consistent (conv : Number × U → Number × U → Except Raise Number)
    {start stop step : Act σ (RRes U)} {s₀ s₁ s₂ s₃ : σ} {a b s : Number} {ua ub us : Option U}
    (h1 : start s₀ = (.ok ⟨.num a, ua⟩, s₁)) (h2 : stop s₁ = (.ok ⟨.num b, ub⟩, s₂))
    (h3 : step s₂ = (.ok ⟨.num s, us⟩, s₃)) (fuel : ℕ) {rs : List (RRes U)} {s' : σ}
    (h : elementValue p conv fuel start (some stop) (some step) s₀ = some (.ok rs, s')) :
    (ua = none ∧ ub = none ∧ us = none) ∨ (ua ≠ none ∧ ub ≠ none ∧ us ≠ none) := by
  by_cases hn : ua = none ∧ ub = none ∧ us = none
  · exact .inl hn
  right
  simp only [elementValue, h1, component, h2, h3, rangeFinish] at h
  cases ua with
  | none =>
    have : unifyAll conv (a, none) (b, ub) (s, us) = .error (.exec ⟨unitMessage, 0, false⟩) := by
      unfold unifyAll
      have : (Option.isSome (none : Option U) || ub.isSome || us.isSome) = true := by
        cases ub <;> cases us <;> simp_all
      rw [if_pos this]
    rw [this] at h; simp at h
  | some u =>
    cases ub with
    | none => simp [unifyAll, unify, bind, Except.bind] at h
    | some v =>
      cases us with
      | none =>
        cases hcv : conv (a, u) (b, v) <;>
          simp [unifyAll, unify, hcv, bind, Except.bind] at h
      | some w => simp

/-! ## C51 -/

theorem loop_mono {b s : Number} : ∀ (m m' : ℕ) (n : Number) (r), m ≤ m' →
    rangeLoop p b s m n = some r → rangeLoop p b s m' n = some r := by
  intro m
  induction m with
  | zero =>
    intro m' n r _ h
    unfold rangeLoop at h ⊢
    split at h
    · simp at h
    · rename_i hc; rw [if_neg hc]; exact h
  | succ m ih =>
    intro m' n r hm h
    obtain ⟨m'', rfl⟩ : ∃ m'', m' = m'' + 1 := ⟨m' - 1, by omega⟩
    unfold rangeLoop at h ⊢
    by_cases hc : more p b s n = true
    · rw [if_pos hc] at h ⊢
      dsimp only at h ⊢
      cases ha : lift (n.add p s) with
      | error e => rw [ha] at h; exact h
      | ok n' =>
        rw [ha] at h
        dsimp only at h ⊢
        cases hl : rangeLoop p b s m n' with
        | none => rw [hl] at h; simp at h
        | some q => rw [hl] at h; rw [ih m'' n' q (by omega) hl]; exact h
    · rw [if_neg hc] at h ⊢; exact h

/-- **C51**: a range that has ended with some number of rounds gives the same answer with any
larger number. -/
theorem C51_bound_irrelevant (conv : Number × U → Number × U → Except Raise Number)
    {start : Act σ (RRes U)} {stop step : Option (Act σ (RRes U))} {s₀ : σ} {m m' : ℕ} {r}
    (hm : m ≤ m') (h : elementValue p conv m start stop step s₀ = some r) :
    elementValue p conv m' start stop step s₀ = some r := by
  have hfin : ∀ (a b c : Number × Option U) (q), rangeFinish p conv m a b c = some q →
      rangeFinish p conv m' a b c = some q := by
    intro a b c q hq
    unfold rangeFinish at hq ⊢
    cases hu : unifyAll conv a b c with
    | error e => rw [hu] at hq; exact hq
    | ok y =>
      rw [hu] at hq
      dsimp only at hq ⊢
      cases hpr : progression p m a.1 y.1 y.2 with
      | none => rw [hpr] at hq; simp at hq
      | some z =>
        have : progression p m' a.1 y.1 y.2 = some z := by
          unfold progression at hpr ⊢
          split
          · rename_i e he; rw [he] at hpr; exact hpr
          · rename_i d hd
            rw [hd] at hpr
            dsimp only at hpr
            split
            · rename_i hn; rw [if_pos hn] at hpr; exact hpr
            · rename_i hn; rw [if_neg hn] at hpr; exact loop_mono m m' _ _ hm hpr
        rw [this]; rw [hpr] at hq; exact hq
  unfold elementValue at h ⊢
  generalize start s₀ = q at h ⊢
  cases q with
  | mk r₁ s₁ =>
  cases r₁ with
  | error e => exact h
  | ok x =>
  cases stop with
  | none => exact h
  | some stop =>
  dsimp only at h ⊢
  generalize component x = q at h ⊢
  cases q with
  | error e => exact h
  | ok a =>
  dsimp only at h ⊢
  generalize stop s₁ = q at h ⊢
  cases q with
  | mk r₂ s₂ =>
  cases r₂ with
  | error e => exact h
  | ok y =>
  dsimp only at h ⊢
  generalize component y = q at h ⊢
  cases q with
  | error e => exact h
  | ok b =>
  dsimp only at h ⊢
  cases a with
  | none => exact h
  | some a =>
  cases b with
  | none => exact h
  | some b =>
  dsimp only at h ⊢
  cases step with
  | none =>
    dsimp only at h ⊢
    cases hq : rangeFinish p conv m (a, x.unit) (b, y.unit) (defaultStep p (a, x.unit) (b, y.unit)) with
    | none => rw [hq] at h; simp at h
    | some q => rw [hq] at h; rw [hfin _ _ _ _ hq]; exact h
  | some step =>
  dsimp only at h ⊢
  generalize step s₂ = q at h ⊢
  cases q with
  | mk r₃ s₃ =>
  cases r₃ with
  | error e => exact h
  | ok z =>
  dsimp only at h ⊢
  generalize component z = q at h ⊢
  cases q with
  | error e => exact h
  | ok c =>
  cases c with
  | none => exact h
  | some c =>
  dsimp only at h ⊢
  cases hq : rangeFinish p conv m (a, x.unit) (b, y.unit) (c, z.unit) with
  | none => rw [hq] at h; simp at h
  | some q => rw [hq] at h; rw [hfin _ _ _ _ hq]; exact h

/-- **C51, what holds**: on a grid of `k` digits, with `2 k + 2` digits of precision, the range
ends, whatever the step.  (Missing: numbers for which adding the step is rounded.) -/
theorem C51_finishes_partial (conv : Number × U → Number × U → Except Raise Number)
    {start stop step : Act σ (RRes U)} {s₀ s₁ s₂ s₃ : σ} {a b s b' s' : Number}
    {ua ub us : Option U} {D : ℤ}
    (h1 : start s₀ = (.ok ⟨.num a, ua⟩, s₁)) (h2 : stop s₁ = (.ok ⟨.num b, ub⟩, s₂))
    (h3 : step s₂ = (.ok ⟨.num s, us⟩, s₃))
    (hb : InUnitOf conv (a, ua) (b, ub) b') (hs : InUnitOf conv (a, ua) (s, us) s')
    (hD : 0 < D) (hDk : D < 10 ^ k) (hp : 2 * k + 2 ≤ p)
    (ga : OnGrid D k a) (gb : OnGrid D k b') (gs : OnGrid D k s') :
    ∃ m, ∀ m' ≥ m, elementValue p conv m' start (some stop) (some step) s₀ ≠ none := by
  suffices h : ∃ m r, elementValue p conv m start (some stop) (some step) s₀ = some r by
    obtain ⟨m, r, h⟩ := h
    exact ⟨m, fun m' hm' => by rw [C51_bound_irrelevant conv hm' h]; simp⟩
  by_cases hs0 : s'.val = 0
  · exact ⟨0, _, C50_zero_step conv h1 h2 h3 hb hs hD hDk hp ga gb gs hs0 0⟩
  · rcases lt_or_ge ((b'.val - a.val) * s'.val) 0 with hd | hd
    · obtain ⟨e, he⟩ := C50_wrong_sign conv h1 h2 h3 hb hs hD hDk hp ga gb gs hd 0
      exact ⟨0, _, he⟩
    · obtain ⟨m, l, hl, -⟩ := C50_range conv h1 h2 h3 hb hs hD hDk hp ga gb gs hs0 hd
      exact ⟨m, _, hl⟩

theorem loop_stuck {b s n : Number} (hm : more p b s n = true) (ha : n.add p s = .ok n) :
    ∀ fuel, rangeLoop p b s fuel n = none := by
  intro fuel
  induction fuel with
  | zero => simp [rangeLoop, hm]
  | succ m ih => simp [rangeLoop, hm, ha, lift, ih]

/-- **C51 fails** whenever the step is lost when it is added to the start: the loop never ends. -/
theorem C51_stuck_violation (conv : Number × U → Number × U → Except Raise Number)
    {start stop step : Act σ (RRes U)} {s₀ s₁ s₂ s₃ : σ} {a b s : Number}
    (h1 : start s₀ = (.ok ⟨.num a, none⟩, s₁)) (h2 : stop s₁ = (.ok ⟨.num b, none⟩, s₂))
    (h3 : step s₂ = (.ok ⟨.num s, none⟩, s₃)) {d : Number}
    (hdir : (do (← b.sub p a).mul p s) = .ok d) (hd : ¬ d.toDecimal p < 0)
    (hlost : a.add p s = .ok a) (hmore : more p b s a = true) :
    ∀ fuel, elementValue p conv fuel start (some stop) (some step) s₀ = none := by
  intro fuel
  have : lift (do (← b.sub p a).mul p s) = .ok d := by rw [hdir]; rfl
  simp [elementValue, h1, component, h2, h3, rangeFinish, unifyAll, progression, this, hd,
    loop_stuck hmore hlost]

theorem rnd_digit (hp : 1 ≤ p) (c e : ℕ) (hc : c < 10) : rnd p ((c:ℚ) * 10 ^ e) = c * 10 ^ e := by
  refine rnd_of_fits ⟨c, e, by push_cast; rw [zpow_natCast], ?_⟩
  calc |(c:ℤ)| = c := by simp
    _ < 10 ^ 1 := by exact_mod_cast hc
    _ ≤ 10 ^ p := pow_le_pow_right₀ (by norm_num) hp

/-- **C51 fails**: `[10^p .. 2 * 10^p step 1]` never ends at precision `p` (and neither does it
without the step, which is then 1 as well). -/
theorem C51_violation (conv : Number × U → Number × U → Except Raise Number) (hp : 1 ≤ p) (s : σ) :
    ∀ fuel, elementValue p conv fuel (fun s => (.ok ⟨.num ⟨10 ^ p, 1⟩, none⟩, s))
      (some (fun s => (.ok ⟨.num ⟨2 * 10 ^ p, 1⟩, none⟩, s)))
      (some (fun s => (.ok ⟨.num ⟨1, 1⟩, none⟩, s))) s = none := by
  have f1 := rnd_digit hp 1 p (by norm_num)
  have f2 := rnd_digit hp 2 p (by norm_num)
  have f0 := rnd_digit hp 1 0 (by norm_num)
  have l1 : (Int.lcm (1:ℤ) 1) = 1 := by decide
  push_cast at f0 f1 f2
  simp only [one_mul, pow_zero, mul_one] at f0 f1 f2
  have hint : mk' p ((10:ℚ) ^ p) 1 = .ok ⟨10 ^ p, 1⟩ := by
    have := ofInt_eq hp (10 ^ p)
    unfold ofInt at this
    push_cast at this
    exact this
  have hsub : Number.sub p ⟨2 * 10 ^ p, 1⟩ ⟨10 ^ p, 1⟩ = .ok ⟨10 ^ p, 1⟩ := by
    unfold Number.sub normalise
    simp only [l1]
    push_cast
    simp only [mul_one, div_one, f1, f2]
    rw [show (2:ℚ) * 10 ^ p - 10 ^ p = 10 ^ p by ring, f1, hint]
  have hmul : Number.mul p ⟨10 ^ p, 1⟩ ⟨1, 1⟩ = .ok ⟨10 ^ p, 1⟩ := by
    unfold Number.mul
    push_cast
    simp only [mul_one, f1, f0, hint]
  have hd : toDecimal p ⟨10 ^ p, 1⟩ = 10 ^ p := by
    unfold toDecimal; push_cast; rw [div_one, f1]
  have hd2 : toDecimal p ⟨2 * 10 ^ p, 1⟩ = 2 * 10 ^ p := by
    unfold toDecimal; push_cast; rw [div_one, f2]
  have hd1 : toDecimal p ⟨1, 1⟩ = 1 := by
    unfold toDecimal; push_cast; rw [div_one, f0]
  have hpos : (0:ℚ) < 10 ^ p := by positivity
  refine C51_stuck_violation conv (s₁ := s) (s₂ := s) (s₃ := s) (a := ⟨10 ^ p, 1⟩) (b := ⟨2 * 10 ^ p, 1⟩)
    (s := ⟨1, 1⟩) rfl rfl rfl (d := ⟨10 ^ p, 1⟩) ?_ ?_ (C02_beyond_precision p hp) ?_
  · simp [hsub, hmul, bind, Except.bind]
  · rw [hd]; linarith
  · unfold more Number.le
    rw [hd, hd1, hd2]
    have : (10:ℚ) ^ p ≤ 2 * 10 ^ p := by linarith
    simp [this]

/-! ### The hypotheses can be met -/

/-- A converter for metres (`false`) and kilometres (`true`). -/
def metres : Number × Bool → Number × Bool → Except Raise Number := fun a x =>
  match a.2, x.2 with
  | false, true => .ok ⟨x.1.num * 1000, x.1.den⟩
  | true, false => lift (x.1.div 30 ⟨1000, 1⟩)
  | _, _ => .ok x.1

theorem onGrid_int (z : ℤ) (h : |z| < 10 ^ k) : OnGrid 1 k ⟨z, 1⟩ :=
  ⟨canonical_int z, z, by rw [val_int]; simp, h⟩

/-- `[1 .. 2 step 0.5]`. -/
example : ∃ (fuel : ℕ) (l : List Number),
    elementValue (U := Bool) 30 metres fuel (fun s : ℕ => (.ok ⟨.num ⟨1, 1⟩, none⟩, s))
      (some (fun s => (.ok ⟨.num ⟨2, 1⟩, none⟩, s))) (some (fun s => (.ok ⟨.num ⟨1, 2⟩, none⟩, s))) 0 =
        some (.ok (l.map (fun n => ⟨.num n, none⟩)), 0) ∧
    (∀ x ∈ l, x.Canonical) ∧ IsRange 1 2 (1 / 2) (l.map val) := by
  have := C50_range (k := 1) (p := 30) (U := Bool) metres (D := 2) (s₀ := 0) (s₁ := 0) (s₂ := 0) (s₃ := 0)
    (a := ⟨1, 1⟩) (b := ⟨2, 1⟩) (s := ⟨1, 2⟩) (ua := none) (ub := none) (us := none)
    (start := fun s : ℕ => (.ok ⟨.num ⟨1, 1⟩, none⟩, s))
    (stop := fun s => (.ok ⟨.num ⟨2, 1⟩, none⟩, s)) (step := fun s => (.ok ⟨.num ⟨1, 2⟩, none⟩, s))
    rfl rfl rfl (Or.inl ⟨rfl, rfl, rfl⟩) (Or.inl ⟨rfl, rfl, rfl⟩) (by norm_num) (by norm_num)
    (by norm_num) ⟨by constructor <;> decide, 2, by norm_num [val], by norm_num⟩
    ⟨by constructor <;> decide, 4, by norm_num [val], by norm_num⟩
    ⟨by constructor <;> decide, 1, by norm_num [val], by norm_num⟩ (by norm_num [val]) (by norm_num [val])
  simpa [val] using this

/-- `[500 m .. 1 km]` raises. -/
example : ∃ e, elementValue 30 metres 2000 (fun s : ℕ => (.ok ⟨.num ⟨500, 1⟩, some false⟩, s))
    (some (fun s => (.ok ⟨.num ⟨1, 1⟩, some true⟩, s))) none 0 = some (.error (.exec e), 0) :=
  C50_mixed_units_violation (k := 4) (p := 30) (D := 1) (s₁ := 0) (s₂ := 0) metres (b' := ⟨1000, 1⟩)
    (by intro x y u; cases u <;> rfl)
    rfl rfl rfl (by norm_num) (by norm_num) (by norm_num) (onGrid_int _ (by norm_num))
    (onGrid_int _ (by norm_num)) (onGrid_int _ (by norm_num)) (by norm_num [val]) _

/-- `[500 m .. 1 km step 100 m]` is six lengths. -/
example : elementValue 30 metres 10 (fun s : ℕ => (.ok ⟨.num ⟨500, 1⟩, some false⟩, s))
    (some (fun s => (.ok ⟨.num ⟨1, 1⟩, some true⟩, s)))
    (some (fun s => (.ok ⟨.num ⟨100, 1⟩, some false⟩, s))) 0 =
    some (.ok ([500, 600, 700, 800, 900, 1000].map (fun z => ⟨.num ⟨z, 1⟩, some false⟩)), 0) := by
  decide +kernel

/-- `[3 .. 1]` goes down. -/
example : elementValue (U := Bool) 30 metres 10 (fun s : ℕ => (.ok ⟨.num ⟨3, 1⟩, none⟩, s))
    (some (fun s => (.ok ⟨.num ⟨1, 1⟩, none⟩, s))) none 0 =
    some (.ok ([3, 2, 1].map (fun z => ⟨.num ⟨z, 1⟩, none⟩)), 0) := by
  decide +kernel

/-- `[1 m .. 1 km]` goes up from one metre in steps of a metre. -/
example : ∃ (fuel : ℕ) (l : List Number),
    elementValue 30 metres fuel (fun s : ℕ => (.ok ⟨.num ⟨1, 1⟩, some false⟩, s))
      (some (fun s => (.ok ⟨.num ⟨1, 1⟩, some true⟩, s))) none 0 =
        some (.ok (l.map (fun n => ⟨.num n, some false⟩)), 0) ∧
    (∀ x ∈ l, x.Canonical) ∧ IsRange 1 1000 1 (l.map val) := by
  have := C50_default_step_units (k := 4) (p := 30) (D := 1) (s₀ := 0) (s₁ := 0) (s₂ := 0) metres (a := ⟨1, 1⟩) (b := ⟨1, 1⟩)
    (b' := ⟨1000, 1⟩) (u := false) (w := true) (start := fun s : ℕ => (.ok ⟨.num ⟨1, 1⟩, some false⟩, s))
    (stop := fun s => (.ok ⟨.num ⟨1, 1⟩, some true⟩, s)) (by intro x y u; cases u <;> rfl)
    rfl rfl rfl (by norm_num) (by norm_num) (by norm_num) (onGrid_int _ (by norm_num))
    (onGrid_int _ (by norm_num)) (onGrid_int _ (by norm_num)) (by norm_num [val])
  simpa [val] using this

/-- `[1, 2 .. x]` where `x` fails. -/
example : elementValue (U := Bool) 30 metres 10 (fun s : ℕ => (.ok ⟨.num ⟨2, 1⟩, none⟩, s))
    (some (fun s => (.ok ⟨.err ⟨"x", 1, false⟩, none⟩, s))) none 0 = some (.error (.exec ⟨"x", 1, false⟩), 0) :=
  (C50_failed metres _ 10).2.1 _ _ _ _ _ _ rfl rfl

end MC.Props
