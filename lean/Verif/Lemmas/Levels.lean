import Verif.Spec.Levels
import Verif.Props.Units2

/-! # Conversions keep the point on the scale -/

namespace MC.Unit
open MC.Props MC.Unit.Spec

variable {U D K : Type} [DecidableEq U] [DecidableEq D] [Field K]
variable {pw : K → ℚ → K} {N : Norm U D K}

theorem level_prop {l : Option (PL U)} (h : Proportional N false (l.getD [])) (v : K) :
    level pw N (v, l) = v * size pw N (l.getD []) := by
  unfold level
  split
  · rename_i u p he
    simp only at he
    subst he
    have := h (u, p) (by simp)
    simp only [Bool.false_eq_true, false_or] at this
    rw [this]
    split <;> rfl
  · rfl

theorem convertList_one (u : U) (v : K) (p : ℚ) (r : Bool) :
    convertList pw N.info [(u, 1)] v p r = convert pw (N.info u) v p r := by
  unfold convertList
  rw [one_mul]
  cases convert pw (N.info u) v p r <;> rfl

/-- Going to base units gives the point on the scale, going back keeps it. -/
theorem convertList_level (hL : Lawful pw N) (h9 : (9 : K) ≠ 0) (h5 : (5 : K) ≠ 0) {l : PL U} (hl : OnScale N l) (v : K) :
    convertList pw N.info l v (-1) false = .ok (level pw N (v, some l)) ∧
    ∃ w, convertList pw N.info l v 1 false = .ok w ∧ level pw N (w, some l) = v := by
  have prop : Proportional N false l → convertList pw N.info l v (-1) false = .ok (level pw N (v, some l)) ∧
      ∃ w, convertList pw N.info l v 1 false = .ok w ∧ level pw N (w, some l) = v := by
    intro h
    rw [convertList_ok hL l v (-1) false h, convertList_ok hL l v 1 false h, size_multiply_neg hL, multiply_one,
      level_prop (l := some l) h, div_inv_eq_mul]
    refine ⟨rfl, _, rfl, ?_⟩
    rw [level_prop (l := some l) h]
    exact div_mul_cancel₀ v (size_ne hL l)
  rcases hl with h | ⟨u, rfl⟩
  · exact prop h
  · cases hk : (N.info u).kind with
    | scale => exact prop (by
        intro o ho
        simp only [List.mem_singleton] at ho
        subst ho
        exact .inr hk)
    | celsius =>
      rw [convertList_one, convertList_one]
      simp [convert, hk, level, show ¬ (1 : ℚ) = -1 by norm_num]
    | fahrenheit =>
      rw [convertList_one, convertList_one]
      simp only [convert, hk, level, Bool.false_eq_true, if_false, if_true, show ¬ (1 : ℚ) = -1 by norm_num]
      refine ⟨trivial, _, rfl, ?_⟩
      field_simp
      ring

/-- The values of a unit are an affine function of the points on the scale. -/
theorem level_affine {l : Option (PL U)} (hl : OnScale N (l.getD [])) : ∃ a b : K,
    (∀ v, level pw N (v, l) = a * v + b) ∧ (a = size pw N (l.getD []) ∨ a = 1 ∨ a = 5 / 9) := by
  have prop : Proportional N false (l.getD []) → ∃ a b : K,
      (∀ v, level pw N (v, l) = a * v + b) ∧ (a = size pw N (l.getD []) ∨ a = 1 ∨ a = 5 / 9) := fun h =>
    ⟨_, 0, fun v => by rw [level_prop h, add_zero, mul_comm], .inl rfl⟩
  rcases hl with h | ⟨u, h⟩
  · exact prop h
  · cases l with
    | none => simp at h
    | some l =>
      simp only [Option.getD_some] at h
      subst h
      cases hk : (N.info u).kind with
      | scale => exact prop (by
          intro o ho
          simp only [Option.getD_some, List.mem_singleton] at ho
          subst ho
          exact .inr hk)
      | celsius => exact ⟨1, 27315 / 100, fun v => by simp [level, hk], .inr (.inl rfl)⟩
      | fahrenheit => exact ⟨5 / 9, 45967 / 100 * (5 / 9), fun v => by simp only [level, hk, if_true]; ring, .inr (.inr rfl)⟩

/-- A conversion of a point keeps the point; its value is the one in the unit asked for. -/
theorem conversion_level (hL : Lawful pw N) (h9 : (9 : K) ≠ 0) (h5 : (5 : K) ≠ 0) {v : K} {a b : Option (PL U)}
    (ha : OnScale N (a.getD [])) (hb : OnScale N (b.getD [])) {y : K × Option (PL U)}
    (h : unitConversion pw N v a b false = .ok y) : level pw N (y.1, b) = level pw N (v, a) := by
  cases a with
  | none =>
    cases b with
    | none => cases h; rfl
    | some b => exact absurd h (by simp [unitConversion])
  | some a =>
    cases b with
    | none => exact absurd h (by simp [unitConversion])
    | some b =>
      rcases unitConversion_cases h with ⟨hp, rfl⟩ | ⟨-, -, x, w, h1, h2, rfl⟩
      · rcases hb with hb | ⟨u, hb⟩
        · have ha' : Proportional N false a := fun o ho => hb o (hp.mem_iff.mp ho)
          rw [level_prop (l := some b) hb, level_prop (l := some a) ha', Option.getD_some, Option.getD_some, size_perm hp]
        · simp only [Option.getD_some] at hb
          subst hb
          rw [List.perm_singleton.mp hp]
      · rw [(convertList_level (l := a) hL h9 h5 ha v).1] at h1
        cases h1
        obtain ⟨w', h3, h4⟩ := (convertList_level (l := b) hL h9 h5 hb (level pw N (v, some a))).2
        rw [h3] at h2
        cases h2
        exact h4

/-- What the normaliser gives for an array: the unit of the first element, and in this unit the values of all elements. -/
theorem normalise_levels (hL : Lawful pw N) (h9 : (9 : K) ≠ 0) (h5 : (5 : K) ≠ 0) {n : ℕ} {x : K × Option (PL U)}
    {xs ys : List (K × Option (PL U))} {ru : Option (PL U)} (hx : ∀ z ∈ x :: xs, OnScale N (z.2.getD []))
    (h : normaliseInputs pw N n false false (x :: xs) = some (.ok (ys, ru))) :
    ru = x.2 ∧ List.Forall₂ (fun z y => level pw N (y.1, ru) = level pw N z) (x :: xs) ys := by
  unfold normaliseInputs at h
  simp only [Bool.false_eq_true, if_false, Bool.or_eq_true, List.isEmpty_iff, decide_eq_true_eq] at h
  split at h
  · rename_i hc
    cases h
    rcases hc with hc | hc
    · rw [hc]
      have hnone : ∀ z ∈ x :: xs, z.2 = none := by
        simpa [List.filterMap_eq_nil_iff] using hc
      refine ⟨by rw [hnone x (by simp)]; rfl, List.forall₂_same.2 (fun z hz => ?_)⟩
      have := hnone z hz
      obtain ⟨v, u⟩ := z
      simp only at this
      subst this
      rfl
    · cases xs with
      | cons y ys => simp at hc
      | nil =>
        obtain ⟨v, u⟩ := x
        cases u <;> exact ⟨rfl, .cons rfl .nil⟩
  · simp only [normSame, bind, Except.bind, pure, Except.pure] at h
    cases hm : xs.mapM (fun b => unitConversion pw N b.1 b.2 x.2 false) with
    | error e => simp [hm] at h
    | ok zs =>
      simp only [hm, Option.some.injEq, Except.ok.injEq, Prod.mk.injEq] at h
      obtain ⟨rfl, hr⟩ := h
      have hx0 := hx x (by simp)
      have key : List.Forall₂ (fun z y => level pw N (y.1, x.2) = level pw N z) xs zs ∧
          (x.2 = none → ∀ z ∈ xs, z.2 = none) := by
        rename_i hc
        clear hr hc
        replace hx : ∀ z ∈ xs, OnScale N (z.2.getD []) := fun z hz => hx z (by simp [hz])
        induction xs generalizing zs with
        | nil =>
          rw [List.mapM_nil] at hm
          cases hm
          exact ⟨.nil, by simp⟩
        | cons z xs ih =>
          rw [List.mapM_cons] at hm
          cases h1 : unitConversion pw N z.1 z.2 x.2 false with
          | error e => simp [h1, bind, Except.bind] at hm
          | ok y =>
            cases h2 : xs.mapM (fun b => unitConversion pw N b.1 b.2 x.2 false) with
            | error e => simp [h1, h2, bind, Except.bind] at hm
            | ok ys =>
              simp only [h1, h2, bind, Except.bind, pure, Except.pure, Except.ok.injEq] at hm
              subst hm
              obtain ⟨i1, i2⟩ := ih _ h2 (fun b hb => hx b (by simp [hb]))
              refine ⟨.cons (conversion_level hL h9 h5 (hx z (by simp)) hx0 h1) i1, fun hn => ?_⟩
              rw [List.forall_mem_cons]
              refine ⟨?_, i2 hn⟩
              rw [hn] at h1
              cases hz : z.2 with
              | none => rfl
              | some l => simp [hz, unitConversion] at h1
      have hru : ru = x.2 := by
        rw [← hr]
        cases hx2 : x.2 with
        | some l => simp [hx2]
        | none =>
          have := key.2 hx2
          simp [hx2, List.filterMap_eq_nil_iff.mpr this]
      subst hru
      exact ⟨rfl, .cons rfl key.1⟩

end MC.Unit
