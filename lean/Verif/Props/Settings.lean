import Mathlib.Data.List.Induction
import Verif.Spec.Settings

/-! # C95: the settings for numbers -/

namespace MC.Props
open MC MC.Spec MC.Settings

theorem run_snoc (h : List (ℕ × ℕ × Event)) (e : ℕ × ℕ × Event) (w : World) :
    run (h ++ [e]) w = (Settings.step e.1 e.2.1 e.2.2 (run h w)).2 := by simp [run]

theorem asked_snoc (i : ℕ) (h : List (ℕ × ℕ × Event)) (e : ℕ × ℕ × Event) :
    lastAsked i (h ++ [e]) = if e.2.1 = i then ask (lastAsked i h) e.2.2 else lastAsked i h := by
  unfold lastAsked
  by_cases hi : e.2.1 = i <;> simp [hi]

/-- **C95** (partial, because of `C95_two_violation`, `C95_thread_violation` and `C95_refused_violation`): as long as a process
has one calculator, used in one thread, and is asked for sizes that `decimal` takes, calculations work with the digits, show the
places and round in the way the calculator was last asked for, and the calculator tells so. -/
theorem C95_alone_partial {t i : ℕ} (h : List (ℕ × ℕ × Event)) (hone : ∀ e ∈ h, e.1 = t ∧ e.2.1 = i)
    (hs : ∀ e ∈ h, ∀ n, e.2.2 = .size n → Workable n) {a : Asked} (ha : lastAsked i h = some a) :
    working (run h start) t = (a.digits, a.places, a.rounding) ∧
      settingsOf (run h start) i = some ⟨a.digits, a.places⟩ := by
  have key : (lastAsked i h = none ∧ (run h start).engines i = none) ∨
      ∃ a, lastAsked i h = some a ∧ Valid a.digits ∧ (run h start).engines i = some ⟨a.digits, a.places⟩ ∧
        working (run h start) t = (a.digits, a.places, a.rounding) := by
    clear ha a
    induction h using List.reverseRecOn with
    | nil => exact .inl ⟨rfl, rfl⟩
    | append_singleton h e ih =>
      have hl := ih (fun e he => hone e (by simp [he])) (fun e he => hs e (by simp [he]))
      obtain ⟨h1, h2⟩ := hone e (by simp)
      have h3 := hs e (by simp)
      obtain ⟨t', i', ev⟩ := e
      simp only at h1 h2 h3
      subst h1 h2
      rw [run_snoc, asked_snoc, if_pos rfl]
      simp only
      generalize run h start = w at hl
      generalize lastAsked i' h = b at hl
      cases ev with
      | create =>
        right
        have hv : Valid 100 := by decide
        have hr : "ROUND_HALF_UP" ∈ roundings := by decide
        refine ⟨_, rfl, hv, ?_, ?_⟩ <;> simp [Settings.step, update, setPrecision, setRounding, hv, hr, working]
      | size n =>
        have hw := h3 n rfl
        have hv : Valid n := hw
        rcases hl with ⟨rfl, h5⟩ | ⟨a, rfl, h5, h6, h7⟩
        · left
          simp [ask, Settings.step, h5]
        · right
          simp only [working, Prod.mk.injEq] at h7
          refine ⟨_, rfl, ?_, ?_, ?_⟩ <;> simp [hv, hw, Settings.step, h6, update, setPrecision, working, h7]
      | places n =>
        rcases hl with ⟨rfl, h5⟩ | ⟨a, rfl, h5, h6, h7⟩
        · left
          simp [ask, Settings.step, h5]
        · right
          simp only [working, Prod.mk.injEq] at h7
          refine ⟨_, rfl, h5, ?_, ?_⟩ <;> simp [h5, Settings.step, h6, update, setPrecision, working, h7]
      | rounding r =>
        rcases hl with ⟨rfl, h5⟩ | ⟨a, rfl, h5, h6, h7⟩
        · left
          simp [ask, Settings.step, h5]
        · right
          simp only [working, Prod.mk.injEq] at h7
          by_cases hr : r ∈ roundings
          · refine ⟨_, rfl, ?_, ?_, ?_⟩ <;> simp [hr, h5, Settings.step, h6, setRounding, working, h7]
          · refine ⟨_, rfl, ?_, ?_, ?_⟩ <;> simp [hr, h5, Settings.step, h6, setRounding, working, h7]
  rcases key with ⟨h1, -⟩ | ⟨b, h1, -, h2, h3⟩
  · rw [h1] at ha
    cases ha
  · rw [h1] at ha
    cases ha
    exact ⟨h3, h2⟩

/-- **C95**: whatever happened before, setting the digits of a calculator makes the calculations of this thread work with its
digits and show its places; setting the places does the same, unless the last size was one `decimal` does not take. -/
theorem C95_refresh {t i : ℕ} {w : World} {e : Engine} (he : settingsOf w i = some e) :
    (∀ n, Workable n → ∃ w', Settings.step t i (.size n) w = (.ok (), w') ∧
      working w' t = (n, e.prec, (working w t).2.2) ∧ settingsOf w' i = some ⟨n, e.prec⟩) ∧
    (∀ n, Workable e.size → ∃ w', Settings.step t i (.places n) w = (.ok (), w') ∧
      working w' t = (e.size, n, (working w t).2.2) ∧ settingsOf w' i = some ⟨e.size, n⟩) := by
  unfold settingsOf at he
  constructor <;> intro n hw
  · have hv : Valid n := hw
    simp [Settings.step, he, update, setPrecision, hv, working, settingsOf]
  · have hv : Valid e.size := hw
    simp [Settings.step, he, update, setPrecision, hv, working, settingsOf]

/-- **C95**: what other threads do leaves the digits and the rounding of this thread alone. -/
theorem C95_other_threads {t : ℕ} (h : List (ℕ × ℕ × Event)) (ht : ∀ e ∈ h, e.1 ≠ t) (w : World) :
    (working (run h w) t).1 = (working w t).1 ∧ (working (run h w) t).2.2 = (working w t).2.2 := by
  suffices (run h w).contexts t = w.contexts t by simp [working, this]
  induction h using List.reverseRecOn with
  | nil => rfl
  | append_singleton h e ih =>
    rw [run_snoc, ← ih (fun e he => ht e (by simp [he]))]
    have hne : t ≠ e.1 := fun h => ht e (by simp) h.symm
    generalize run h w = w
    obtain ⟨t', i, ev⟩ := e
    simp only at hne
    cases ev with
    | create =>
      have hv : Valid 100 := by decide
      have hr : "ROUND_HALF_UP" ∈ roundings := by decide
      simp [Settings.step, update, setPrecision, setRounding, hv, hr, Function.update_of_ne hne]
    | size n =>
      cases he : w.engines i with
      | none => simp [Settings.step, he]
      | some e =>
        by_cases hv : Valid n <;> simp [Settings.step, he, update, setPrecision, hv, Function.update_of_ne hne]
    | places n =>
      cases he : w.engines i with
      | none => simp [Settings.step, he]
      | some e =>
        by_cases hv : Valid e.size <;> simp [Settings.step, he, update, setPrecision, hv, Function.update_of_ne hne]
    | rounding r =>
      cases he : w.engines i with
      | none => simp [Settings.step, he]
      | some e =>
        by_cases hr : r ∈ roundings <;> simp [Settings.step, he, setRounding, hr, Function.update_of_ne hne]

/-- **C95**: two calculators in one process share their settings: a calculator asked for five places shows a third with thirty,
once another calculator was made. -/
theorem C95_two_violation : ∃ h t i a, lastAsked i h = some a ∧ a.places = 5 ∧
    shown (run h start) t 1 3 = some (.ok "0.333333333333333333333333333333".toList) := by
  refine ⟨[(0, 0, .create), (0, 0, .places 5), (0, 1, .create)], 0, 0, ⟨100, 5, "ROUND_HALF_UP"⟩, by decide, rfl, ?_⟩
  decide +kernel

/-- Without the other calculator it shows five. -/
theorem C95_two_violation_otherwise :
    shown (run [(0, 0, .create), (0, 0, .places 5)] start) 0 1 3 = some (.ok "0.33333".toList) := by decide +kernel

/-- **C95**: a calculator that is used in another thread than the one it was made in works with 28 digits, and rounds halves to
even. -/
theorem C95_thread_violation {t t' i : ℕ} (ht : t ≠ t') :
    lastAsked i [(t, i, .create)] = some ⟨100, 30, "ROUND_HALF_UP"⟩ ∧
    working (run [(t, i, .create)] start) t' = (28, 30, "ROUND_HALF_EVEN") := by
  refine ⟨by simp [lastAsked, ask], ?_⟩
  have h := C95_other_threads (t := t') [(t, i, .create)] (by simpa using ht) start
  refine Prod.ext h.1 (Prod.ext ?_ h.2)
  have hv : Valid 100 := by decide
  have hr : "ROUND_HALF_UP" ∈ roundings := by decide
  simp [run, Settings.step, update, setPrecision, setRounding, hv, hr, working]

/-- **C95**: a size that is refused is remembered all the same: the calculator reports it, and then refuses every number of
places. -/
theorem C95_refused_violation {t i : ℕ} {w : World} {e : Engine} (he : settingsOf w i = some e) {n : ℤ} (hn : ¬ Workable n) :
    ∃ x w', Settings.step t i (.size n) w = (.error x, w') ∧ working w' t = working w t ∧ settingsOf w' i = some ⟨n, e.prec⟩ ∧
      ∀ m, ∃ y w'', Settings.step t i (.places m) w' = (.error y, w'') := by
  unfold settingsOf at he
  have hn : ¬ Valid n := hn
  simp [Settings.step, he, update, setPrecision, hn, working, settingsOf]

/-- Non-vacuity: a history of one calculator. -/
example : working (run [(3, 7, .create), (3, 7, .size 40), (3, 7, .rounding "ROUND_FLOOR"), (3, 7, .rounding "no"),
    (3, 7, .places 12)] start) 3 = (40, 12, "ROUND_FLOOR") :=
  (C95_alone_partial (t := 3) (i := 7) _ (by simp) (by
    intro e he n hn
    simp only [List.mem_cons, List.not_mem_nil, or_false] at he
    rcases he with rfl | rfl | rfl | rfl | rfl <;> cases hn
    decide) (a := ⟨40, 12, "ROUND_FLOOR"⟩) (by decide)).1

/-- Non-vacuity: a refused size. -/
example : ∃ w : World, settingsOf w 7 = some ⟨100, 30⟩ ∧ ¬ Workable 0 := ⟨run [(3, 7, .create)] start, by decide, by decide⟩

end MC.Props
