import Verif.Model.Floats
import Verif.Props.Written

/-! # C85: every shipped function can be called by its name -/

namespace MC.Props
open MC.Parse MC.Parse.Spec MC.Floats MC.Unit.Table

theorem funcs_free : shippedFuncs.all (fun w => w.head?.any (fun a => isLetter a || a == '_') && w.tail.all asciiWord &&
    decide (lowerText w ≠ "true".toList) && decide (lowerText w ≠ "false".toList) &&
    (opsSymbols shippedOps).all (fun o => !o.isPrefixOf w || decide (o ≠ w) && o.all isLetter)) = true := by
  decide +kernel

/-- **C85**: no two shipped functions have the same name, so none hides another. -/
theorem C85_distinct : shippedFuncs.Nodup := by decide +kernel

section
variable {p : ℕ} {powF : ℚ → ℚ → Except Err ℚ} {word alpha : Char → Bool}
  (hw : ∀ c : Char, c.toNat < 128 → word c = asciiWord c) (ha : ∀ c : Char, c.toNat < 128 → alpha c = isLetter c)
  (inc : List Parse.Item → Bool)
include hw ha

/-- **C85**: with everything installed, the name of a shipped function with written arguments in brackets is read
as a call of this function with these arguments, although operators, constants and units may be at the start of
the name. -/
theorem C85_call {w : Text} (h : w ∈ shippedFuncs) {n : ℕ} {ts : Text} {its : List Parse.Item}
    (hargs : Args (Line (Reading (fullLex p powF word alpha) shippedFuncs n true) true) ts its)
    (extra : ℕ) (fl : Flags) (hfl : fl.array = false) (m : Cache) :
    parse (shippedCfg (fullLex p powF word alpha) shippedFuncs inc) (n + 1 + extra + 1) fl (w ++ '(' :: ts ++ [')']) m
      = some (.ok ([[.nest .func (w ++ '(' :: ts ++ [')'])
          (.leaf .funcName w :: .leaf .funcStart ['('] :: its ++ [.leaf .funcEnd [')']])]],
          (w ++ '(' :: ts ++ [')']).length, none), m) := by
  have hf : FreeName (fullLex p powF word alpha) w := by
    have h1 := List.all_eq_true.mp funcs_free w h
    simp only [Bool.and_eq_true, decide_eq_true_eq, List.all_eq_true, Bool.or_eq_true, Bool.not_eq_true'] at h1
    obtain ⟨⟨⟨⟨h1, h2⟩, h3⟩, h4⟩, h5⟩ := h1
    refine ⟨?_, ⟨h3, h4⟩, ?_⟩
    · cases w with
      | nil => simp at h1
      | cons a t => exact ⟨a, t, rfl, by simpa using h1, h2⟩
    · intro o ho hp
      rcases h5 o ho with h5 | h5
      · rw [← Bool.not_eq_true, List.isPrefixOf_iff_prefix] at h5
        exact absurd hp h5
      · exact ⟨h5.1, by rw [List.all_eq_true]; exact h5.2⟩
  have := C69_read hw ha shippedFuncs inc (n := n + 1) (t := (w ++ '(' :: ts ++ [')']) ++ [])
    (.cons (.inr (.inr (.inl ⟨w, ts, its, hf, h, hargs, rfl, rfl⟩))) .nil) extra fl hfl m
  rw [List.append_nil] at this
  exact this

end

theorem digit_line (d c : Char) (h : d.isDigit = true) (hc : c ∈ [',', ')']) :
    Line (Reading asciiFull shippedFuncs 0 true) true [d] [.leaf .num [d]] (some c) := by
  refine Line.cons (t := [d]) (rest := []) ⟨_, rfl, .num (demo_digit d h) ?_⟩ .nil
  intro e he
  cases he
  simp only [List.mem_cons, List.not_mem_nil, or_false] at hc
  rcases hc with rfl | rfl <;> decide

/-- Non-vacuity: `sp_kn(1,2)`. -/
example (inc : List Parse.Item → Bool) : parse (shippedCfg asciiFull shippedFuncs inc) 2 {} "sp_kn(1,2)".toList none
    = some (.ok ([[.nest .func "sp_kn(1,2)".toList [.leaf .funcName "sp_kn".toList, .leaf .funcStart ['('],
        .leaf .num ['1'], .leaf .funcParam [','], .leaf .num ['2'], .leaf .funcEnd [')']]]], 10, none), none) :=
  C85_call (w := "sp_kn".toList) (n := 0) (ts := "1,2".toList) (fun _ _ => rfl) (fun _ _ => rfl) inc (by decide +kernel)
    (.more (digit_line '1' ',' (by decide) (by decide)) (.last (digit_line '2' ')' (by decide) (by decide)))) 0 {} rfl none

end MC.Props
