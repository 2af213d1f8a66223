import Verif.Props.Written

/-! # C70: which names can be used for variables -/

namespace MC.Props
open MC.Parse MC.Parse.Spec
open MC.Unit MC.Unit.Table

attribute [local irreducible] ops units unitNames unitSymbols maxLength

/-- The words of the calculator: operators, truth values, constants, units, unit systems and number
types. -/
def Reserved (x : Lex) (w : Text) : Prop :=
  w ∈ x.ops ∨ lowerText w = "true".toList ∨ lowerText w = "false".toList ∨ w ∈ x.constants ∨
    lowerText w ∈ x.unitNames ∨ w ∈ x.unitSymbols ∨ w ∈ x.systems ∨ w ∈ x.numTypes

/-- **C70** (the full claim): a name that is not a reserved word is read as one variable. -/
def NamesAreVariables (x : Lex) (funcs : List Text) (inc : List Parse.Item → Bool) : Prop :=
  ∀ w, IsName w → ¬ Reserved x w → ∀ m,
    parse (shippedCfg x funcs inc) 1 {} w m = some (.ok ([[.leaf .var w]], w.length, none), m)

section
variable {p : ℕ} {powF : ℚ → ℚ → Except Err ℚ} {word alpha : Char → Bool}
  (hw : ∀ c, c.toNat < 128 → word c = asciiWord c) (ha : ∀ c, c.toNat < 128 → alpha c = isLetter c)

theorem isVar_letters {w : Text} (hn : w ≠ []) (hl : w.all isLetter = true)
    (hr : ¬ Reserved (fullLex p powF word alpha) w) : IsVar (fullLex p powF word alpha) w := by
  have hall := List.all_eq_true.1 hl
  unfold Reserved at hr
  push Not at hr
  obtain ⟨r1, r2, r3, r4, r5, r6, r7, r8⟩ := hr
  have hend : ∀ u v : Text, w = u ++ v →
      (∀ c, v.head? = some c → isLetter c = false ∧ c ≠ '_') → u = w := by
    intro u v e hv
    cases v with
    | nil => rw [e]; simp
    | cons c v =>
      have := (hv c rfl).1
      rw [hall c (by rw [e]; simp)] at this
      cases this
  refine ⟨⟨?_, ⟨r2, r3⟩, ?_⟩, ?_, ?_, ?_⟩
  · cases w with
    | nil => exact absurd rfl hn
    | cons a t =>
      refine ⟨a, t, rfl, .inl (hall a (by simp)), ?_⟩
      intro c hc
      simp [asciiWord, hall c (by simp [hc])]
  · rintro o ho ⟨v, hv⟩
    refine ⟨?_, ?_⟩
    · rintro rfl
      exact r1 ho
    · rw [List.all_eq_true]
      intro c hc
      exact hall c (by rw [← hv]; simp [hc])
  · rw [List.takeWhile_eq_self_iff.2 hall]
    exact r4
  · intro u v e hu hv
    rw [hend u v e hv]
    exact ⟨r5, r6⟩
  · intro y hy v e
    cases v with
    | nil =>
      rw [List.append_nil] at e
      subst e
      rcases List.mem_append.1 hy with h | h
      · exact absurd h r7
      · exact absurd h r8
    | cons c v => exact ⟨c, rfl, hall c (by rw [e]; simp)⟩

include hw ha

/-- **C70**: a name is read as one variable if none of the reserved words stands at its start
before a character that ends such a word there.  Missing: names like `e1`, `m2` and `si_x`, for
which the claim is false. -/
theorem C70_names_partial (funcs : List Text) (inc : List Parse.Item → Bool) {w : Text}
    (h : IsVar (fullLex p powF word alpha) w) (m : Cache) :
    parse (shippedCfg (fullLex p powF word alpha) funcs inc) 1 {} w m
      = some (.ok ([[.leaf .var w]], w.length, none), m) := by
  have : Expression (fullLex p powF word alpha) funcs 0 w [.leaf .var w] := by
    have := Line.cons (R := Reading (fullLex p powF word alpha) funcs 0 false) (first := true)
      (t := w) (rest := []) (tail := none) (it := .leaf .var w) (its := [])
      ⟨_, rfl, .var h (by intro c hc; cases hc) (by simp) (by intro c hc; cases hc)
        (by intro c hc; cases hc)⟩ .nil
    rwa [List.append_nil] at this
  exact C69_read hw ha funcs inc this 0 {} rfl m

/-- **C70** for names of letters: such a name is read as a variable if it is not a reserved word,
even if reserved words are at its start (`tot`, `e` and `m` in `team`, `to` in `total`). -/
theorem C70_letters_partial (funcs : List Text) (inc : List Parse.Item → Bool) {w : Text}
    (hn : w ≠ []) (hl : w.all isLetter = true) (hr : ¬ Reserved (fullLex p powF word alpha) w)
    (m : Cache) :
    parse (shippedCfg (fullLex p powF word alpha) funcs inc) 1 {} w m
      = some (.ok ([[.leaf .var w]], w.length, none), m) :=
  C70_names_partial hw ha funcs inc (isVar_letters hn hl hr) m

end

theorem free_total : ¬ Reserved asciiFull "total".toList := by
  unfold Reserved
  decide +kernel

/-- Non-vacuity: `total` starts with the operator `to`. -/
example (m : Cache) : parse (shippedCfg asciiFull [] (fun _ => false)) 1 {} "total".toList m
    = some (.ok ([[.leaf .var "total".toList]], 5, none), m) :=
  C70_letters_partial (fun _ _ => rfl) (fun _ _ => rfl) [] _ (by simp) (by decide) free_total m

/-- **C70** is false: `e_1` is a name and no reserved word, but it is read as the constant `e` and
the variable `_1`. -/
theorem C70_violation_constant : IsName "e_1".toList ∧ ¬ Reserved asciiFull "e_1".toList ∧
    leaves (parse (shippedCfg asciiFull [] (fun _ => false)) 1 {} "e_1".toList none) =
      some [[(some .constant, "e".toList), (some .var, "_1".toList)]] := by
  refine ⟨⟨'e', ['_', '1'], rfl, by decide, by decide⟩, ?_, by decide +kernel⟩
  unfold Reserved
  decide +kernel

/-- **C70** is false: `si_size` is read as the unit system and a variable. -/
theorem C70_violation_system : IsName "si_size".toList ∧ ¬ Reserved asciiFull "si_size".toList ∧
    leaves (parse (shippedCfg asciiFull [] (fun _ => false)) 1 {} "si_size".toList none) =
      some [[(some .special, "si".toList), (some .var, "_size".toList)]] := by
  refine ⟨⟨'s', "i_size".toList, rfl, by decide, by decide⟩, ?_, by decide +kernel⟩
  unfold Reserved
  decide +kernel

/-- **C70** is false: `m2` cannot be read at all: after the unit `m`, `2` is nothing. -/
theorem C70_violation_unit : IsName "m2".toList ∧ ¬ Reserved asciiFull "m2".toList ∧
    leaves (parse (shippedCfg asciiFull [] (fun _ => false)) 1 {} "m2".toList none) = none ∧
    (parse (shippedCfg asciiFull [] (fun _ => false)) 1 {} "m2".toList none).isSome = true := by
  refine ⟨⟨'m', ['2'], rfl, by decide, by decide⟩, ?_, by decide +kernel, by decide +kernel⟩
  unfold Reserved
  decide +kernel

theorem C70_violation : ¬ NamesAreVariables asciiFull [] (fun _ => false) := by
  intro h
  obtain ⟨h1, h2, h3⟩ := C70_violation_constant
  rw [h _ h1 h2 none] at h3
  revert h3
  decide

end MC.Props
