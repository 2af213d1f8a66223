import Verif.Model.Repr
import Verif.Spec.Repr
import Verif.Lemmas.Total
import Verif.Lemmas.Number2

/-! # C99: the text of a number for programmers -/

namespace MC.Props
open MC Number Spec

theorem quote_split {a b r s : List Char} (ha : Quotable a) (hb : Quotable b)
    (h : a ++ '\'' :: r = b ++ '\'' :: s) : a = b ∧ r = s := by
  induction a generalizing b with
  | nil =>
    cases b with
    | nil => exact ⟨rfl, (List.cons.inj h).2⟩
    | cons c b => exact absurd (List.cons.inj h).1.symm (hb c (by simp)).1
  | cons c a ih =>
    cases b with
    | nil => exact absurd (List.cons.inj h).1 (ha c (by simp)).1
    | cons d b =>
      obtain ⟨e1, e2⟩ := List.cons.inj h
      obtain ⟨e3, e4⟩ := ih (fun x hx => ha x (by simp [hx])) (fun x hx => hb x (by simp [hx])) e2
      exact ⟨by rw [e1, e3], e4⟩

/-- A call can be read in one way only. -/
theorem call_unique {text : List Char} {as bs : List (List Char)} (h : IsCall text as) (h' : IsCall text bs) : as = bs := by
  cases h with
  | @one a ha =>
    generalize ht : "Number('".toList ++ a ++ "')".toList = text at h'
    cases h' with
    | @one b hb =>
      rw [List.append_assoc, List.append_assoc] at ht
      rw [(quote_split ha hb (List.append_cancel_left ht)).1]
    | @two b d hb hd =>
      simp only [List.append_assoc] at ht
      have := (quote_split ha hb (List.append_cancel_left ht)).2
      cases this
  | @two a c ha hc =>
    generalize ht : "Number('".toList ++ a ++ "', '".toList ++ c ++ "')".toList = text at h'
    cases h' with
    | @one b hb =>
      simp only [List.append_assoc] at ht
      have := (quote_split ha hb (List.append_cancel_left ht)).2
      cases this
    | @two b d hb hd =>
      simp only [List.append_assoc] at ht
      obtain ⟨e1, e2⟩ := quote_split ha hb (List.append_cancel_left ht)
      have e3 : c ++ '\'' :: [')'] = d ++ '\'' :: [')'] := by
        have := (List.cons.inj (List.cons.inj (List.cons.inj e2).2).2).2
        exact this
      rw [e1, (quote_split hc hd e3).1]

theorem decimal_intText (z : ℤ) : decimalCtor (intText z) = .ok (z : ℚ) := by
  have h1 : AllDigits (natText z.natAbs) := natText_digits _
  have h2 : natText z.natAbs ≠ [] := natText_ne_nil _
  have h3 := fun neg => decimalCtor_assemble (neg := neg) h1 h2 (fp := []) (by intro c hc; cases hc)
  have e : intText z = assemble (decide (z < 0)) (natText z.natAbs) [] := by
    unfold intText assemble
    by_cases hz : z < 0 <;> simp [hz]
  rw [e, h3, decimalOf, readNat_natText, readNat_nil]
  congr 1
  by_cases hz : z < 0
  · have : (z.natAbs : ℤ) = -z := by omega
    have : ((z.natAbs : ℕ) : ℚ) = -z := by
      have := congrArg (Int.cast (R := ℚ)) this
      rw [Int.cast_natCast] at this
      rw [this, Int.cast_neg]
    rw [this]
    simp [hz]
  · have : (z.natAbs : ℤ) = z := by omega
    have : ((z.natAbs : ℕ) : ℚ) = z := by
      have := congrArg (Int.cast (R := ℚ)) this
      rwa [Int.cast_natCast] at this
    rw [this]
    simp [hz]

theorem mk'_canonical (p : ℕ) {a : Number} (ha : a.Canonical) : mk' p a.num a.den = .ok a := by
  obtain ⟨hd, hg⟩ := ha
  have hd' : ((a.den : ℤ) : ℚ) ≠ 0 := by exact_mod_cast hd.ne'
  have hpos : ¬ ((a.den : ℤ) : ℚ) < 0 := by exact_mod_cast hd.le.not_gt
  unfold mk'
  rw [if_neg hd']
  simp only [isInt_intCast, if_true, if_neg hpos, truncQ_intCast, hg, lt_irrefl, if_false, rhu_intCast]

theorem quotable_intText (z : ℤ) : Quotable (intText z) := by
  have h1 : AllDigits (natText z.natAbs) := natText_digits _
  have hq : ∀ c : Char, c.isDigit = true → c ≠ '\'' ∧ c ≠ '\\' ∧ c ≠ '\n' := by
    intro c hc
    refine ⟨?_, ?_, ?_⟩ <;> (rintro rfl; revert hc; decide)
  intro c hc
  unfold intText at hc
  split at hc
  · rcases List.mem_cons.1 hc with rfl | hc
    · decide
    · exact hq c (h1 c hc)
  · exact hq c (h1 c hc)

/-- **C99**: what `repr` writes for a number in lowest terms, of any size, is a call of `Number` that makes the
same number, whatever the precision set. -/
theorem C99_repr (p : ℕ) {a : Number} (ha : a.Canonical) :
    ∃ args, IsCall (reprText a) args ∧ ofTexts p args = .ok a ∧ ∀ args', IsCall (reprText a) args' → args' = args := by
  unfold reprText
  split
  · have hc : IsCall ("Number('".toList ++ intText a.num ++ "', '".toList ++ intText a.den ++ "')".toList)
        [intText a.num, intText a.den] := .two (quotable_intText _) (quotable_intText _)
    refine ⟨_, hc, ?_, fun _ h => call_unique h hc⟩
    simp only [ofTexts, decimal_intText, bind, Except.bind]
    exact mk'_canonical p ha
  · rename_i h1
    have h1 : a.den = 1 := not_not.1 h1
    have hc : IsCall ("Number('".toList ++ intText a.num ++ "')".toList) [intText a.num] := .one (quotable_intText _)
    refine ⟨_, hc, ?_, fun _ h => call_unique h hc⟩
    simp only [ofTexts, decimal_intText, bind, Except.bind]
    have := mk'_canonical p ha
    rw [h1] at this
    exact_mod_cast this

/-- **C99**: different numbers in lowest terms are written differently. -/
theorem C99_different {a b : Number} (ha : a.Canonical) (hb : b.Canonical) (h : reprText a = reprText b) : a = b := by
  obtain ⟨as, h1, h2, _⟩ := C99_repr 1 ha
  obtain ⟨bs, _, h4, h5⟩ := C99_repr 1 hb
  rw [h] at h1
  rw [h5 as h1] at h2
  exact Except.ok.inj (h2.symm.trans h4)

/-- Minus seven thirds. -/
example : reprText ⟨-7, 3⟩ = "Number('-7', '3')".toList ∧ Number.Canonical ⟨-7, 3⟩ := ⟨by decide +kernel, by decide, by decide⟩

/-- A whole number. -/
example : reprText ⟨120, 1⟩ = "Number('120')".toList ∧ Number.Canonical ⟨120, 1⟩ := ⟨by decide +kernel, by decide, by decide⟩

end MC.Props
