import Verif.Lemmas.Parse2

/-!
# The result of `parse` does not depend on the bound of the nesting
-/

namespace MC.Parse

open Spec

set_option linter.unusedSectionVars false

variable {c : Cfg}

/-- Where the one function gives a result, the other gives the same. -/
def Extends (f g : ParseFn) : Prop := ∀ fl text s v, f fl text s = some v → g fl text s = some v

variable {f g : ParseFn}

theorem argLoop_mono (hfg : Extends f g) {k : Nest} {next : Text} :
    ∀ (n i : ℕ) (items : List Item) (s : Cache) (v), argLoop f k next n i items s = some v →
      argLoop g k next n i items s = some v := by
  intro n
  induction n with
  | zero => intro i items s v h; simp [argLoop] at h
  | succ n ih =>
    intro i items s v h
    unfold argLoop at h ⊢
    by_cases hlt : i < next.length
    · rw [if_pos hlt] at h ⊢
      cases hrec : f { func := true, ignoreTerm := true } (next.drop i) s with
      | none => simp [hrec] at h
      | some w =>
        rw [hfg _ _ _ _ hrec]
        rw [hrec] at h
        obtain ⟨r, s1⟩ := w
        cases r with
        | error e => cases e <;> exact h
        | ok r =>
          simp only at h ⊢
          split
          · rename_i hw; rw [if_pos hw] at h; exact h
          · rename_i hw; rw [if_neg hw] at h; exact ih _ _ _ _ h
    · rw [if_neg hlt] at h ⊢; exact h

theorem runFunc_mono (hfg : Extends f g) {k : Nest} {name : Option Text} {next : Text} {s : Cache}
    {v} (h : runFunc f k name next s = some v) : runFunc g k name next s = some v := by
  cases name with
  | none => exact h
  | some nm => exact argLoop_mono hfg _ _ _ _ _ h

theorem runInner_mono (hfg : Extends f g) {next : Text} {fl : Flags} {s : Cache}
    {v} (h : runInner f next fl s = some v) : runInner g next fl s = some v := by
  unfold runInner at h ⊢
  split at h
  · rename_i rest
    cases hrec : f { fl with inner := true, ignoreTerm := true } rest s with
    | none => simp [hrec] at h
    | some w => rw [hrec] at h; simp only [hfg _ _ _ _ hrec]; exact h
  · exact h

theorem runInline_mono (hfg : Extends f g) {next : Text} {fl : Flags} {s : Cache}
    {v} (h : runInline f next fl s = some v) : runInline g next fl s = some v := by
  unfold runInline at h ⊢
  split at h
  · rename_i rest
    cases hrec : f { fl with inline := true } rest s with
    | none => simp [hrec] at h
    | some w => rw [hrec] at h; simp only [hfg _ _ _ _ hrec]; exact h
  · exact h

theorem arrParse_mono (hfg : Extends f g) {next : Text} {i : ℕ} {items : List Item} {s : Cache}
    {v} (h : arrParse f next i items s = some v) : arrParse g next i items s = some v := by
  unfold arrParse at h ⊢
  cases hrec : f { array := true, ignoreTerm := true } (next.drop i) s with
  | none => simp [hrec] at h
  | some w => rw [hrec] at h; rw [hfg _ _ _ _ hrec]; exact h

theorem arrStepPart_mono (hfg : Extends f g) {next : Text} {i : ℕ} {items : List Item}
    {s : Cache} {v} (h : arrStepPart f next i items s = some v) :
    arrStepPart g next i items s = some v := by
  unfold arrStepPart at h ⊢
  cases hrec : arrParse f next i items s with
  | none => simp [hrec] at h
  | some w => rw [hrec] at h; rw [arrParse_mono hfg hrec]; exact h

theorem arrRangePart_mono (hfg : Extends f g) {next : Text} {i : ℕ} {items : List Item}
    {s : Cache} {v} (h : arrRangePart c f next i items s = some v) :
    arrRangePart c g next i items s = some v := by
  unfold arrRangePart at h ⊢
  cases hrec : arrParse f next i items s with
  | none => simp [hrec] at h
  | some w =>
    rw [hrec] at h
    rw [arrParse_mono hfg hrec]
    obtain ⟨r, s1⟩ := w
    cases r with
    | error e => exact h
    | ok r =>
      simp only at h ⊢
      by_cases h1 : r.1 = []
      · rw [if_pos h1] at h ⊢; exact h
      · rw [if_neg h1] at h ⊢
        by_cases h2 : r.2.2 = some .arrStep
        · rw [if_pos h2] at h ⊢; exact arrStepPart_mono hfg h
        · rw [if_neg h2] at h ⊢; exact h

theorem arrTurn_mono (hfg : Extends f g) {next : Text} {i : ℕ} {items : List Item}
    {s : Cache} {v} (h : arrTurn c f next i items s = some v) :
    arrTurn c g next i items s = some v := by
  unfold arrTurn at h ⊢
  cases hrec : arrParse f next i items s with
  | none => simp [hrec] at h
  | some w =>
    rw [hrec] at h
    rw [arrParse_mono hfg hrec]
    obtain ⟨r, s1⟩ := w
    cases r with
    | error e => exact h
    | ok r =>
      simp only at h ⊢
      by_cases h1 : r.1 = []
      · rw [if_pos h1] at h ⊢; exact h
      · rw [if_neg h1] at h ⊢
        by_cases h2 : r.2.2 = some .arrRange
        · rw [if_pos h2] at h ⊢; exact arrRangePart_mono hfg h
        · rw [if_neg h2] at h ⊢; exact h

theorem arrLoop_mono (hfg : Extends f g) {next : Text} :
    ∀ (n i : ℕ) (items : List Item) (s : Cache) (v), arrLoop c f next n i items s = some v →
      arrLoop c g next n i items s = some v := by
  intro n
  induction n with
  | zero => intro i items s v h; simp [arrLoop] at h
  | succ n ih =>
    intro i items s v h
    unfold arrLoop at h ⊢
    by_cases hlt : i < next.length
    · rw [if_pos hlt] at h ⊢
      cases hrec : arrTurn c f next i items s with
      | none => simp [hrec] at h
      | some w =>
        rw [arrTurn_mono hfg hrec]
        rw [hrec] at h
        obtain ⟨r, s1⟩ := w
        cases r with
        | error e => exact h
        | ok r =>
          simp only at h ⊢
          by_cases h1 : r.2.2 = some .arrEnd
          · rw [if_pos h1] at h ⊢; exact h
          · rw [if_neg h1] at h ⊢
            by_cases h2 : r.2.2 = some .arrParam
            · rw [if_pos h2] at h ⊢; exact ih _ _ _ _ h
            · rw [if_neg h2] at h ⊢; exact ih _ _ _ _ h
    · rw [if_neg hlt] at h ⊢; exact h

theorem runArray_mono (hfg : Extends f g) {next : Text} {s : Cache} {v}
    (h : runArray c f next s = some v) : runArray c g next s = some v := by
  unfold runArray at h ⊢
  by_cases hs : starts c.arrOpen next = true
  · rw [if_pos hs] at h ⊢; exact arrLoop_mono hfg _ _ _ _ _ h
  · rw [if_neg hs] at h ⊢; exact h

theorem runParser_mono (hfg : Extends f g) {p : Parser} {cur : List Item} {next : Text}
    {fl : Flags} {s : Cache} {v} (h : runParser c f p cur next fl s = some v) :
    runParser c g p cur next fl s = some v := by
  cases p with
  | pointer => exact runFunc_mono hfg h
  | func => exact runFunc_mono hfg h
  | inner => exact runInner_mono hfg h
  | inline => exact runInline_mono hfg h
  | array => exact runArray_mono hfg h
  | _ => exact h

theorem tryParsers_mono (hfg : Extends f g) {next : Text} {fl : Flags} :
    ∀ (ps : List Parser) (done : List (List Item)) (cur : List Item) (s : Cache) (v),
      tryParsers c f next fl ps done cur s = some v →
      tryParsers c g next fl ps done cur s = some v := by
  intro ps
  induction ps with
  | nil => intro done cur s v h; exact h
  | cons p ps ih =>
    intro done cur s v h
    simp only [tryParsers] at h ⊢
    cases hrec : runParser c f p cur next fl s with
    | none => simp [hrec] at h
    | some w =>
      rw [hrec] at h
      rw [runParser_mono hfg hrec]
      obtain ⟨r, s1⟩ := w
      cases r with
      | error e => cases e <;> exact h
      | ok r =>
        simp only at h ⊢
        cases hret : r.ret with
        | stop w => simp only [hret] at h ⊢; exact h
        | endStatement =>
          simp only [hret] at h ⊢
          cases hb : (r.items.isSome || r.len.any (fun n => decide (0 < n))) with
          | true => simp only [hb, if_true] at h ⊢; exact h
          | false =>
            simp only [hb] at h ⊢
            exact ih _ _ _ _ h
        | none =>
          simp only [hret] at h ⊢
          cases hb : (r.items.isSome || r.len.any (fun n => decide (0 < n))) with
          | true => simp only [hb, if_true] at h ⊢; exact h
          | false =>
            simp only [hb] at h ⊢
            exact ih _ _ _ _ h

theorem parseLoop_mono (hfg : Extends f g) {fl : Flags} :
    ∀ (n pos : ℕ) (next : Text) (done : List (List Item)) (cur : List Item) (s : Cache) (v),
      parseLoop c f fl n pos next done cur s = some v →
      parseLoop c g fl n pos next done cur s = some v := by
  intro n
  induction n with
  | zero => intro pos next done cur s v h; simp [parseLoop] at h
  | succ n ih =>
    intro pos next done cur s v h
    unfold parseLoop at h ⊢
    cases next with
    | nil => exact h
    | cons a t =>
      simp only at h ⊢
      cases hrec : tryParsers c f (a :: t) fl c.parsers done cur s with
      | none => simp [hrec] at h
      | some w =>
        rw [hrec] at h
        rw [tryParsers_mono hfg _ _ _ _ _ hrec]
        obtain ⟨r, s1⟩ := w
        cases r with
        | error e => exact h
        | ok r =>
          cases r with
          | ret st k w => exact h
          | go done cur k =>
            simp only at h ⊢
            by_cases hk : k = 0
            · rw [if_pos hk] at h ⊢; exact h
            · rw [if_neg hk] at h ⊢; exact ih _ _ _ _ _ _ h

theorem parse_succ : ∀ n, Extends (parse c n) (parse c (n + 1)) := by
  intro n
  induction n with
  | zero => intro fl text s v h; simp [parse] at h
  | succ n ih => intro fl text s v h; exact parseLoop_mono ih _ _ _ _ _ _ _ h

theorem parse_mono {m n : ℕ} (h : m ≤ n) : Extends (parse c m) (parse c n) := by
  induction h with
  | refl => intro fl text s v h; exact h
  | step _ ih => intro fl text s v h; exact parse_succ _ _ _ _ _ (ih _ _ _ _ h)

end MC.Parse
