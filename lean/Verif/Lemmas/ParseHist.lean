import Verif.Lemmas.Parse2

/-!
# What parsing reads of the calculator's memory

Parsing with the memory `some t` goes like parsing with no memory, if `t` cannot be found, as a
scattered text, in the expression.
-/

namespace MC.Parse

open Spec

set_option linter.unusedSectionVars false

variable {c : Cfg}

/-- The two memories are equal, or one is the text `t` and the other is empty. -/
def CacheRel (t : Text) (s1 s2 : Cache) : Prop := s1 = s2 ∨ (s1 = some t ∧ s2 = none)

/-- The same results, and related memories. -/
def OutRel {α : Type} (t : Text) : Option (α × Cache) → Option (α × Cache) → Prop
  | none, none => True
  | some (a, s1), some (b, s2) => a = b ∧ CacheRel t s1 s2
  | _, _ => False

/-- A computation that goes the same on related memories. -/
def Blind {α : Type} (t : Text) (m : M α) : Prop :=
  ∀ s1 s2, CacheRel t s1 s2 → OutRel t (m s1) (m s2)

/-- `rec` goes the same on texts in which `t` cannot be found. -/
def RecBlind (t : Text) (rec : ParseFn) : Prop :=
  ∀ fl text, ¬ t.Sublist text → Blind t (rec fl text)

theorem outRel_some {α : Type} {t : Text} {a b : Option (α × Cache)} (h : OutRel t a b) :
    (a = none ∧ b = none) ∨ ∃ r s1 s2, a = some (r, s1) ∧ b = some (r, s2) ∧ CacheRel t s1 s2 := by
  match a, b, h with
  | none, none, _ => exact Or.inl ⟨rfl, rfl⟩
  | some (a, s1), some (b, s2), h =>
    obtain ⟨e, hr⟩ := h
    subst e
    exact Or.inr ⟨_, _, _, rfl, rfl, hr⟩

theorem blind_pure {α : Type} {t : Text} (a : α) : Blind t (fun s => some (a, s)) :=
  fun _ _ h => ⟨rfl, h⟩

variable {t : Text}

theorem sub_drop {text : Text} (h : ¬ t.Sublist text) (i : ℕ) : ¬ t.Sublist (text.drop i) :=
  fun h' => h (h'.trans (List.drop_sublist _ _))

theorem argLoop_blind {rec : ParseFn} (hr : RecBlind t rec) {k : Nest} {next : Text}
    (hn : ¬ t.Sublist next) : ∀ (n i : ℕ) (items : List Item),
      Blind t (argLoop rec k next n i items) := by
  intro n
  induction n with
  | zero => intro i items s1 s2 _; trivial
  | succ n ih =>
    intro i items s1 s2 hs
    unfold argLoop
    by_cases hlt : i < next.length
    · simp only [if_pos hlt]
      rcases outRel_some (hr { func := true, ignoreTerm := true } (next.drop i)
        (sub_drop hn i) s1 s2 hs) with ⟨h1, h2⟩ | ⟨r, a, b, h1, h2, h3⟩
      · rw [h1, h2]; trivial
      · rw [h1, h2]
        cases r with
        | error e => cases e <;> exact ⟨rfl, h3⟩
        | ok v =>
          simp only
          split
          · exact ⟨rfl, h3⟩
          · exact ih _ _ _ _ h3
    · simp only [if_neg hlt]; exact ⟨rfl, hs⟩

theorem runFunc_blind {rec : ParseFn} (hr : RecBlind t rec) {k : Nest} {name : Option Text}
    {next : Text} (hn : ¬ t.Sublist next) : Blind t (runFunc rec k name next) := by
  cases name with
  | none => exact blind_pure _
  | some nm => exact argLoop_blind hr hn _ _ _

theorem runInner_blind {rec : ParseFn} (hr : RecBlind t rec) {next : Text} {fl : Flags}
    (hn : ¬ t.Sublist next) : Blind t (runInner rec next fl) := by
  intro s1 s2 hs
  unfold runInner
  split
  · rename_i rest
    have hrest : ¬ t.Sublist rest := fun h => hn (h.trans (List.sublist_cons_self _ _))
    rcases outRel_some (hr { fl with inner := true, ignoreTerm := true } rest hrest s1 s2 hs)
      with ⟨h1, h2⟩ | ⟨r, a, b, h1, h2, h3⟩
    · rw [h1, h2]; trivial
    · rw [h1, h2]
      cases r with
      | error e => cases e <;> exact ⟨rfl, h3⟩
      | ok v => simp only; split <;> exact ⟨rfl, h3⟩
  · exact ⟨rfl, hs⟩

theorem runInline_blind {rec : ParseFn} (hr : RecBlind t rec) {next : Text} {fl : Flags}
    (hn : ¬ t.Sublist next) : Blind t (runInline rec next fl) := by
  intro s1 s2 hs
  unfold runInline
  split
  · rename_i rest
    have hrest : ¬ t.Sublist rest := fun h => hn (h.trans (List.sublist_cons_self _ _))
    rcases outRel_some (hr { fl with inline := true } rest hrest s1 s2 hs)
      with ⟨h1, h2⟩ | ⟨r, a, b, h1, h2, h3⟩
    · rw [h1, h2]; trivial
    · rw [h1, h2]
      cases r with
      | error e => cases e <;> exact ⟨rfl, h3⟩
      | ok v => simp only; split <;> exact ⟨rfl, h3⟩
  · exact ⟨rfl, hs⟩

theorem arrParse_blind {rec : ParseFn} (hr : RecBlind t rec) {next : Text} {i : ℕ}
    {items : List Item} (hn : ¬ t.Sublist next) : Blind t (arrParse rec next i items) := by
  intro s1 s2 hs
  unfold arrParse
  rcases outRel_some (hr { array := true, ignoreTerm := true } (next.drop i) (sub_drop hn i)
    s1 s2 hs) with ⟨h1, h2⟩ | ⟨r, a, b, h1, h2, h3⟩
  · rw [h1, h2]; trivial
  · rw [h1, h2]
    cases r with
    | error e => cases e <;> exact ⟨rfl, h3⟩
    | ok v => exact ⟨rfl, h3⟩

theorem arrStepPart_blind {rec : ParseFn} (hr : RecBlind t rec) {next : Text} {i : ℕ}
    {items : List Item} (hn : ¬ t.Sublist next) : Blind t (arrStepPart rec next i items) := by
  intro s1 s2 hs
  unfold arrStepPart
  rcases outRel_some (arrParse_blind hr (i := i) (items := items) hn s1 s2 hs)
    with ⟨h1, h2⟩ | ⟨r, a, b, h1, h2, h3⟩
  · rw [h1, h2]; trivial
  · rw [h1, h2]
    cases r <;> exact ⟨rfl, h3⟩

theorem arrRangePart_blind {rec : ParseFn} (hr : RecBlind t rec) {next : Text} {i : ℕ}
    {items : List Item} (hn : ¬ t.Sublist next) : Blind t (arrRangePart c rec next i items) := by
  intro s1 s2 hs
  unfold arrRangePart
  rcases outRel_some (arrParse_blind hr (i := i) (items := items) hn s1 s2 hs)
    with ⟨h1, h2⟩ | ⟨r, a, b, h1, h2, h3⟩
  · rw [h1, h2]; trivial
  · rw [h1, h2]
    cases r with
    | error e => exact ⟨rfl, h3⟩
    | ok v =>
      simp only
      split
      · split <;> exact ⟨rfl, h3⟩
      · split
        · exact arrStepPart_blind hr hn _ _ h3
        · exact ⟨rfl, h3⟩

theorem arrTurn_blind {rec : ParseFn} (hr : RecBlind t rec) {next : Text} {i : ℕ}
    {items : List Item} (hn : ¬ t.Sublist next) : Blind t (arrTurn c rec next i items) := by
  intro s1 s2 hs
  unfold arrTurn
  rcases outRel_some (arrParse_blind hr (i := i) (items := items) hn s1 s2 hs)
    with ⟨h1, h2⟩ | ⟨r, a, b, h1, h2, h3⟩
  · rw [h1, h2]; trivial
  · rw [h1, h2]
    cases r with
    | error e => exact ⟨rfl, h3⟩
    | ok v =>
      simp only
      split
      · split <;> exact ⟨rfl, h3⟩
      · split
        · exact arrRangePart_blind hr hn _ _ h3
        · exact ⟨rfl, h3⟩

theorem arrLoop_blind {rec : ParseFn} (hr : RecBlind t rec) {next : Text}
    (hn : ¬ t.Sublist next) : ∀ (n i : ℕ) (items : List Item),
      Blind t (arrLoop c rec next n i items) := by
  intro n
  induction n with
  | zero => intro i items s1 s2 _; trivial
  | succ n ih =>
    intro i items s1 s2 hs
    unfold arrLoop
    by_cases hlt : i < next.length
    · simp only [if_pos hlt]
      rcases outRel_some (arrTurn_blind hr (c := c) (i := i) (items := items) hn s1 s2 hs)
        with ⟨h1, h2⟩ | ⟨r, a, b, h1, h2, h3⟩
      · rw [h1, h2]; trivial
      · rw [h1, h2]
        cases r with
        | error e => exact ⟨rfl, h3⟩
        | ok v =>
          simp only
          split
          · exact ⟨rfl, h3⟩
          · split
            · exact ih _ _ _ _ h3
            · exact ih _ _ _ _ h3
    · simp only [if_neg hlt]; exact ⟨rfl, hs⟩

theorem runArray_blind {rec : ParseFn} (hr : RecBlind t rec) {next : Text}
    (hn : ¬ t.Sublist next) : Blind t (runArray c rec next) := by
  intro s1 s2 hs
  unfold runArray
  by_cases h : starts c.arrOpen next = true
  · simp only [if_pos h]; exact arrLoop_blind hr hn _ _ _ s1 s2 hs
  · simp only [if_neg h]; exact ⟨rfl, hs⟩

theorem functional_sublist (items : List Item) :
    (itemsText (functionalItems items)).Sublist (itemsText items) := by
  induction items with
  | nil => simp [functionalItems]
  | cons a l ih =>
    simp only [functionalItems, List.filter_cons] at ih ⊢
    cases a.functional with
    | true => simpa using List.Sublist.append_left ih a.text
    | false => simpa using ih.trans (List.sublist_append_right _ _)

theorem runTerminator_blind {cur : List Item} {next : Text} {fl : Flags}
    (hn : ¬ t.Sublist (itemsText cur)) : Blind t (runTerminator c cur next fl) := by
  intro s1 s2 hs
  have hne : itemsText (functionalItems cur) ≠ t := by
    intro h
    exact hn (h ▸ functional_sublist cur)
  unfold runTerminator
  cases fl.ignoreTerm with
  | true => exact ⟨rfl, hs⟩
  | false =>
    simp only [Bool.false_eq_true, if_false]
    cases starts c.termSym next with
    | false => exact ⟨rfl, hs⟩
    | true =>
      simp only [if_true]
      rcases hs with rfl | ⟨rfl, rfl⟩
      · split
        · exact ⟨rfl, Or.inl rfl⟩
        · split <;> exact ⟨rfl, Or.inl rfl⟩
      · have h1 : ¬ (some (itemsText (functionalItems cur)) = some t) := by
          intro h; exact hne (Option.some.inj h)
        have h2 : ¬ (some (itemsText (functionalItems cur)) = none) := by simp
        simp only [if_neg h1, if_neg h2]
        split
        · exact ⟨rfl, Or.inl rfl⟩
        · exact ⟨rfl, Or.inr ⟨rfl, rfl⟩⟩

theorem runParser_blind {rec : ParseFn} (hr : RecBlind t rec) {p : Parser} {cur : List Item}
    {next : Text} {fl : Flags} (hn : ¬ t.Sublist next) (hcur : ¬ t.Sublist (itemsText cur)) :
    Blind t (runParser c rec p cur next fl) := by
  cases p with
  | leaf f =>
    intro s1 s2 hs
    simp only [runParser]
    cases f cur next with
    | error e => exact ⟨rfl, hs⟩
    | ok v => cases v <;> exact ⟨rfl, hs⟩
  | terminator => exact runTerminator_blind hcur
  | pointer => exact runFunc_blind hr hn
  | func => exact runFunc_blind hr hn
  | inner => exact runInner_blind hr hn
  | inline => exact runInline_blind hr hn
  | array => exact runArray_blind hr hn
  | _ => exact blind_pure _

theorem tryParsers_blind (hc : Ok c) {rec : ParseFn} (hg : RecGood c rec) (hr : RecBlind t rec)
    {fl : Flags} {pre next : Text} (hne : next ≠ []) (hn : ¬ t.Sublist (pre ++ next)) :
    ∀ (ps : List Parser) (_ : ∀ p ∈ ps, p ∈ c.parsers) (done : List (List Item))
      (cur : List Item), Sofar fl pre done cur →
      Blind t (tryParsers c rec next fl ps done cur) := by
  intro ps
  induction ps with
  | nil => intro _ done cur _; exact blind_pure _
  | cons p ps ih =>
    intro hps done cur hs s1 s2 hcr
    have hnn : ¬ t.Sublist next := fun h => hn (h.trans (List.sublist_append_right _ _))
    have hcur : ¬ t.Sublist (itemsText cur) := by
      intro h
      apply hn
      have h1 := hs.cov.1
      rw [itemsText_append] at h1
      refine (h.trans (List.sublist_append_right (itemsText done.flatten) _)).trans ?_
      rw [h1]
      exact List.sublist_append_left pre next
    simp only [tryParsers]
    rcases outRel_some (runParser_blind (c := c) hr (p := p) (fl := fl) hnn hcur s1 s2 hcr)
      with ⟨h1, h2⟩ | ⟨r, a, b, h1, h2, h3⟩
    · rw [h1, h2]; trivial
    · have hgood := resOk_runParser hc hg (hps p (by simp)) hne h1
      rw [h1, h2]
      cases r with
      | error e => cases e <;> exact ⟨rfl, h3⟩
      | ok f =>
        have hgood : FoundOk c fl next f := hgood
        cases hgood with
        | nothing =>
          simp only [nothing, Option.isSome_none, Option.any_none, Bool.or_false,
            Option.getD_none, List.append_nil, Bool.false_eq_true, if_false]
          exact ih (fun p hp => hps p (by simp [hp])) done cur hs a b h3
        | item its n => exact ⟨rfl, h3⟩
        | endSt its n => exact ⟨rfl, h3⟩
        | stop w => exact ⟨rfl, h3⟩
        | stopItem w => exact ⟨rfl, h3⟩

theorem parseLoop_blind (hc : Ok c) {rec : ParseFn} (hg : RecGood c rec) (hr : RecBlind t rec)
    {fl : Flags} : ∀ (n : ℕ) (pre next : Text) (done : List (List Item)) (cur : List Item),
      Sofar fl pre done cur → ¬ t.Sublist (pre ++ next) →
      Blind t (parseLoop c rec fl n pre.length next done cur) := by
  intro n
  induction n with
  | zero => intro pre next done cur _ _ s1 s2 _; trivial
  | succ n ih =>
    intro pre next done cur hs hn s1 s2 hcr
    cases hnx : next with
    | nil => exact ⟨rfl, hcr⟩
    | cons a l =>
      have hne : next ≠ [] := by simp [hnx]
      simp only [parseLoop]
      rw [← hnx]
      rcases outRel_some (tryParsers_blind hc hg hr hne hn c.parsers (fun _ h => h) done cur hs
        s1 s2 hcr) with ⟨h1, h2⟩ | ⟨r, s1', s2', h1, h2, h3⟩
      · rw [h1, h2]; trivial
      · have hok := tryParsers_ok hc hg hne c.parsers (fun _ h => h) done cur s1 s1' r hs h1
        rw [h1, h2]
        cases r with
        | error e => exact ⟨rfl, h3⟩
        | ok tn =>
          cases tn with
          | ret st k w => exact ⟨rfl, h3⟩
          | go done1 cur1 k =>
            obtain ⟨hk, hs1⟩ := hok
            simp only
            by_cases hk0 : k = 0
            · simp only [if_pos hk0]; exact ⟨rfl, h3⟩
            · simp only [if_neg hk0]
              have hl : pre.length + k = (pre ++ next.take k).length := by
                simp [Nat.min_eq_left hk]
              rw [hl]
              refine ih (pre ++ next.take k) (next.drop k) done1 cur1 hs1 ?_ s1' s2' h3
              rwa [List.append_assoc, List.take_append_drop]

theorem parse_blind (hc : Ok c) : ∀ n, RecBlind t (parse c n) := by
  intro n
  induction n with
  | zero => intro fl text _ s1 s2 _; trivial
  | succ n ih =>
    intro fl text hn
    exact parseLoop_blind hc (parse_good hc n) ih _ [] text [] []
      ⟨covers_nil, fun _ => rfl, fun _ => rfl⟩ (by simpa using hn)

end MC.Parse
