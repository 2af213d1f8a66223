import Verif.Lemmas.Parse

/-!
# Parsing keeps the text, and ends
-/

namespace MC.Parse

open Spec

set_option linter.unusedSectionVars false

variable {c : Cfg}

/-- The statements so far cover the text read so far. -/
structure Sofar (fl : Flags) (pre : Text) (done : List (List Item)) (cur : List Item) : Prop where
  cov : Covers (done.flatten ++ cur) pre
  one : fl.ignoreTerm = true → done = []
  zero : pre = [] → done.flatten ++ cur = []

/-- A good turn. -/
def TurnOk (c : Cfg) (fl : Flags) (pre next : Text) : Except Fail Turn → Prop
  | .error (.py m) => Raised c m next
  | .error (.parsing _ st nx) => ErrGood fl (pre ++ next) st nx
  | .ok (.go done cur k) => k ≤ next.length ∧ Sofar fl (pre ++ next.take k) done cur
  | .ok (.ret st k w) => k = 0 ∧ st ≠ [] ∧ (fl.ignoreTerm = true → st.length = 1) ∧
      Allowed fl w ∧ stopText c w <+: next ∧
      ∃ body, st.flatten = body ++ endItems w ∧ Covers body pre ∧ (pre = [] → body = [])

theorem tryParsers_ok (hc : Ok c) {rec : ParseFn} (hr : RecGood c rec) {fl : Flags}
    {pre next : Text} (hne : next ≠ []) :
    ∀ (ps : List Parser) (_ : ∀ p ∈ ps, p ∈ c.parsers) (done : List (List Item))
      (cur : List Item) (s s' : Cache) (r : Except Fail Turn), Sofar fl pre done cur →
      tryParsers c rec next fl ps done cur s = some (r, s') → TurnOk c fl pre next r := by
  intro ps
  induction ps with
  | nil =>
    intro _ done cur s s' r hs h
    simp only [tryParsers, Option.some.injEq, Prod.mk.injEq] at h
    rw [← h.1]
    exact ⟨Nat.zero_le _, by simpa using hs⟩
  | cons p ps ih =>
    intro hps done cur s s' r hs h
    simp only [tryParsers] at h
    cases hrun : runParser c rec p cur next fl s with
    | none => simp [hrun] at h
    | some v =>
      obtain ⟨r1, s1⟩ := v
      have hg := resOk_runParser hc hr (hps p (by simp)) hne hrun
      rw [hrun] at h
      cases r1 with
      | error e =>
        cases e with
        | py m =>
          simp only [Option.some.injEq, Prod.mk.injEq] at h
          rw [← h.1]; exact hg
        | parse m its nx =>
          simp only [Option.some.injEq, Prod.mk.injEq] at h
          rw [← h.1]
          obtain ⟨pre1, hp, he⟩ := hg
          refine ⟨by simp, ⟨pre ++ pre1, ?_, by simp [← he]⟩, fun h1 => by simp [hs.one h1]⟩
          have : (done ++ [cur ++ its]).flatten = (done.flatten ++ cur) ++ its := by simp
          rw [this]
          exact hs.cov.append hp
      | ok f =>
        have hg : FoundOk c fl next f := hg
        simp only at h
        cases hg with
        | nothing =>
          simp only [nothing, Option.isSome_none, Option.any_none, Bool.or_false,
            Option.getD_none, List.append_nil] at h
          exact ih (fun p hp => hps p (by simp [hp])) done cur s1 s' r hs h
        | item its n h1 h2 h3 =>
          simp only [Option.isSome_some, Bool.true_or, Option.getD_some, if_true,
            Option.some.injEq, Prod.mk.injEq] at h
          rw [← h.1]
          refine ⟨h2, ?_, hs.one, ?_⟩
          · rw [← List.append_assoc]; exact hs.cov.append h3
          · intro h0
            have := congrArg List.length h0
            simp at this
            exact absurd this (by
              rintro ⟨_, hh⟩
              rcases hh with hh | hh
              · omega
              · exact hne hh)
        | endSt its n h1 h2 h3 h4 =>
          simp only [Option.isSome_some, Bool.true_or, Option.getD_some, if_true,
            Option.some.injEq, Prod.mk.injEq] at h
          rw [← h.1]
          refine ⟨h2, ?_, ?_, ?_⟩
          · have : (done ++ [cur ++ its]).flatten ++ [] = (done.flatten ++ cur) ++ its := by simp
            rw [this]
            exact hs.cov.append h3
          · intro h5; rw [h4] at h5; cases h5
          · intro h0
            have := congrArg List.length h0
            simp at this
            exact absurd this (by
              rintro ⟨_, hh⟩
              rcases hh with hh | hh
              · omega
              · exact hne hh)
        | stop w h1 h2 h3 =>
          simp only [Option.isSome_none, Option.any_none, Bool.or_false,
            Option.getD_none, List.append_nil, Option.some.injEq, Prod.mk.injEq] at h
          rw [← h.1]
          refine ⟨by simp, by simp, fun h5 => by simp [hs.one h5], h2, h3,
            done.flatten ++ cur, by simp [h1], hs.cov, hs.zero⟩
        | stopItem w h1 h2 h3 =>
          simp only [Option.isSome_some, Bool.true_or, Option.getD_some, Option.getD_none,
            Option.some.injEq, Prod.mk.injEq] at h
          rw [← h.1]
          refine ⟨by simp, by simp, fun h5 => by simp [hs.one h5], h2, h3,
            done.flatten ++ cur, by simp, hs.cov, hs.zero⟩

theorem parseLoop_good (hc : Ok c) {rec : ParseFn} (hr : RecGood c rec) {fl : Flags} :
    ∀ (n : ℕ) (pre next : Text) (done : List (List Item)) (cur : List Item) (s s' : Cache)
      (r : Parsed), Sofar fl pre done cur →
      parseLoop c rec fl n pre.length next done cur s = some (r, s') →
      Good c fl (pre ++ next) r := by
  intro n
  induction n with
  | zero => intro pre next done cur s s' r _ h; simp [parseLoop] at h
  | succ n ih =>
    intro pre next done cur s s' r hs h
    cases hn : next with
    | nil =>
      subst hn
      simp only [parseLoop, Option.some.injEq, Prod.mk.injEq] at h
      rw [← h.1]
      refine ⟨by simp, by simp, ⟨done.flatten ++ cur, by simp, by simpa using hs.cov, ?_⟩,
        by simp, fun h1 => by simp [hs.one h1]⟩
      intro h0; exact hs.zero (List.length_eq_zero_iff.1 h0)
    | cons a t =>
      have hne : next ≠ [] := by simp [hn]
      rw [← hn]
      unfold parseLoop at h
      rw [hn] at h
      simp only at h
      rw [← hn] at h
      cases ht : tryParsers c rec next fl c.parsers done cur s with
      | none => simp [ht] at h
      | some v =>
        obtain ⟨r1, s1⟩ := v
        have hg := tryParsers_ok hc hr hne c.parsers (fun _ h => h) done cur s s1 r1 hs ht
        rw [ht] at h
        cases r1 with
        | error e =>
          simp only [Option.some.injEq, Prod.mk.injEq] at h
          rw [← h.1]
          cases e with
          | py m => exact Spec.Raised.mono hg (List.suffix_append _ _)
          | parsing m st nx => exact hg
        | ok tn =>
          cases tn with
          | ret st k w =>
            simp only [Option.some.injEq, Prod.mk.injEq] at h
            rw [← h.1]
            obtain ⟨hk, h1, h2, h3, h4, body, h5, h6, h7⟩ := hg
            subst hk
            refine ⟨by simp, h1, ⟨body, h5, by simpa using h6, ?_⟩, ⟨h3, by simpa using h4⟩, h2⟩
            intro h0; exact h7 (List.length_eq_zero_iff.1 h0)
          | go done1 cur1 k =>
            obtain ⟨hk, hs1⟩ := hg
            simp only at h
            by_cases hk0 : k = 0
            · rw [if_pos hk0] at h
              simp only [Option.some.injEq, Prod.mk.injEq] at h
              rw [← h.1]
              subst hk0
              refine ⟨by simp, ⟨pre, ?_, rfl⟩, fun h5 => by simp [hs1.one h5]⟩
              have := hs1.cov
              simpa using this
            · rw [if_neg hk0] at h
              have hl : pre.length + k = (pre ++ next.take k).length := by
                simp [Nat.min_eq_left hk]
              rw [hl] at h
              have := ih (pre ++ next.take k) (next.drop k) done1 cur1 s1 s' r hs1 h
              rwa [List.append_assoc, List.take_append_drop] at this

theorem parse_good (hc : Ok c) : ∀ n, RecGood c (parse c n) := by
  intro n
  induction n with
  | zero => intro fl text s r s' h; simp [parse] at h
  | succ n ih =>
    intro fl text s r s' h
    have h : parseLoop c (parse c n) fl (text.length + 1) ([] : Text).length text [] [] s
      = some (r, s') := h
    have := parseLoop_good hc ih _ [] text [] [] s s' r
      ⟨covers_nil, fun _ => rfl, fun _ => rfl⟩ h
    simpa using this

/-! ### Ending -/

/-- `rec` ends on every text shorter than `n`. -/
def RecEnds (rec : ParseFn) (n : ℕ) : Prop :=
  ∀ fl text s, text.length < n → ∃ r s', rec fl text s = some (r, s')

theorem argLoop_ends {rec : ParseFn} (hr : RecGood c rec) {k : Nest} {next : Text}
    (he : RecEnds rec next.length) :
    ∀ (n i : ℕ) (items : List Item) (s : Cache), 1 ≤ i → i ≤ next.length + 1 →
      next.length + 2 ≤ n + i → ∃ r s', argLoop rec k next n i items s = some (r, s') := by
  intro n
  induction n with
  | zero => intro i items s hi hi2 hn; omega
  | succ n ih =>
    intro i items s hi hi2 hn
    unfold argLoop
    by_cases hlt : i < next.length
    · rw [if_pos hlt]
      obtain ⟨r, s1, hrec⟩ := he { func := true, ignoreTerm := true } (next.drop i) s
        (by simp; omega)
      have hg := hr _ _ _ _ _ hrec
      rw [hrec]
      cases r with
      | error e => cases e <;> exact ⟨_, _, rfl⟩
      | ok v =>
        obtain ⟨st, len, w⟩ := v
        have hle := OkGood.le hg
        simp only [List.length_drop] at hle
        simp only
        split
        · exact ⟨_, _, rfl⟩
        · exact ih _ _ _ (by omega) (by omega) (by omega)
    · rw [if_neg hlt]; exact ⟨_, _, rfl⟩

theorem runFunc_ends {rec : ParseFn} (hr : RecGood c rec) {k : Nest} {next : Text}
    {name : Option Text} (hn : ∀ nm, name = some nm → (nm ++ ['(']) <+: next)
    (he : RecEnds rec next.length) (s : Cache) :
    ∃ r s', runFunc rec k name next s = some (r, s') := by
  cases name with
  | none => exact ⟨_, _, rfl⟩
  | some nm =>
    have := (hn nm rfl).length_le
    simp only [List.length_append, List.length_singleton] at this
    exact argLoop_ends hr he _ _ _ _ (by omega) (by omega) (by omega)

theorem runInner_ends {rec : ParseFn} {next : Text} {fl : Flags}
    (he : RecEnds rec next.length) (s : Cache) :
    ∃ r s', runInner rec next fl s = some (r, s') := by
  unfold runInner
  split
  · rename_i rest
    obtain ⟨r, s1, hrec⟩ := he { fl with inner := true, ignoreTerm := true } rest s (by simp)
    rw [hrec]
    cases r with
    | error e => cases e <;> exact ⟨_, _, rfl⟩
    | ok v => simp only; split <;> exact ⟨_, _, rfl⟩
  · exact ⟨_, _, rfl⟩

theorem runInline_ends {rec : ParseFn} {next : Text} {fl : Flags}
    (he : RecEnds rec next.length) (s : Cache) :
    ∃ r s', runInline rec next fl s = some (r, s') := by
  unfold runInline
  split
  · rename_i rest
    obtain ⟨r, s1, hrec⟩ := he { fl with inline := true } rest s (by simp)
    rw [hrec]
    cases r with
    | error e => cases e <;> exact ⟨_, _, rfl⟩
    | ok v => simp only; split <;> exact ⟨_, _, rfl⟩
  · exact ⟨_, _, rfl⟩

theorem arrParse_ends {rec : ParseFn} {next : Text} (he : RecEnds rec next.length) {i : ℕ}
    (hi : 1 ≤ i) (hne : next ≠ []) (items : List Item) (s : Cache) :
    ∃ r s', arrParse rec next i items s = some (r, s') := by
  unfold arrParse
  have := List.length_pos_iff.2 hne
  obtain ⟨r, s1, hrec⟩ := he { array := true, ignoreTerm := true } (next.drop i) s
    (by simp; omega)
  rw [hrec]
  cases r with
  | error e => cases e <;> exact ⟨_, _, rfl⟩
  | ok v => exact ⟨_, _, rfl⟩

theorem arrStepPart_ends {rec : ParseFn} {next : Text} (he : RecEnds rec next.length) {i : ℕ}
    (hi : 1 ≤ i) (hne : next ≠ []) (items : List Item) (s : Cache) :
    ∃ r s', arrStepPart rec next i items s = some (r, s') := by
  unfold arrStepPart
  obtain ⟨r, s1, h⟩ := arrParse_ends he hi hne items s
  rw [h]
  cases r <;> exact ⟨_, _, rfl⟩

theorem arrRangePart_ends {rec : ParseFn} {next : Text} (he : RecEnds rec next.length) {i : ℕ}
    (hi : 1 ≤ i) (hne : next ≠ []) (items : List Item) (s : Cache) :
    ∃ r s', arrRangePart c rec next i items s = some (r, s') := by
  unfold arrRangePart
  obtain ⟨r, s1, h⟩ := arrParse_ends he hi hne items s
  rw [h]
  cases r with
  | error e => exact ⟨_, _, rfl⟩
  | ok v =>
    simp only
    split
    · split <;> exact ⟨_, _, rfl⟩
    · split
      · exact arrStepPart_ends he (by omega) hne _ _
      · exact ⟨_, _, rfl⟩

theorem arrTurn_ends {rec : ParseFn} {next : Text} (he : RecEnds rec next.length) {i : ℕ}
    (hi : 1 ≤ i) (hne : next ≠ []) (items : List Item) (s : Cache) :
    ∃ r s', arrTurn c rec next i items s = some (r, s') := by
  unfold arrTurn
  obtain ⟨r, s1, h⟩ := arrParse_ends he hi hne items s
  rw [h]
  cases r with
  | error e => exact ⟨_, _, rfl⟩
  | ok v =>
    simp only
    split
    · split <;> exact ⟨_, _, rfl⟩
    · split
      · exact arrRangePart_ends he (by omega) hne _ _
      · exact ⟨_, _, rfl⟩

theorem arrLoop_ends {rec : ParseFn} (hr : RecGood c rec) {next : Text}
    (he : RecEnds rec next.length) :
    ∀ (n i : ℕ) (items : List Item) (s : Cache), 1 ≤ i → i ≤ next.length →
      Covers items (next.take i) →
      next.length + 1 ≤ n + i → ∃ r s', arrLoop c rec next n i items s = some (r, s') := by
  intro n
  induction n with
  | zero => intro i items s hi hi2 _ hn; omega
  | succ n ih =>
    intro i items s hi hi2 hcov hn
    unfold arrLoop
    by_cases hlt : i < next.length
    · rw [if_pos hlt]
      have hne : next ≠ [] := by intro h; simp [h] at hlt
      obtain ⟨r, s1, ht⟩ := arrTurn_ends (c := c) he hi hne items s
      have hg := arrTurn_ok (fl := {}) hr hi2 hcov ht
      rw [ht]
      cases r with
      | error e => exact ⟨_, _, rfl⟩
      | ok v =>
        obtain ⟨i1, items1, w⟩ := v
        obtain ⟨h1, h2, h3, h4⟩ := hg
        simp only
        by_cases hw : w = some .arrEnd
        · rw [if_pos hw]; exact ⟨_, _, rfl⟩
        · rw [if_neg hw]
          by_cases hw2 : w = some .arrParam
          · rw [if_pos hw2]
            subst hw2
            exact ih _ _ _ (by omega) (prefix_le h3 h4)
              ((h1.append (covers_leaf _ _)).cast (take_succ_of_prefix h4)) (by omega)
          · rw [if_neg hw2]
            exact ih _ _ _ (by omega) h3 h1 (by omega)
    · rw [if_neg hlt]; exact ⟨_, _, rfl⟩

theorem runArray_ends (hc : Ok c) {rec : ParseFn} (hr : RecGood c rec) {next : Text}
    (he : RecEnds rec next.length) (s : Cache) :
    ∃ r s', runArray c rec next s = some (r, s') := by
  unfold runArray
  by_cases hs : starts c.arrOpen next = true
  · rw [if_pos hs]
    have hp := starts_iff.1 hs
    have h1 := List.length_pos_iff.2 hc.open_
    refine arrLoop_ends hr he _ _ _ _ h1 hp.length_le ?_ (by omega)
    rw [take_of_prefix hp]; exact covers_leaf _ _
  · rw [if_neg hs]; exact ⟨_, _, rfl⟩

theorem runTerminator_ends (cur : List Item) (next : Text) (fl : Flags) (s : Cache) :
    ∃ r s', runTerminator c cur next fl s = some (r, s') := by
  unfold runTerminator
  dsimp only
  repeat' split
  all_goals exact ⟨_, _, rfl⟩

theorem runParser_ends (hc : Ok c) {rec : ParseFn} (hr : RecGood c rec) {next : Text}
    (he : RecEnds rec next.length) (p : Parser) (cur : List Item) (fl : Flags) (s : Cache) :
    ∃ r s', runParser c rec p cur next fl s = some (r, s') := by
  cases p with
  | leaf f =>
    simp only [runParser]
    cases f cur next with
    | error e => exact ⟨_, _, rfl⟩
    | ok v => cases v <;> exact ⟨_, _, rfl⟩
  | terminator => exact runTerminator_ends cur next fl s
  | pointer => exact runFunc_ends hr (fun nm e => hc.pointer next nm e) he s
  | func => exact runFunc_ends hr (fun nm e => hc.func next nm e) he s
  | inner => exact runInner_ends he s
  | inline => exact runInline_ends he s
  | array => exact runArray_ends hc hr he s
  | _ => exact ⟨_, _, rfl⟩

theorem tryParsers_ends (hc : Ok c) {rec : ParseFn} (hr : RecGood c rec) {next : Text}
    (he : RecEnds rec next.length) (fl : Flags) :
    ∀ (ps : List Parser) (done : List (List Item)) (cur : List Item) (s : Cache),
      ∃ r s', tryParsers c rec next fl ps done cur s = some (r, s') := by
  intro ps
  induction ps with
  | nil => intro done cur s; exact ⟨_, _, rfl⟩
  | cons p ps ih =>
    intro done cur s
    simp only [tryParsers]
    obtain ⟨r, s1, h⟩ := runParser_ends hc hr he p cur fl s
    rw [h]
    cases r with
    | error e => cases e <;> exact ⟨_, _, rfl⟩
    | ok f =>
      simp only
      split
      · exact ⟨_, _, rfl⟩
      · split
        · exact ⟨_, _, rfl⟩
        · exact ih _ _ _
      · split
        · exact ⟨_, _, rfl⟩
        · exact ih _ _ _

theorem parseLoop_ends (hc : Ok c) {rec : ParseFn} (hr : RecGood c rec) {m : ℕ}
    (he : RecEnds rec m) (fl : Flags) :
    ∀ (n pos : ℕ) (next : Text) (done : List (List Item)) (cur : List Item) (s : Cache),
      next.length < n → next.length ≤ m →
      ∃ r s', parseLoop c rec fl n pos next done cur s = some (r, s') := by
  intro n
  induction n with
  | zero => intro pos next done cur s h; omega
  | succ n ih =>
    intro pos next done cur s h hm
    unfold parseLoop
    cases hn : next with
    | nil => exact ⟨_, _, rfl⟩
    | cons a t =>
      simp only
      rw [← hn]
      obtain ⟨r, s1, ht⟩ := tryParsers_ends hc hr
        (fun fl text s hl => he fl text s (by omega)) fl c.parsers done cur s (next := next)
      rw [ht]
      have hlen : next.length = t.length + 1 := by simp [hn]
      cases r with
      | error e => exact ⟨_, _, rfl⟩
      | ok tn =>
        cases tn with
        | ret st k w => exact ⟨_, _, rfl⟩
        | go done cur k =>
          simp only
          by_cases hk : k = 0
          · rw [if_pos hk]; exact ⟨_, _, rfl⟩
          · rw [if_neg hk]
            exact ih _ _ _ _ _ (by simp; omega) (by simp; omega)

/-- A bound on the nesting one larger than the length of the text is enough. -/
theorem parse_ends (hc : Ok c) : ∀ n, RecEnds (parse c n) n := by
  intro n
  induction n with
  | zero => intro fl text s h; omega
  | succ n ih =>
    intro fl text s h
    exact parseLoop_ends hc (parse_good hc n) ih fl _ _ _ _ _ _ (by omega) (by omega)

end MC.Parse
