import Verif.Spec.Parse

/-!
# Parsing keeps the text
-/

namespace MC.Parse

open Spec

set_option linter.unusedSectionVars false

theorem itemsText_append (a b : List Item) : itemsText (a ++ b) = itemsText a ++ itemsText b := by
  simp [itemsText]

@[simp] theorem itemsText_nil : itemsText [] = [] := rfl

@[simp] theorem itemsText_cons (a : Item) (b : List Item) :
    itemsText (a :: b) = a.text ++ itemsText b := by simp [itemsText]

@[simp] theorem text_leaf (k : Kind) (t : Text) : (Item.leaf k t).text = t := rfl
@[simp] theorem text_nest (k : Nest) (t : Text) (l : List Item) : (Item.nest k t l).text = t := rfl

theorem covers_nil : Covers [] [] := ⟨rfl, by simp⟩

theorem Spec.Covers.append {a b : List Item} {s t : Text} (ha : Covers a s) (hb : Covers b t) :
    Covers (a ++ b) (s ++ t) := by
  refine ⟨by rw [itemsText_append, ha.1, hb.1], ?_⟩
  intro it h
  rcases List.mem_append.1 h with h | h
  · exact ha.2 it h
  · exact hb.2 it h

theorem covers_leaf (k : Kind) (t : Text) : Covers [.leaf k t] t :=
  ⟨by simp, by simp; exact .leaf k t⟩

theorem Spec.Covers.nest {items : List Item} {t : Text} (h : Covers items t) (k : Nest) :
    Covers [.nest k t items] t :=
  ⟨by simp, by simp; exact .nest k t items h.2 h.1⟩

theorem Spec.Covers.cast {items : List Item} {s t : Text} (h : Covers items s) (e : s = t) :
    Covers items t := e ▸ h

/-! ### Finding texts -/

theorem findAt_prefix {sub t : Text} (h : sub <+: t) : findAt sub t = some 0 := by
  cases t with
  | nil => simp [findAt]; exact List.prefix_nil.1 h
  | cons a t => simp [findAt, List.isPrefixOf_iff_prefix, h]

theorem pyFind_here {text sub : Text} {i : ℕ} (hi : i ≤ text.length) (h : sub <+: text.drop i) :
    pyFind text sub i = some i := by
  simp [pyFind, Nat.not_lt.2 hi, findAt_prefix h]

theorem findItems_covers : ∀ (items : List Item) (pre post : Text),
    findItems (pre ++ itemsText items ++ post) items pre.length
      = some (pre ++ itemsText items).length := by
  intro items
  induction items with
  | nil => intro pre post; simp [findItems]
  | cons it its ih =>
    intro pre post
    have h : pyFind (pre ++ itemsText (it :: its) ++ post) it.text pre.length
        = some pre.length := by
      apply pyFind_here
      · simp
      · simp [List.append_assoc]
    simp only [findItems, h]
    have := ih (pre ++ it.text) post
    simp only [itemsText_cons, List.append_assoc, List.length_append] at this ⊢
    exact this

theorem findPos_covers {items : List Item} {t nx text : Text} (h : itemsText items = t)
    (e : t ++ nx = text) : findPos text items (some nx) = some t.length := by
  have := findItems_covers items [] nx
  simp only [List.nil_append, h, e, List.length_nil] at this
  simp only [findPos, this]
  apply pyFind_here
  · simp [← e]
  · simp [← e]

theorem findPos_covers_none {items : List Item} {t nx text : Text} (h : itemsText items = t)
    (e : t ++ nx = text) : findPos text items none = some t.length := by
  have := findItems_covers items [] nx
  simp only [List.nil_append, h, e, List.length_nil] at this
  simp only [findPos, this]

theorem truncate_covers {items : List Item} {t nx text : Text} (h : itemsText items = t)
    (e : t ++ nx = text) : truncate text items (some nx) = some t := by
  rw [truncate, findPos_covers h e]; simp [← e]

/-! ### What the steps of the parser promise -/

variable (c : Cfg)

/-- The text at which `parse` stops for this reason. -/
def stopText : Stop → Text
  | .funcParam => [',']
  | .funcEnd => [')']
  | .innerEnd => [')']
  | .inlineEnd => ['}']
  | .arrRange => c.arrRange
  | .arrStep => c.arrStep
  | .arrParam => c.arrParam
  | .arrEnd => c.arrClose

/-- The items added when stopping. -/
def endItems : Stop → List Item
  | .innerEnd => [.leaf .innerEnd [')']]
  | .inlineEnd => [.leaf .inlineEnd ['}']]
  | _ => []

/-- The flags under which `parse` may stop for this reason. -/
def Allowed (fl : Flags) : Stop → Prop
  | .funcParam => fl.func = true
  | .funcEnd => fl.func = true ∧ fl.inner = false
  | .innerEnd => fl.inner = true
  | .inlineEnd => fl.inline = true
  | _ => fl.array = true

/-- A good return of a parser on the text `next`. -/
inductive FoundOk (fl : Flags) (next : Text) : Found → Prop
  | nothing : FoundOk fl next nothing
  | item (its : List Item) (n : ℕ) : 1 ≤ n → n ≤ next.length → Covers its (next.take n) →
      FoundOk fl next ⟨some its, some n, .none⟩
  | endSt (its : List Item) (n : ℕ) : 1 ≤ n → n ≤ next.length → Covers its (next.take n) →
      fl.ignoreTerm = false → FoundOk fl next ⟨some its, some n, .endStatement⟩
  | stop (w : Stop) : endItems w = [] → Allowed fl w → stopText c w <+: next →
      FoundOk fl next ⟨none, none, .stop w⟩
  | stopItem (w : Stop) : endItems w ≠ [] → Allowed fl w → stopText c w <+: next →
      FoundOk fl next ⟨some (endItems w), none, .stop w⟩

/-- A good outcome of a parser. -/
def ResOk (fl : Flags) (next : Text) : Except PErr Found → Prop
  | .ok f => FoundOk c fl next f
  | .error (.parse _ its nx) => ∃ pre, Covers its pre ∧ pre ++ nx = next
  | .error (.py m) => Raised c m next

/-- The items of the statements that `parse` returns cover the text it has read. -/
structure OkGood (fl : Flags) (text : Text) (st : List (List Item)) (n : ℕ) (w : Option Stop) :
    Prop where
  le : n ≤ text.length
  ne : st ≠ []
  items : ∃ body, st.flatten = body ++ (w.elim [] endItems) ∧ Covers body (text.take n) ∧
    (n = 0 → body = [])
  rest : match w with
    | none => n = text.length
    | some w => Allowed fl w ∧ stopText c w <+: text.drop n
  one : fl.ignoreTerm = true → st.length = 1

/-- The items of the statements in the error, and its rest, make up the text. -/
structure ErrGood (fl : Flags) (text : Text) (st : List (List Item)) (nx : Text) : Prop where
  ne : st ≠ []
  items : ∃ pre, Covers st.flatten pre ∧ pre ++ nx = text
  one : fl.ignoreTerm = true → st.length = 1

/-- A good outcome of `parse`. -/
def Good (fl : Flags) (text : Text) : Parsed → Prop
  | .ok (st, n, w) => OkGood c fl text st n w
  | .error (.parsing _ st nx) => ErrGood fl text st nx
  | .error (.py m) => Raised c m text

def RecGood (rec : ParseFn) : Prop :=
  ∀ fl text s r s', rec fl text s = some (r, s') → Good c fl text r

variable {c}

theorem Spec.Raised.mono {m : String} {t text : Text} (h : Raised c m t) (hs : t <:+ text) :
    Raised c m text := by
  obtain ⟨f, hf, items, rest, h1, h2, h3⟩ := h
  exact ⟨f, hf, items, rest, h1.trans hs, h2, h3⟩

theorem headD_of_one {st : List (List Item)} (h : st.length = 1) : st.headD [] = st.flatten := by
  match st, h with
  | [a], _ => simp

theorem ResOk.nothing {fl : Flags} {next : Text} : ResOk c fl next (.ok nothing) :=
  FoundOk.nothing

theorem resOk_reraise {fl : Flags} {next nx pre : Text} {items : List Item} (k : Nest)
    (msg : String) (h : Covers items pre) (e : pre ++ nx = next) :
    ResOk c fl next (reraise k next msg items nx) := by
  simp only [reraise, truncate_covers h.1 e]
  exact ⟨pre, h.nest k, e⟩

theorem resOk_plain {fl : Flags} {next : Text} (msg : String) :
    ResOk c fl next (.error (.parse msg [] next)) := ⟨[], covers_nil, rfl⟩

theorem starts_iff {sym next : Text} : starts sym next = true ↔ sym <+: next :=
  List.isPrefixOf_iff_prefix

theorem take_of_prefix {sym next : Text} (h : sym <+: next) : next.take sym.length = sym := by
  obtain ⟨t, rfl⟩ := h; simp

theorem resOk_stopIf {fl : Flags} {next : Text} {b : Bool} {w : Stop}
    (hb : b = true → endItems w = [] ∧ Allowed fl w ∧ stopText c w <+: next) :
    ResOk c fl next (.ok (stopIf b w)) := by
  cases b with
  | false => exact FoundOk.nothing
  | true =>
    obtain ⟨h1, h2, h3⟩ := hb rfl
    exact FoundOk.stop w h1 h2 h3

theorem resOk_terminator (hc : Ok c) {cur : List Item} {fl : Flags} {next : Text} {s s' : Cache}
    {r : Except PErr Found} (h : runTerminator c cur next fl s = some (r, s')) :
    ResOk c fl next r := by
  unfold runTerminator at h
  by_cases h1 : fl.ignoreTerm = true
  · simp only [h1, if_true, Option.some.injEq, Prod.mk.injEq] at h
    rw [← h.1]; exact ResOk.nothing
  · rw [if_neg h1] at h
    by_cases h2 : starts c.termSym next = true
    · rw [if_pos h2] at h
      simp only at h
      split at h
      · simp only [Option.some.injEq, Prod.mk.injEq] at h
        rw [← h.1]; exact ResOk.nothing
      · split at h
        · simp only [Option.some.injEq, Prod.mk.injEq] at h
          rw [← h.1]; exact ResOk.nothing
        · simp only [Option.some.injEq, Prod.mk.injEq] at h
          rw [← h.1]
          have hp := starts_iff.1 h2
          refine FoundOk.endSt _ _ ?_ hp.length_le ?_ (by simpa using h1)
          · exact List.length_pos_iff.2 hc.term
          · rw [take_of_prefix hp]; exact covers_leaf _ _
    · rw [if_neg h2] at h
      simp only [Option.some.injEq, Prod.mk.injEq] at h
      rw [← h.1]; exact ResOk.nothing

/-- What `parse` says on the rest of the text with one statement. -/
theorem OkGood.one_body {fl : Flags} {text : Text} {st : List (List Item)} {n : ℕ}
    {w : Option Stop} (h : OkGood c fl text st n w) (h1 : fl.ignoreTerm = true)
    (hw : w.elim [] endItems = []) : Covers (st.headD []) (text.take n) ∧
      (st.headD [] ≠ [] → 1 ≤ n) := by
  obtain ⟨body, e, hb, h0⟩ := h.items
  rw [headD_of_one (h.one h1), e, hw, List.append_nil]
  refine ⟨hb, fun hne => ?_⟩
  rcases Nat.eq_zero_or_pos n with hn | hn
  · exact absurd (h0 hn) hne
  · exact hn

theorem take_drop_take (next : Text) (i n : ℕ) :
    next.take i ++ (next.drop i).take n = next.take (i + n) := by
  rw [List.take_add]

theorem take_succ_of_prefix {next sym : Text} {i : ℕ} (h : sym <+: next.drop i) :
    next.take i ++ sym = next.take (i + sym.length) := by
  rw [List.take_add]; congr 1; exact (take_of_prefix h).symm

theorem resOk_argLoop {rec : ParseFn} (hr : RecGood c rec) {fl : Flags} {k : Nest} {next : Text} :
    ∀ (n i : ℕ) (items : List Item) (s : Cache) (r : Except PErr Found) (s' : Cache),
      1 ≤ i → (i ≤ next.length → Covers items (next.take i)) →
      argLoop rec k next n i items s = some (r, s') → ResOk c fl next r := by
  intro n
  induction n with
  | zero => intro i items s r s' _ _ h; simp [argLoop] at h
  | succ n ih =>
    intro i items s r s' hi hinv h
    unfold argLoop at h
    by_cases hlt : i < next.length
    · rw [if_pos hlt] at h
      have hcov := hinv (Nat.le_of_lt hlt)
      cases hrec : rec { func := true, ignoreTerm := true } (next.drop i) s with
      | none => simp [hrec] at h
      | some v =>
        obtain ⟨r1, s1⟩ := v
        have hg := hr _ _ _ _ _ hrec
        rw [hrec] at h
        cases r1 with
        | error e =>
          cases e with
          | py m =>
            simp only [Option.some.injEq, Prod.mk.injEq] at h
            rw [← h.1]; exact Spec.Raised.mono hg (List.drop_suffix _ _)
          | parsing m st nx =>
            simp only [Option.some.injEq, Prod.mk.injEq] at h
            rw [← h.1]
            obtain ⟨pre, hp, he⟩ := ErrGood.items hg
            rw [headD_of_one (ErrGood.one hg rfl)]
            apply resOk_reraise _ _ (hcov.append hp)
            rw [List.append_assoc, he, List.take_append_drop]
        | ok v =>
          obtain ⟨st, len, w⟩ := v
          have hg : OkGood c _ _ st len w := hg
          have hw : w = none ∨ w = some .funcParam ∨ w = some .funcEnd := by
            cases w with
            | none => exact Or.inl rfl
            | some w =>
              have := hg.rest.1
              cases w <;> simp [Allowed] at this ⊢
          have hwe : w.elim [] endItems = [] := by
            rcases hw with rfl | rfl | rfl <;> rfl
          have hb := hg.one_body rfl hwe
          have hcov' : Covers (items ++ st.headD []) (next.take (i + len)) :=
            (hcov.append hb.1).cast (take_drop_take _ _ _)
          simp only at h
          by_cases hwf : w = some .funcEnd
          · rw [if_pos hwf] at h
            simp only [Option.some.injEq, Prod.mk.injEq] at h
            rw [← h.1]
            subst hwf
            have hp := hg.rest.2
            rw [List.drop_drop] at hp
            have hp : ([')'] : Text) <+: next.drop (i + len) := hp
            have hle : i + len + 1 ≤ next.length := by
              have := hp.length_le
              simp only [List.length_drop, List.length_singleton] at this; omega
            refine FoundOk.item _ _ (by omega) hle ?_
            exact Covers.nest ((hcov'.append (covers_leaf _ _)).cast
              (take_succ_of_prefix hp)) k
          · rw [if_neg hwf] at h
            refine ih _ _ _ _ _ (by omega) ?_ h
            intro hle
            have hw2 : w = some .funcParam := by
              rcases hw with rfl | rfl | rfl
              · have := hg.rest
                simp only [List.length_drop] at this
                omega
              · rfl
              · exact absurd rfl hwf
            subst hw2
            have hp := hg.rest.2
            rw [List.drop_drop] at hp
            have hp : ([','] : Text) <+: next.drop (i + len) := hp
            exact (hcov'.append (covers_leaf _ _)).cast (take_succ_of_prefix hp)
    · rw [if_neg hlt] at h
      simp only [Option.some.injEq, Prod.mk.injEq] at h
      rw [← h.1]; exact resOk_plain _

theorem resOk_func {rec : ParseFn} (hr : RecGood c rec) {fl : Flags} {k : Nest}
    {name : Option Text} {next : Text}
    (hn : ∀ nm, name = some nm → (nm ++ ['(']) <+: next) {s s' : Cache}
    {r : Except PErr Found} (h : runFunc rec k name next s = some (r, s')) :
    ResOk c fl next r := by
  cases name with
  | none =>
    simp only [runFunc, Option.some.injEq, Prod.mk.injEq] at h
    rw [← h.1]; exact ResOk.nothing
  | some nm =>
    simp only [runFunc] at h
    refine resOk_argLoop hr _ _ _ _ _ _ (by omega) ?_ h
    intro hle
    have hp := take_of_prefix (hn nm rfl)
    simp only [List.length_append, List.length_singleton] at hp
    rw [hp]
    exact Covers.append (covers_leaf .funcName nm) (covers_leaf .funcStart ['('])

theorem resOk_inner {rec : ParseFn} (hr : RecGood c rec) {fl : Flags} {next : Text}
    {s s' : Cache} {r : Except PErr Found} (h : runInner rec next fl s = some (r, s')) :
    ResOk c fl next r := by
  unfold runInner at h
  split at h
  · rename_i rest
    cases hrec : rec { fl with inner := true, ignoreTerm := true } rest s with
    | none => simp [hrec] at h
    | some v =>
      obtain ⟨r1, s1⟩ := v
      have hg := hr _ _ _ _ _ hrec
      rw [hrec] at h
      cases r1 with
      | error e =>
        cases e with
        | py m =>
          simp only [Option.some.injEq, Prod.mk.injEq] at h
          rw [← h.1]; exact Spec.Raised.mono hg (List.suffix_cons _ _)
        | parsing m st nx =>
          simp only [Option.some.injEq, Prod.mk.injEq] at h
          rw [← h.1]
          obtain ⟨pre, hp, he⟩ := ErrGood.items hg
          rw [headD_of_one (ErrGood.one hg rfl)]
          exact resOk_reraise _ _ ((covers_leaf .innerStart ['(']).append hp) (by simp [← he])
      | ok v =>
        obtain ⟨st, len, w⟩ := v
        have hg : OkGood c _ _ st len w := hg
        simp only at h
        by_cases hw : w = some .innerEnd
        · rw [if_pos hw] at h
          simp only [Option.some.injEq, Prod.mk.injEq] at h
          rw [← h.1]
          subst hw
          obtain ⟨body, e, hb, h0⟩ := hg.items
          rw [headD_of_one (hg.one rfl), e]
          have hp : ([')'] : Text) <+: rest.drop len := hg.rest.2
          have hle : len + 1 ≤ rest.length := by
            have := hp.length_le
            simp only [List.length_drop, List.length_singleton] at this; omega
          refine FoundOk.item _ _ (by omega) (by simp; omega) ?_
          refine Covers.nest ?_ .inner
          refine ((covers_leaf .innerStart ['(']).append
            (hb.append (covers_leaf .innerEnd [')']))).cast ?_
          have := take_succ_of_prefix hp
          simp only [List.length_singleton] at this
          simp [this]
        · rw [if_neg hw] at h
          simp only [Option.some.injEq, Prod.mk.injEq] at h
          rw [← h.1]; exact resOk_plain _
  · simp only [Option.some.injEq, Prod.mk.injEq] at h
    rw [← h.1]; exact ResOk.nothing

theorem resOk_inline {rec : ParseFn} (hr : RecGood c rec) {fl : Flags} {next : Text}
    {s s' : Cache} {r : Except PErr Found} (h : runInline rec next fl s = some (r, s')) :
    ResOk c fl next r := by
  unfold runInline at h
  split at h
  · rename_i rest
    cases hrec : rec { fl with inline := true } rest s with
    | none => simp [hrec] at h
    | some v =>
      obtain ⟨r1, s1⟩ := v
      have hg := hr _ _ _ _ _ hrec
      rw [hrec] at h
      cases r1 with
      | error e =>
        cases e with
        | py m =>
          simp only [Option.some.injEq, Prod.mk.injEq] at h
          rw [← h.1]; exact Spec.Raised.mono hg (List.suffix_cons _ _)
        | parsing m st nx =>
          simp only [Option.some.injEq, Prod.mk.injEq] at h
          rw [← h.1]
          obtain ⟨pre, hp, he⟩ := ErrGood.items hg
          exact resOk_reraise _ _ ((covers_leaf .inlineStart ['{']).append hp) (by simp [← he])
      | ok v =>
        obtain ⟨st, len, w⟩ := v
        have hg : OkGood c _ _ st len w := hg
        simp only at h
        by_cases hw : w = some .inlineEnd
        · rw [if_pos hw] at h
          simp only [Option.some.injEq, Prod.mk.injEq] at h
          rw [← h.1]
          subst hw
          obtain ⟨body, e, hb, h0⟩ := hg.items
          rw [e]
          have hp : (['}'] : Text) <+: rest.drop len := hg.rest.2
          have hle : len + 1 ≤ rest.length := by
            have := hp.length_le
            simp only [List.length_drop, List.length_singleton] at this; omega
          refine FoundOk.item _ _ (by omega) (by simp; omega) ?_
          refine Covers.nest ?_ .inline
          refine ((covers_leaf .inlineStart ['{']).append
            (hb.append (covers_leaf .inlineEnd ['}']))).cast ?_
          have := take_succ_of_prefix hp
          simp only [List.length_singleton] at this
          simp [this]
        · rw [if_neg hw] at h
          simp only [Option.some.injEq, Prod.mk.injEq] at h
          rw [← h.1]; exact resOk_plain _
  · simp only [Option.some.injEq, Prod.mk.injEq] at h
    rw [← h.1]; exact ResOk.nothing

/-! ### Arrays -/

/-- A good outcome of a call of `parse` inside an array. -/
def ArrParseOk (c : Cfg) (fl : Flags) (next : Text) (i : ℕ) (items : List Item) :
    Except (Except PErr Found) (List Item × ℕ × Option Stop) → Prop
  | .error e => ResOk c fl next e
  | .ok (its, len, w) =>
    Covers (items ++ its) (next.take (i + len)) ∧ i + len ≤ next.length ∧
    (its ≠ [] → 1 ≤ len) ∧
    (match w with
      | none => i + len = next.length
      | some w => stopText c w <+: next.drop (i + len))

theorem arrParse_ok {rec : ParseFn} (hr : RecGood c rec) {fl : Flags} {next : Text} {i : ℕ}
    {items : List Item} {s s' : Cache} {r} (hi : i ≤ next.length)
    (hcov : Covers items (next.take i)) (h : arrParse rec next i items s = some (r, s')) :
    ArrParseOk c fl next i items r := by
  unfold arrParse at h
  cases hrec : rec { array := true, ignoreTerm := true } (next.drop i) s with
  | none => simp [hrec] at h
  | some v =>
    obtain ⟨r1, s1⟩ := v
    have hg := hr _ _ _ _ _ hrec
    rw [hrec] at h
    cases r1 with
    | error e =>
      cases e with
      | py m =>
        simp only [Option.some.injEq, Prod.mk.injEq] at h
        rw [← h.1]; exact Spec.Raised.mono hg (List.drop_suffix _ _)
      | parsing m st nx =>
        simp only [Option.some.injEq, Prod.mk.injEq] at h
        rw [← h.1]
        obtain ⟨pre, hp, he⟩ := ErrGood.items hg
        rw [headD_of_one (ErrGood.one hg rfl)]
        exact resOk_reraise _ _ (hcov.append hp)
          (by rw [List.append_assoc, he, List.take_append_drop])
    | ok v =>
      obtain ⟨st, len, w⟩ := v
      have hg : OkGood c _ _ st len w := hg
      simp only [Option.some.injEq, Prod.mk.injEq] at h
      rw [← h.1]
      have hwe : w.elim [] endItems = [] := by
        cases w with
        | none => rfl
        | some w =>
          have := hg.rest.1
          cases w <;> simp [Allowed] at this ⊢ <;> rfl
      have hb := hg.one_body rfl hwe
      have hle := hg.le
      simp only [List.length_drop] at hle
      refine ⟨(hcov.append hb.1).cast (take_drop_take _ _ _), by omega, hb.2, ?_⟩
      have hrest := hg.rest
      cases w with
      | none => simp only [List.length_drop] at hrest; simp only; omega
      | some w =>
        have := hrest.2
        rw [List.drop_drop] at this
        exact this

/-- A good outcome of a turn of the loop. -/
def ArrTurnOk (c : Cfg) (fl : Flags) (next : Text) (i0 : ℕ) : ArrTurn → Prop
  | .error e => ResOk c fl next e
  | .ok (i, items, w) =>
    Covers items (next.take i) ∧ i0 < i ∧ i ≤ next.length ∧
    (match w with
      | none => i = next.length
      | some w => stopText c w <+: next.drop i)

theorem arrError_ok {fl : Flags} {next : Text} {i i0 : ℕ} {items : List Item}
    (hcov : Covers items (next.take i)) : ArrTurnOk c fl next i0 (arrError next i items) :=
  resOk_reraise _ _ hcov (List.take_append_drop _ _)

theorem prefix_le {next sym : Text} {i : ℕ} (hi : i ≤ next.length) (h : sym <+: next.drop i) :
    i + sym.length ≤ next.length := by
  have := h.length_le
  simp only [List.length_drop] at this; omega

theorem arrStepPart_ok {rec : ParseFn} (hr : RecGood c rec) {fl : Flags} {next : Text} {i i0 : ℕ}
    {items : List Item} {s s' : Cache} {r} (hi : i ≤ next.length) (h0 : i0 < i)
    (hcov : Covers items (next.take i)) (h : arrStepPart rec next i items s = some (r, s')) :
    ArrTurnOk c fl next i0 r := by
  unfold arrStepPart at h
  cases hp : arrParse rec next i items s with
  | none => simp [hp] at h
  | some v =>
    obtain ⟨r1, s1⟩ := v
    have hg := arrParse_ok (fl := fl) hr hi hcov hp
    rw [hp] at h
    cases r1 with
    | error e =>
      simp only [Option.some.injEq, Prod.mk.injEq] at h
      rw [← h.1]; exact hg
    | ok v =>
      obtain ⟨its, len, w⟩ := v
      simp only [Option.some.injEq, Prod.mk.injEq] at h
      rw [← h.1]
      obtain ⟨h1, h2, h3, h4⟩ := hg
      by_cases hits : its = []
      · -- no item: `parse` has read nothing
        subst hits
        rw [if_pos rfl]
        have hlen : (next.take (i + len)) = next.take i := by
          rw [← h1.1, ← hcov.1]; simp
        have : len = 0 := by
          have := congrArg List.length hlen
          simp only [List.length_take] at this
          omega
        subst this
        exact ⟨h1, h0, hi, h4⟩
      · rw [if_neg hits]
        exact ⟨h1, by omega, h2, h4⟩

theorem arrRangePart_ok {rec : ParseFn} (hr : RecGood c rec) {fl : Flags} {next : Text} {i i0 : ℕ}
    {items : List Item} {s s' : Cache} {r} (hi : i ≤ next.length) (h0 : i0 < i)
    (hcov : Covers items (next.take i)) (h : arrRangePart c rec next i items s = some (r, s')) :
    ArrTurnOk c fl next i0 r := by
  unfold arrRangePart at h
  cases hp : arrParse rec next i items s with
  | none => simp [hp] at h
  | some v =>
    obtain ⟨r1, s1⟩ := v
    have hg := arrParse_ok (fl := fl) hr hi hcov hp
    rw [hp] at h
    cases r1 with
    | error e =>
      simp only [Option.some.injEq, Prod.mk.injEq] at h
      rw [← h.1]; exact hg
    | ok v =>
      obtain ⟨its, len, w⟩ := v
      obtain ⟨h1, h2, h3, h4⟩ := hg
      simp only at h
      by_cases hits : its = []
      · rw [if_pos hits] at h
        by_cases hl : len = 0
        · rw [if_pos hl] at h
          simp only [Option.some.injEq, Prod.mk.injEq] at h
          rw [← h.1]; exact arrError_ok h1
        · rw [if_neg hl] at h
          simp only [Option.some.injEq, Prod.mk.injEq] at h
          rw [← h.1]; exact ⟨h1, by omega, h2, h4⟩
      · rw [if_neg hits] at h
        by_cases hw : w = some .arrStep
        · rw [if_pos hw] at h
          subst hw
          refine arrStepPart_ok hr (prefix_le h2 h4) (by omega) ?_ h
          exact (h1.append (covers_leaf _ _)).cast (take_succ_of_prefix h4)
        · rw [if_neg hw] at h
          simp only [Option.some.injEq, Prod.mk.injEq] at h
          rw [← h.1]; exact ⟨h1, by omega, h2, h4⟩

theorem arrTurn_ok {rec : ParseFn} (hr : RecGood c rec) {fl : Flags} {next : Text} {i : ℕ}
    {items : List Item} {s s' : Cache} {r} (hi : i ≤ next.length)
    (hcov : Covers items (next.take i)) (h : arrTurn c rec next i items s = some (r, s')) :
    ArrTurnOk c fl next i r := by
  unfold arrTurn at h
  cases hp : arrParse rec next i items s with
  | none => simp [hp] at h
  | some v =>
    obtain ⟨r1, s1⟩ := v
    have hg := arrParse_ok (fl := fl) hr hi hcov hp
    rw [hp] at h
    cases r1 with
    | error e =>
      simp only [Option.some.injEq, Prod.mk.injEq] at h
      rw [← h.1]; exact hg
    | ok v =>
      obtain ⟨its, len, w⟩ := v
      obtain ⟨h1, h2, h3, h4⟩ := hg
      simp only at h
      by_cases hits : its = []
      · rw [if_pos hits] at h
        by_cases hl : len = 0
        · rw [if_pos hl] at h
          simp only [Option.some.injEq, Prod.mk.injEq] at h
          rw [← h.1]; exact arrError_ok h1
        · rw [if_neg hl] at h
          simp only [Option.some.injEq, Prod.mk.injEq] at h
          rw [← h.1]; exact ⟨h1, by omega, h2, h4⟩
      · rw [if_neg hits] at h
        have := h3 hits
        by_cases hw : w = some .arrRange
        · rw [if_pos hw] at h
          subst hw
          refine arrRangePart_ok hr (prefix_le h2 h4) (by omega) ?_ h
          exact (h1.append (covers_leaf _ _)).cast (take_succ_of_prefix h4)
        · rw [if_neg hw] at h
          simp only [Option.some.injEq, Prod.mk.injEq] at h
          rw [← h.1]; exact ⟨h1, by omega, h2, h4⟩

theorem resOk_arrLoop {rec : ParseFn} (hr : RecGood c rec) {fl : Flags} {next : Text} :
    ∀ (n i : ℕ) (items : List Item) (s : Cache) (r : Except PErr Found) (s' : Cache),
      1 ≤ i → i ≤ next.length → Covers items (next.take i) →
      arrLoop c rec next n i items s = some (r, s') → ResOk c fl next r := by
  intro n
  induction n with
  | zero => intro i items s r s' _ _ _ h; simp [arrLoop] at h
  | succ n ih =>
    intro i items s r s' hi hle hcov h
    unfold arrLoop at h
    by_cases hlt : i < next.length
    · rw [if_pos hlt] at h
      cases ht : arrTurn c rec next i items s with
      | none => simp [ht] at h
      | some v =>
        obtain ⟨r1, s1⟩ := v
        have hg := arrTurn_ok (fl := fl) hr hle hcov ht
        rw [ht] at h
        cases r1 with
        | error e =>
          simp only [Option.some.injEq, Prod.mk.injEq] at h
          rw [← h.1]; exact hg
        | ok v =>
          obtain ⟨i1, items1, w⟩ := v
          obtain ⟨h1, h2, h3, h4⟩ := hg
          simp only at h
          by_cases hw : w = some .arrEnd
          · rw [if_pos hw] at h
            simp only [Option.some.injEq, Prod.mk.injEq] at h
            rw [← h.1]
            subst hw
            refine FoundOk.item _ _ (by omega) (prefix_le h3 h4) ?_
            exact Covers.nest ((h1.append (covers_leaf _ _)).cast (take_succ_of_prefix h4)) _
          · rw [if_neg hw] at h
            by_cases hw2 : w = some .arrParam
            · rw [if_pos hw2] at h
              subst hw2
              exact ih _ _ _ _ _ (by omega) (prefix_le h3 h4)
                ((h1.append (covers_leaf _ _)).cast (take_succ_of_prefix h4)) h
            · rw [if_neg hw2] at h
              exact ih _ _ _ _ _ (by omega) h3 h1 h
    · rw [if_neg hlt] at h
      simp only [Option.some.injEq, Prod.mk.injEq] at h
      rw [← h.1]; exact resOk_plain _

theorem resOk_array (hc : Ok c) {rec : ParseFn} (hr : RecGood c rec) {fl : Flags} {next : Text}
    {s s' : Cache} {r : Except PErr Found} (h : runArray c rec next s = some (r, s')) :
    ResOk c fl next r := by
  unfold runArray at h
  by_cases hs : starts c.arrOpen next = true
  · rw [if_pos hs] at h
    have hp := starts_iff.1 hs
    refine resOk_arrLoop hr _ _ _ _ _ _ (List.length_pos_iff.2 hc.open_) hp.length_le ?_ h
    rw [take_of_prefix hp]; exact covers_leaf _ _
  · rw [if_neg hs] at h
    simp only [Option.some.injEq, Prod.mk.injEq] at h
    rw [← h.1]; exact ResOk.nothing

theorem resOk_runEnd {fl : Flags} {next : Text} {sym : Char} {inside : Bool} {k : Kind} {w : Stop}
    {msg : String} (he : endItems w = [.leaf k [sym]]) (ha : inside = true → Allowed fl w)
    (ht : stopText c w = [sym]) : ResOk c fl next (runEnd sym inside k w msg next) := by
  unfold runEnd
  by_cases hs : starts [sym] next = true
  · rw [if_pos hs]
    by_cases hi : inside = true
    · rw [if_pos hi, ← he]
      exact FoundOk.stopItem w (by simp [he]) (ha hi) (by rw [ht]; exact starts_iff.1 hs)
    · rw [if_neg hi]; exact resOk_plain _
  · rw [if_neg hs]; exact ResOk.nothing

theorem resOk_runParser (hc : Ok c) {rec : ParseFn} (hr : RecGood c rec) {p : Parser}
    (hp : p ∈ c.parsers) {cur : List Item} {fl : Flags} {next : Text} (hne : next ≠ [])
    {s s' : Cache} {r : Except PErr Found} (h : runParser c rec p cur next fl s = some (r, s')) :
    ResOk c fl next r := by
  have simple : ∀ x, some (x, s) = some (r, s') → ResOk c fl next x → ResOk c fl next r := by
    intro x h hx
    simp only [Option.some.injEq, Prod.mk.injEq] at h
    rw [← h.1]; exact hx
  cases p with
  | leaf f =>
    have hf := hc.leaf f hp cur next hne
    simp only [runParser] at h
    cases hv : f cur next with
    | error e =>
      rw [hv] at h hf
      refine simple _ h ?_
      cases e with
      | py m => exact ⟨f, hp, cur, next, List.suffix_refl _, hne, hv⟩
      | parse m its nx => exact hf
    | ok v =>
      rw [hv] at h hf
      cases v with
      | none => exact simple _ h ResOk.nothing
      | some v =>
        obtain ⟨it, n⟩ := v
        exact simple _ h (FoundOk.item _ _ hf.1 hf.2.1 hf.2.2)
  | terminator => exact resOk_terminator hc h
  | pointer => exact resOk_func hr (fun nm e => hc.pointer next nm e) h
  | func => exact resOk_func hr (fun nm e => hc.func next nm e) h
  | funcParam =>
    refine simple _ h (resOk_stopIf ?_)
    simp only [Bool.and_eq_true]
    exact fun ⟨h1, h2⟩ => ⟨rfl, h2, starts_iff.1 h1⟩
  | funcEnd =>
    refine simple _ h (resOk_stopIf ?_)
    simp only [Bool.and_eq_true, Bool.not_eq_true']
    exact fun ⟨⟨h1, h2⟩, h3⟩ => ⟨rfl, ⟨h2, h3⟩, starts_iff.1 h1⟩
  | inner => exact resOk_inner hr h
  | innerEnd => exact simple _ h (resOk_runEnd rfl (fun h => h) rfl)
  | inline => exact resOk_inline hr h
  | inlineEnd => exact simple _ h (resOk_runEnd rfl (fun h => h) rfl)
  | array => exact resOk_array hc hr h
  | arrRange =>
    refine simple _ h (resOk_stopIf ?_)
    simp only [Bool.and_eq_true]
    exact fun ⟨h1, h2⟩ => ⟨rfl, h1, starts_iff.1 h2⟩
  | arrStep =>
    refine simple _ h (resOk_stopIf ?_)
    simp only [Bool.and_eq_true]
    exact fun ⟨h1, h2⟩ => ⟨rfl, h1, starts_iff.1 h2⟩
  | arrParam =>
    refine simple _ h (resOk_stopIf ?_)
    simp only [Bool.and_eq_true]
    exact fun ⟨h1, h2⟩ => ⟨rfl, h1, starts_iff.1 h2⟩
  | arrEnd =>
    refine simple _ h (resOk_stopIf ?_)
    simp only [Bool.and_eq_true]
    exact fun ⟨h1, h2⟩ => ⟨rfl, h1, starts_iff.1 h2⟩

end MC.Parse
