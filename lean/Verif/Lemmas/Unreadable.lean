import Verif.Lemmas.Written
import Verif.Lemmas.Parse
import Verif.Spec.Unreadable

/-! # Texts that cannot be read are rejected at the mistake -/

namespace MC.Parse
open MC.Props MC.Unit.Table MC.Parse.Spec

section
variable {x : Lex} (hx : SymbolsOk x) (funcs : List Text) (inc : List Item → Bool) (rec : ParseFn)
  (fl : Flags) (done : List (List Item)) (cur : List Item) (m : Cache)

omit fl done m in
theorem noUnits_foreign {a : Char} {t : Text} (h : Foreign x a) : parseUnits x cur (a :: t) = .ok none := by
  have hl : a.toLower = a := by
    have := h.noWord.1
    unfold Char.toLower
    rw [dif_neg]
    intro hh
    have e : isLetter a = true := by
      simp only [isLetter, Bool.or_eq_true, Bool.and_eq_true, decide_eq_true_eq, Char.le_def]
      right
      obtain ⟨h1, h2⟩ := hh
      exact ⟨h1, h2⟩
    rw [this] at e
    cases e
  have key : ∀ n, unitLoop x (a :: t) n = none := by
    intro n
    induction n with
    | zero => rfl
    | succ n ih =>
      have h1 : lowerText ((a :: t).take (n + 1)) ∉ x.unitNames := by
        intro hm
        refine h.noUnit _ (List.mem_append_left _ hm) ?_
        simp [lowerText, hl]
      have h2 : (a :: t).take (n + 1) ∉ x.unitSymbols := by
        intro hm
        refine h.noUnit _ (List.mem_append_right _ hm) ?_
        simp
      simp only [List.take_succ_cons] at h1 h2
      simp [unitLoop, h1, h2, ih]
  simp [parseUnits, key]

include hx

/-- The last parsers read nothing at a foreign character. -/
theorem skip_last {a : Char} {t : Text} (h : Foreign x a) (hc : ([] : Text) ∉ x.constants)
    (hw : ∀ y ∈ x.systems ++ x.numTypes, ∃ c s, y = c :: s ∧ isLetter c = true) (hfl : fl.array = false) :
    tryParsers (shippedCfg x funcs inc) rec (a :: t) fl ((shippedParsers x).drop 21) done cur m
      = some (.ok (.go done cur 0), m) := by
  have h1 := h.noWord.1
  have hcon : parseConstant x cur (a :: t) = .ok none := by
    simp [parseConstant, h1, hc]
  have hword : ∀ ws : List Text, (∀ y ∈ ws, y ∈ x.systems ++ x.numTypes) → parseWord x ws cur (a :: t) = .ok none := by
    intro ws hws
    have : firstWord x (a :: t) ws = none := by
      induction ws with
      | nil => rfl
      | cons w ws ih =>
        obtain ⟨c, s, rfl, hcl⟩ := hw w (hws w (by simp))
        have : c ≠ a := by rintro rfl; rw [h1] at hcl; cases hcl
        simp [firstWord, List.isPrefixOf, this, ih (fun y hy => hws y (by simp [hy]))]
    simp [parseWord, this]
  have hvar : parseVar cur (a :: t) = .ok none := by
    simp [parseVar, leafOf, nameLen, h1, h.noWord.2.1]
  have ha : a ≠ '[' := by
    have := h.noSign
    simp only [List.mem_cons, not_or] at this
    exact this.2.2.2.2.2.1
  unfold shippedParsers
  simp only [List.drop_succ_cons, List.drop_zero]
  rw [try_leaf _ _ _ _ _ _ _ hcon, try_leaf _ _ _ _ _ _ _ (noUnits_foreign cur h),
    try_leaf _ _ _ _ _ _ _ (hword x.systems (by simp +contextual)),
    try_leaf _ _ _ _ _ _ _ (hword x.numTypes (by simp +contextual))]
  simp [tryParsers, runParser, runArray, shippedCfg, starts, List.isPrefixOf, Ne.symm ha, hfl, stopIf, nothing, hvar]

theorem noOp_foreign {a : Char} {t : Text} (h : Foreign x a) : parseOperator x cur (a :: t) = .ok none := by
  rcases C21_none x cur (a :: t) with ⟨op, ho⟩ | ho
  · obtain ⟨⟨hm, hp, _⟩, _⟩ := (C21_longest x cur _ op).1 ho
    obtain ⟨b, s, rfl, _⟩ := hx.opHead op hm
    rw [List.cons_prefix_cons] at hp
    exact absurd (by simp [hp.1]) (h.noOp _ hm)
  · exact ho.1

theorem skip_foreign {a : Char} {t : Text} (h : Foreign x a)
    (hd : a.isDigit = true → numberAllowed cur = false) :
    tryParsers (shippedCfg x funcs inc) rec (a :: t) fl (shippedParsers x) done cur m
      = tryParsers (shippedCfg x funcs inc) rec (a :: t) fl ((shippedParsers x).drop 15) done cur m := by
  have hs := h.noSign
  simp only [List.mem_cons, List.not_mem_nil, or_false, not_or] at hs
  have hn : NoNumber x cur (a :: t) := by
    cases e : a.isDigit with
    | true => exact noNumber_of_not_allowed x (hd e) _
    | false =>
      apply noNumber_of_head
      intro c hc
      simp only [signLen, List.head?_cons, Option.some.injEq, hs.2.2.2.2.2.2.2.2, if_false, List.drop_zero] at hc
      rw [← hc, e]
  have hnl : a ≠ '\n' := by
    rintro rfl
    exact absurd h.noWord.2.2 (by decide)
  rw [skip_first funcs inc rec fl done cur m (.inl hnl) h.noWord.2.2 (by rw [hx.commentSym]; exact hs.1)
    (noBool_of_head cur h.noWord.1) hn,
    skip_second hx funcs inc rec fl done cur m (noOp_foreign hx cur h) hs.2.1 hs.2.2.1 (by
      simp [callName, nameLen, h.noWord.1, h.noWord.2.1])]

/-- A turn at a foreign character. -/
theorem turn_foreign {a : Char} {t : Text} (h : Foreign x a) (hc : ([] : Text) ∉ x.constants)
    (hw : ∀ y ∈ x.systems ++ x.numTypes, ∃ c s, y = c :: s ∧ isLetter c = true) (hfl : fl.array = false)
    (hd : a.isDigit = true → numberAllowed cur = false) (hcomma : a = ',' → fl.func = false) :
    tryParsers (shippedCfg x funcs inc) rec (a :: t) fl (shippedParsers x) done cur m
      = some (.ok (.go done cur 0), m) := by
  rw [skip_foreign hx funcs inc rec fl done cur m h hd]
  by_cases e : a = ','
  · subst e
    have hl := skip_last hx funcs inc rec fl done cur m (t := t) h hc hw hfl
    have step : ∀ {p : Parser} {ps : List Parser},
        runParser (shippedCfg x funcs inc) rec p cur (',' :: t) fl m = some (.ok nothing, m) →
        tryParsers (shippedCfg x funcs inc) rec (',' :: t) fl (p :: ps) done cur m
          = tryParsers (shippedCfg x funcs inc) rec (',' :: t) fl ps done cur m := by
      intro p ps hp
      conv_lhs => unfold tryParsers
      simp [hp, nothing]
    rw [← hl]
    unfold shippedParsers
    simp only [List.drop_succ_cons, List.drop_zero]
    rw [step (p := .funcParam) (by simp [runParser, starts, stopIf, hcomma rfl]),
      step (p := .funcEnd) (by simp [runParser, starts, List.isPrefixOf, stopIf]),
      step (p := .inner) (by simp [runParser, runInner]),
      step (p := .innerEnd) (by simp [runParser, runEnd, starts, List.isPrefixOf]),
      step (p := .inline) (by simp [runParser, runInline]),
      step (p := .inlineEnd) (by simp [runParser, runEnd, starts, List.isPrefixOf])]
  · have hs := h.noSign
    simp only [List.mem_cons, List.not_mem_nil, or_false, not_or] at hs
    rw [skip_third hx funcs inc rec fl done cur m (by simp [e, hs]),
      skip_last hx funcs inc rec fl done cur m h hc hw hfl]

/-- A turn at a closing bracket that closes nothing. -/
theorem turn_closeTop (t : Text) (hi : fl.inner = false) (hf : fl.func = false) :
    tryParsers (shippedCfg x funcs inc) rec (')' :: t) fl (shippedParsers x) done cur m
      = some (.error (.parsing "Unexpected inner expression close symbol found" (done ++ [cur ++ []]) (')' :: t)), m) := by
  rw [skip_bracket hx funcs inc rec fl done cur m (by decide)]
  simp [shippedParsers, tryParsers, runParser, starts, stopIf, nothing, runInner, runEnd, hi, hf]

theorem turn_closeInline (t : Text) (hi : fl.inline = false) :
    tryParsers (shippedCfg x funcs inc) rec ('}' :: t) fl (shippedParsers x) done cur m
      = some (.error (.parsing "Unexpected inline function close symbol found" (done ++ [cur ++ []]) ('}' :: t)), m) := by
  have hn : NoNumber x cur ('}' :: t) := by
    apply noNumber_of_head
    intro c hc
    simp only [signLen, List.head?_cons, Option.some.injEq, Char.reduceEq, if_false, List.drop_zero] at hc
    rw [← hc]; decide
  rw [skip_first funcs inc rec fl done cur m (.inl (by decide)) (by decide) (by rw [hx.commentSym]; decide)
    (noBool_of_head cur (by decide)) hn,
    skip_second hx funcs inc rec fl done cur m (noOp_of_head hx cur (by decide)) (by decide) (by decide) (by
      have : isLetter '}' = false := by decide
      simp [callName, nameLen, this])]
  simp [shippedParsers, tryParsers, runParser, starts, stopIf, nothing, runInner, runInline, runEnd, hi]

omit hx in
theorem stringLoop_none (esc : Char) : ∀ (r : Text), '\'' ∉ r → ∀ e, stringLoop '\'' esc e r = none
  | [], _, _ => rfl
  | c :: r, h, e => by
    simp only [List.mem_cons, not_or] at h
    rw [stringLoop, if_pos (.inl (Ne.symm h.1))]
    simp only [stringLoop_none esc r h.2]

/-- A turn at a string without its end. -/
theorem turn_quote (t : Text) (h : '\'' ∉ t) :
    tryParsers (shippedCfg x funcs inc) rec ('\'' :: t) fl (shippedParsers x) done cur m
      = some (.error (.parsing "Missing end '" (done ++ [cur ++ []]) ('\'' :: t)), m) := by
  have hn : NoNumber x cur ('\'' :: t) := by
    apply noNumber_of_head
    intro c hc
    simp only [signLen, List.head?_cons, Option.some.injEq, Char.reduceEq, if_false, List.drop_zero] at hc
    rw [← hc]; decide
  have hs : parseString x cur ('\'' :: t) = .error (.parse "Missing end '" [] ('\'' :: t)) := by
    simp only [parseString, readString, hx.strSym, if_true, stringLoop_none _ t h]
    rfl
  rw [skip_first funcs inc rec fl done cur m (.inl (by decide)) (by decide) (by rw [hx.commentSym]; decide)
    (noBool_of_head cur (by decide)) hn]
  unfold shippedParsers
  simp only [List.drop_succ_cons, List.drop_zero]
  rw [try_leaf _ _ _ _ _ _ _ (noOp_of_head hx cur (by decide))]
  conv_lhs => unfold tryParsers
  simp [runParser, hs]

/-- A turn at a bracket that is not closed. -/
theorem turn_unclosed (t : Text) {st : List (List Item)} {len : ℕ}
    (hrec : rec { fl with inner := true, ignoreTerm := true } t m = some (.ok (st, len, none), m)) :
    tryParsers (shippedCfg x funcs inc) rec ('(' :: t) fl (shippedParsers x) done cur m
      = some (.error (.parsing "Inner expression missing close symbol" (done ++ [cur ++ []]) ('(' :: t)), m) := by
  rw [skip_bracket hx funcs inc rec fl done cur m (by decide)]
  simp [shippedParsers, tryParsers, runParser, starts, stopIf, nothing, runInner, hrec]

/-- A turn at a bracket with a mistake in it. -/
theorem turn_bracket (t : Text) {its : List Item} {msg : String} {bad : Text}
    (hrec : rec { fl with inner := true, ignoreTerm := true } t m = some (.error (.parsing msg [its] bad), m))
    (hits : itemsText its ++ bad = t) :
    tryParsers (shippedCfg x funcs inc) rec ('(' :: t) fl (shippedParsers x) done cur m
      = some (.error (.parsing msg (done ++ [cur ++ [.nest .inner ('(' :: itemsText its)
          (.leaf .innerStart ['('] :: its)]]) bad), m) := by
  rw [skip_bracket hx funcs inc rec fl done cur m (by decide)]
  have e : truncate ('(' :: t) (.leaf .innerStart ['('] :: its) (some bad) = some ('(' :: itemsText its) := by
    apply truncate_covers
    · simp [itemsText, Item.text]
    · simp [hits]
  simp [shippedParsers, tryParsers, runParser, starts, stopIf, nothing, runInner, hrec, reraise, e]

omit hx in
theorem argLoop_begun (k : Nest) (next t' : Text) {L : Text → List Item → Option Char → Prop}
    (hrec : ReadsArgs rec m L) {ts : Text} {its : List Item} (h : Begun L ts its) :
    ∀ (n i : ℕ) (items : List Item), ts.length < n → next.drop i = ts ++ t' →
    ∃ n', n ≤ n' + ts.length ∧
      argLoop rec k next n i items m = argLoop rec k next n' (i + ts.length) (items ++ its) m := by
  induction h with
  | nil => intro n i items _ _; exact ⟨n, by simp, by simp⟩
  | @more t its ts rest' h hs ih =>
    intro n i items hn hd
    simp only [List.length_append, List.length_cons] at hn
    obtain ⟨n, rfl⟩ : ∃ k, n = k + 1 := ⟨n - 1, by omega⟩
    have hi : i < next.length := by
      by_contra h
      rw [List.drop_of_length_le (by omega)] at hd
      have := congrArg List.length hd
      simp at this
    have hd2 : next.drop (i + t.length + 1) = ts ++ t' := by
      rw [Nat.add_assoc, ← List.drop_drop, hd]
      simp only [List.append_assoc, List.cons_append]
      rw [List.drop_length_add_append]
      rfl
    obtain ⟨n', h1, h2⟩ := ih n (i + t.length + 1) (items ++ its ++ [.leaf .funcParam [',']]) (by omega) hd2
    refine ⟨n', by simp only [List.length_append, List.length_cons]; omega, ?_⟩
    conv_lhs => unfold argLoop
    rw [if_pos hi, hd]
    simp only [List.append_assoc, List.cons_append]
    rw [hrec.comma h]
    simp only [reduceCtorEq, if_false, List.headD_cons, Option.some.injEq]
    rw [← List.append_assoc items, h2]
    congr 1
    · simp only [List.length_append, List.length_cons]; omega
    · simp

/-- A turn at a call whose arguments are rejected. -/
theorem turn_callError {w r : Text} (hw : Word x w) (hm : w ∈ funcs) {msg : String} {its : List Item} {nx : Text}
    (hloop : argLoop rec .func (w ++ '(' :: r) ((w ++ '(' :: r).length + 1) (w.length + 1)
      [.leaf .funcName w, .leaf .funcStart ['(']] m = some (.error (.parse msg its nx), m)) :
    tryParsers (shippedCfg x funcs inc) rec (w ++ '(' :: r) fl (shippedParsers x) done cur m
      = some (.error (.parsing msg (done ++ [cur ++ its]) nx), m) := by
  have hr : ∀ c, ('(' :: r).head? = some c → c.toNat < 128 ∧ asciiWord c = false := by
    intro c hc
    simp only [List.head?_cons, Option.some.injEq] at hc
    subst hc
    decide
  obtain ⟨hb, hn, ho⟩ := word_start hx cur hw hr
  have hcall : (shippedCfg x funcs inc).funcName (w ++ '(' :: r) = some w := by
    have hpos : w.length ≠ 0 := by
      have := hw.name.1
      simpa using this
    simp only [shippedCfg, callName, nameLen_append hw.name (fun c hc => (hr c hc).2), List.drop_left]
    simp [hpos, hm]
  obtain ⟨⟨a, t, e, ha⟩, _⟩ := name_chars hw.name
  obtain ⟨r1, r2, r3, r4, r5, r6, _⟩ := word_head ha
  have hnext : ∃ s, w ++ '(' :: r = a :: s := ⟨_, by rw [e]; rfl⟩
  obtain ⟨s, hs⟩ := hnext
  rw [hs] at hb hn ho hcall hloop ⊢
  rw [skip_first funcs inc rec fl done cur m (.inl r2) r1 (by rw [hx.commentSym]; exact r3) hb hn]
  have hstr : parseString x cur (a :: s) = .ok none := by
    simp [parseString, readString, hx.strSym, r4]
  have hp : (shippedCfg x funcs inc).pointerName (a :: s) = none := by
    simp only [shippedCfg]
    split
    · rename_i r heq
      simp only [List.cons.injEq] at heq
      exact absurd heq.1 r5
    · rfl
  have k1 : ∀ {ps : List Parser},
      tryParsers (shippedCfg x funcs inc) rec (a :: s) fl (.pointer :: ps) done cur m
        = tryParsers (shippedCfg x funcs inc) rec (a :: s) fl ps done cur m := by
    intro ps
    conv_lhs => unfold tryParsers
    simp [runParser, hp, runFunc, nothing]
  unfold shippedParsers
  simp only [List.drop_succ_cons, List.drop_zero]
  rw [try_leaf _ _ _ _ _ _ _ ho, try_leaf _ _ _ _ _ _ _ hstr, k1]
  conv_lhs => unfold tryParsers
  simp only [runParser, hcall, runFunc, hloop]

omit hx in
theorem begun_text {L : Text → List Item → Option Char → Prop}
    (hL : ∀ t its c, L t its c → itemsText its = t) {ts : Text} {its : List Item} (h : Begun L ts its) :
    itemsText its = ts := by
  induction h with
  | nil => rfl
  | more h _ ih =>
    have := hL _ _ _ h
    simp only [itemsText, List.flatMap_append, List.flatMap_cons] at this ih ⊢
    rw [this, ih]
    rfl

/-- A turn at a call that is not closed. -/
theorem turn_callUnclosed {w ts t' : Text} (hw : Word x w) (hm : w ∈ funcs)
    {L : Text → List Item → Option Char → Prop} (hrec : ReadsArgs rec m L) {its its' : List Item}
    (hb : Begun L ts its) (h' : rec { func := true, ignoreTerm := true } t' m
      = some (.ok ([its'], t'.length, none), m)) :
    tryParsers (shippedCfg x funcs inc) rec (w ++ '(' :: (ts ++ t')) fl (shippedParsers x) done cur m
      = some (.error (.parsing "Function missing close symbol" (done ++ [cur ++ []]) (w ++ '(' :: (ts ++ t'))), m) := by
  apply turn_callError hx funcs inc rec fl done cur m hw hm
  have hd : (w ++ '(' :: (ts ++ t')).drop (w.length + 1) = ts ++ t' := by
    rw [List.drop_length_add_append]; rfl
  obtain ⟨n', h1, h2⟩ := argLoop_begun rec m .func (w ++ '(' :: (ts ++ t')) t' hrec hb
    ((w ++ '(' :: (ts ++ t')).length + 1) (w.length + 1) [.leaf .funcName w, .leaf .funcStart ['(']] (by
      simp only [List.length_append, List.length_cons]; omega) hd
  rw [h2]
  have hlen : (w ++ '(' :: (ts ++ t')).length = w.length + 1 + ts.length + t'.length := by
    simp only [List.length_append, List.length_cons]; omega
  rw [hlen] at h1
  have hpos : 0 < w.length := by
    have := hw.name.1
    exact List.length_pos_iff.2 this
  obtain ⟨n, rfl⟩ : ∃ k, n' = k + 2 := ⟨n' - 2, by omega⟩
  unfold argLoop
  by_cases hi : w.length + 1 + ts.length < (w ++ '(' :: (ts ++ t')).length
  · have hd' : (w ++ '(' :: (ts ++ t')).drop (w.length + 1 + ts.length) = t' := by
      rw [← List.drop_drop, hd, List.drop_left]
    rw [if_pos hi, hd', h']
    simp only [reduceCtorEq, if_false]
    unfold argLoop
    rw [if_neg (by rw [hlen]; omega)]
  · rw [if_neg hi]

/-- A turn at a call with a mistake in it. -/
theorem turn_callBad {w ts t' : Text} (hw : Word x w) (hm : w ∈ funcs)
    {L : Text → List Item → Option Char → Prop} (hL : ∀ t its c, L t its c → itemsText its = t)
    (hrec : ReadsArgs rec m L) {its its' : List Item} {msg : String} {bad : Text}
    (hb : Begun L ts its) (hne : t' ≠ []) (h' : rec { func := true, ignoreTerm := true } t' m
      = some (.error (.parsing msg [its'] bad), m)) (hits : itemsText its' ++ bad = t') :
    tryParsers (shippedCfg x funcs inc) rec (w ++ '(' :: (ts ++ t')) fl (shippedParsers x) done cur m
      = some (.error (.parsing msg (done ++ [cur ++ [.nest .func (w ++ '(' :: (ts ++ itemsText its'))
          ([.leaf .funcName w, .leaf .funcStart ['(']] ++ its ++ its')]]) bad), m) := by
  apply turn_callError hx funcs inc rec fl done cur m hw hm
  have hd : (w ++ '(' :: (ts ++ t')).drop (w.length + 1) = ts ++ t' := by
    rw [List.drop_length_add_append]; rfl
  obtain ⟨n', h1, h2⟩ := argLoop_begun rec m .func (w ++ '(' :: (ts ++ t')) t' hrec hb
    ((w ++ '(' :: (ts ++ t')).length + 1) (w.length + 1) [.leaf .funcName w, .leaf .funcStart ['(']] (by
      simp only [List.length_append, List.length_cons]; omega) hd
  rw [h2]
  have hlen : (w ++ '(' :: (ts ++ t')).length = w.length + 1 + ts.length + t'.length := by
    simp only [List.length_append, List.length_cons]; omega
  rw [hlen] at h1
  have hpos' := List.length_pos_iff.2 hne
  obtain ⟨n, rfl⟩ : ∃ k, n' = k + 1 := ⟨n' - 1, by omega⟩
  have hd' : (w ++ '(' :: (ts ++ t')).drop (w.length + 1 + ts.length) = t' := by
    rw [← List.drop_drop, hd, List.drop_left]
  have e : truncate (w ++ '(' :: (ts ++ t')) ([.leaf .funcName w, .leaf .funcStart ['(']] ++ its ++ its') (some bad)
      = some (w ++ '(' :: (ts ++ itemsText its')) := by
    apply truncate_covers
    · have := begun_text hL hb
      simp only [itemsText] at this
      simp [itemsText, Item.text, this]
    · rw [← hits]; simp
  unfold argLoop
  rw [if_pos (by rw [hlen]; omega), hd', h']
  simp only [reraise, List.headD_cons, e]

end

section
variable {x : Lex} (hx : SymbolsOk x) (funcs : List Text) (inc : List Item → Bool) (m : Cache)

theorem leaf_text {complete : List Item → Prop} {nl : Bool} {n : ℕ} {b : Bool} {t : Text} {it : Item}
    {next : Option Char} (h : ReadingC x funcs complete n nl b t it next) : it.text = t := by
  cases n with
  | zero => obtain ⟨k, rfl, _⟩ := h; rfl
  | succ n =>
    rcases h with ⟨k, rfl, _⟩ | ⟨_, _, _, _, rfl⟩ | ⟨_, _, _, _, _, _, _, rfl⟩ |
      ⟨_, _, _, _, _, _, rfl⟩ | ⟨_, _, _, _, rfl⟩ | ⟨_, _, _, _, rfl⟩ <;> rfl

theorem line_text {complete : List Item → Prop} {nl : Bool} {n : ℕ} {b : Bool} {t : Text} {its : List Item}
    {next : Option Char} (h : Line (ReadingC x funcs complete n nl) b t its next) : itemsText its = t := by
  induction h with
  | nil => rfl
  | cons h _ ih =>
    simp only [itemsText, List.flatMap_cons] at ih ⊢
    rw [leaf_text funcs h, ih]

theorem unreadable_ne {n : ℕ} {top first : Bool} {t bad : Text} {msg : String}
    (h : Unreadable x funcs n top first t msg bad) : t ≠ [] := by
  induction h <;> simp_all

/-- What the flags must be. -/
def At (top : Bool) (fl : Flags) : Prop :=
  fl.array = false ∧ fl.inline = false ∧ (top = true → fl.inner = false ∧ fl.func = false) ∧
    (top = false → fl.ignoreTerm = true)

include hx

/-- The loop at a text that cannot be read. -/
theorem loop_unreadable (hc : ([] : Text) ∉ x.constants)
    (hw : ∀ y ∈ x.systems ++ x.numTypes, ∃ c s, y = c :: s ∧ isLetter c = true) (extra : ℕ)
    {n : ℕ} {top first : Bool} {t bad : Text} {msg : String} (h : Unreadable x funcs n top first t msg bad) :
    ∀ (fl : Flags), At top fl → ∀ (N pos : ℕ) (done : List (List Item)) (cur : List Item),
      t.length < N → numberAllowed cur = first →
      ∃ its, itemsText its ++ bad = t ∧
        parseLoop (shippedCfg x funcs inc) (parse (shippedCfg x funcs inc) (n + extra)) fl N pos t done cur m
          = some (.error (.parsing msg (done ++ [cur ++ its]) bad), m) := by
  have hpar : (shippedCfg x funcs inc).parsers = shippedParsers x := rfl
  have go : ∀ {n : ℕ} {fl : Flags} {N pos : ℕ} {t : Text} {done : List (List Item)} {cur its : List Item} {msg : String}
      {bad : Text}, t ≠ [] → t.length < N →
      tryParsers (shippedCfg x funcs inc) (parse (shippedCfg x funcs inc) (n + extra)) t fl (shippedParsers x) done cur m
        = some (.error (.parsing msg (done ++ [cur ++ its]) bad), m) →
      parseLoop (shippedCfg x funcs inc) (parse (shippedCfg x funcs inc) (n + extra)) fl N pos t done cur m
        = some (.error (.parsing msg (done ++ [cur ++ its]) bad), m) := by
    intro n fl N pos t done cur its msg bad ht hN h
    obtain ⟨N, rfl⟩ : ∃ k, N = k + 1 := ⟨N - 1, by omega⟩
    obtain ⟨a, s, rfl⟩ := List.exists_cons_of_ne_nil ht
    rw [parseLoop]
    dsimp only
    rw [hpar, h]
  have stuck : ∀ {n : ℕ} {fl : Flags} {N pos : ℕ} {t : Text} {done : List (List Item)} {cur : List Item},
      t ≠ [] → t.length < N →
      tryParsers (shippedCfg x funcs inc) (parse (shippedCfg x funcs inc) (n + extra)) t fl (shippedParsers x) done cur m
        = some (.ok (.go done cur 0), m) →
      parseLoop (shippedCfg x funcs inc) (parse (shippedCfg x funcs inc) (n + extra)) fl N pos t done cur m
        = some (.error (.parsing (cannot t) (done ++ [cur ++ []]) t), m) := by
    intro n fl N pos t done cur ht hN h
    obtain ⟨N, rfl⟩ : ∃ k, N = k + 1 := ⟨N - 1, by omega⟩
    obtain ⟨a, s, rfl⟩ := List.exists_cons_of_ne_nil ht
    rw [parseLoop]
    dsimp only
    rw [hpar, h]
    simp [cannot]
  have succ : ∀ n, n + 1 + extra = n + extra + 1 := by intro n; omega
  induction h with
  | foreign h hd hcomma =>
    intro fl hfl N pos done cur hN hb
    exact ⟨[], rfl, stuck (by simp) hN (turn_foreign hx funcs inc _ fl done cur m h hc hw hfl.1 (by simp [hd])
      (fun e => (hfl.2.2.1 (hcomma e)).2))⟩
  | number h hd =>
    intro fl hfl N pos done cur hN hb
    exact ⟨[], rfl, stuck (by simp) hN (turn_foreign hx funcs inc _ fl done cur m h hc hw hfl.1 (fun _ => hb)
      (by rintro rfl; exact absurd hd (by decide)))⟩
  | close =>
    intro fl hfl N pos done cur hN hb
    exact ⟨[], rfl, go (by simp) hN (turn_closeTop hx funcs inc _ fl done cur m _ (hfl.2.2.1 rfl).1 (hfl.2.2.1 rfl).2)⟩
  | closeInline =>
    intro fl hfl N pos done cur hN hb
    exact ⟨[], rfl, go (by simp) hN (turn_closeInline hx funcs inc _ fl done cur m _ hfl.2.1)⟩
  | quote h =>
    intro fl hfl N pos done cur hN hb
    exact ⟨[], rfl, go (by simp) hN (turn_quote hx funcs inc _ fl done cur m _ h)⟩
  | @unclosed n top first ts its h =>
    intro fl hfl N pos done cur hN hb
    refine ⟨[], rfl, go (by simp) hN (turn_unclosed hx funcs inc _ fl done cur m _ (st := [its])
      (len := ts.length) ?_)⟩
    · rw [succ n]
      exact parse_whole hx funcs inc m (fun _ h => h.elim) extra { fl with inner := true, ignoreTerm := true } hfl.1
        (fun _ => rfl) (fun h => by cases h) h
  | @unclosedCall n top first w ts its t' its' hw1 hm hb h =>
    intro fl hfl N pos done cur hN hb'
    refine ⟨[], rfl, go (by simp) hN (turn_callUnclosed hx funcs inc _ fl done cur m (freeWord hw1) hm
      (L := Line (Reading x funcs n true) true) (its' := its') ?_ hb ?_)⟩
    · rw [succ n]
      exact (readsInner hx funcs inc m (fun _ h => h.elim) extra n).args
    · rw [succ n]
      exact parse_whole hx funcs inc m (fun _ h => h.elim) extra _ rfl (by simp) (fun h => by cases h) h
  | @bracket n top first ts msg bad h ih =>
    intro fl hfl N pos done cur hN hb
    obtain ⟨its, e1, e2⟩ := ih { fl with inner := true, ignoreTerm := true } ⟨hfl.1, hfl.2.1, by simp, fun _ => rfl⟩
      (ts.length + 1) 0 [] [] (by omega) rfl
    refine ⟨_, ?_, go (by simp) hN (turn_bracket hx funcs inc _ fl done cur m _ (its := its) ?_ e1)⟩
    · rw [← e1]; simp [itemsText, Item.text]
    · rw [succ n]
      exact e2
  | @call n top first w ts its t' msg bad hw1 hm hb h ih =>
    intro fl hfl N pos done cur hN hb'
    obtain ⟨its', e1, e2⟩ := ih { func := true, ignoreTerm := true } ⟨rfl, rfl, by simp, fun _ => rfl⟩
      (t'.length + 1) 0 [] [] (by omega) rfl
    refine ⟨_, ?_, go (by simp) hN (turn_callBad hx funcs inc _ fl done cur m (freeWord hw1) hm
      (L := Line (Reading x funcs n true) true) (fun _ _ _ h => line_text funcs h) ?_ hb (unreadable_ne funcs h) (its' := its') ?_ e1)⟩
    · rw [← e1]; simp [itemsText, Item.text]
    · rw [succ n]
      exact (readsInner hx funcs inc m (fun _ h => h.elim) extra n).args
    · rw [succ n]
      exact e2
  | @after n top first t its rest msg bad h _ ih =>
    intro fl hfl N pos done cur hN hb
    have hle := line_length (R := Reading x funcs n (!top)) (fun _ _ _ _ h => reading_ne hx funcs h) h
    rw [List.length_append] at hN
    have e := loop_line hx funcs inc (parse (shippedCfg x funcs inc) (n + extra)) m fl
      (by intro ht; exact hfl.2.2.2 (by simpa using ht)) (fun _ h => h.elim fun _ h => h.elim)
      (readsInner_at hx funcs inc m (fun _ h => h.elim) extra) h
      (fun h => by rw [hfl.1] at h; cases h) rest (N - its.length) pos done cur rfl hb
    rw [show its.length + (N - its.length) = N by omega] at e
    obtain ⟨its', e1, e2⟩ := ih fl hfl (N - its.length) (pos + t.length) done (cur ++ its) (by omega) (by
      rw [← hb]
      clear * -
      induction its using List.reverseRecOn with
      | nil => simp
      | append_singleton its it ih =>
        rw [← List.append_assoc, numberAllowed_append, ih, List.foldl_append]; rfl)
    refine ⟨its ++ its', ?_, ?_⟩
    · rw [← e1, ← line_text funcs h]; simp [itemsText]
    · rw [e, e2]; simp

/-- The loop at lines with a mistake after them. -/
theorem loop_rejected (hc : ([] : Text) ∉ x.constants)
    (hw : ∀ y ∈ x.systems ++ x.numTypes, ∃ c s, y = c :: s ∧ isLetter c = true) (extra : ℕ)
    {n : ℕ} {complete : List Item → Prop}
    (hcomp : ∀ its, complete its → inc its = false ∧ m ≠ some (itemsText its))
    {t bad : Text} {msg : String} (h : Rejected x funcs n complete t msg bad) :
    ∀ (N pos : ℕ) (done : List (List Item)), t.length < N →
      ∃ st, itemsText st.flatten ++ bad = t ∧
        parseLoop (shippedCfg x funcs inc) (parse (shippedCfg x funcs inc) (n + extra)) {} N pos t done [] m
          = some (.error (.parsing msg (done ++ st) bad), m) := by
  have hrec := readsInner_at hx funcs inc m (complete := fun _ => False) (fun _ h => h.elim) extra (n := n)
  induction h with
  | here h =>
    intro N pos done hN
    obtain ⟨its, e1, e2⟩ := loop_unreadable hx funcs inc m hc hw extra h {} ⟨rfl, rfl, by simp, by simp⟩ N pos done []
      hN rfl
    exact ⟨[its], by simpa using e1, by simpa using e2⟩
  | @line t its ts msg bad hl hcm _ ih =>
    intro N pos done hN
    simp only [List.length_append, List.length_cons] at hN
    have hle := line_length (R := Reading x funcs n false) (fun _ _ _ _ h => reading_ne hx funcs h) hl
    have e := loop_line hx funcs inc (parse (shippedCfg x funcs inc) (n + extra)) m {}
      (by simp) (fun _ _ => rfl) hrec hl (fun h => by cases h) ('\n' :: ts) (N - its.length) pos done [] rfl rfl
    rw [show its.length + (N - its.length) = N by omega, List.nil_append] at e
    obtain ⟨k, hk⟩ : ∃ k, N - its.length = k + 1 := ⟨N - its.length - 1, by omega⟩
    obtain ⟨c1, c2⟩ := hcomp _ hcm
    have ht := turn_term (x := x) funcs inc (parse (shippedCfg x funcs inc) (n + extra)) {} done its m ts
      rfl c1 c2
    have hpar : (shippedCfg x funcs inc).parsers = shippedParsers x := rfl
    obtain ⟨st, e1, e2⟩ := ih k (pos + t.length + 1) (done ++ [its ++ [.leaf .terminator ['\n']]]) (by omega)
    refine ⟨(its ++ [.leaf .terminator ['\n']]) :: st, ?_, ?_⟩
    · rw [← e1, ← line_text funcs hl]; simp [itemsText, Item.text]
    rw [e, hk, parseLoop]
    dsimp only
    rw [hpar, ht]
    dsimp only
    rw [if_neg (by decide), List.drop_one, List.tail_cons, e2]
    simp

end
end MC.Parse
