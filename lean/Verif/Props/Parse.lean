import Verif.Lemmas.Lexer
import Verif.Lemmas.Highlight
import Verif.Lemmas.ParseHist

/-!
# C19, C20, C24, C25: parsing keeps the text, ends, and reports positions
-/

namespace MC.Props

open MC.Parse MC.Parse.Spec

variable {c : Cfg}

/-- The flags of a call of `calculate`. -/
def topFlags (ignore : Bool) : Flags := { ignoreTerm := ignore }

/-! ### C19 -/

/-- **C19**: if an expression parses, all of it was read, and the texts of all items of all
statements, one after the other, are exactly the expression. -/
theorem C19_lossless (hc : Ok c) {ignore : Bool} {text : Text} {bound : ℕ} {s s' : Cache}
    {st : List (List Parse.Item)} {n : ℕ} {w : Option Stop}
    (h : parse c bound (topFlags ignore) text s = some (.ok (st, n, w), s')) :
    itemsText st.flatten = text ∧ n = text.length ∧ w = none := by
  have hg : OkGood c _ _ st n w := parse_good hc bound _ _ _ _ _ h
  have hw : w = none := by
    cases w with
    | none => rfl
    | some w =>
      have := hg.rest.1
      cases w <;> simp [Allowed, topFlags] at this
  subst hw
  have hn : n = text.length := hg.rest
  obtain ⟨body, e, hb, _⟩ := hg.items
  refine ⟨?_, hn, rfl⟩
  rw [e, hn] at *
  simpa using hb.1

/-- **C19** inside the items: the text of a bracket, function call or array is the texts of the
items inside one after the other, at any depth. -/
theorem C19_nested (hc : Ok c) {ignore : Bool} {text : Text} {bound : ℕ} {s s' : Cache}
    {st : List (List Parse.Item)} {n : ℕ} {w : Option Stop}
    (h : parse c bound (topFlags ignore) text s = some (.ok (st, n, w), s')) :
    ∀ it ∈ st.flatten, Whole it := by
  have hg : OkGood c _ _ st n w := parse_good hc bound _ _ _ _ _ h
  have hw := (C19_lossless hc h).2.2
  subst hw
  obtain ⟨body, e, hb, _⟩ := hg.items
  rw [e]
  simpa using hb.2

/-- The shipped operators have no empty symbol. -/
theorem shippedOps_ne : ([] : Text) ∉ opsSymbols shippedOps := by decide +kernel

/-- **C19** for the shipped parsers: any precision, any constants, units, unit systems, number
types and functions with names that are not empty. -/
theorem C19_shipped (x : Lex) (funcs : List Text) (inc : List Parse.Item → Bool)
    (h1 : ([] : Text) ∉ x.ops) (h2 : ([] : Text) ∉ x.systems) (h3 : ([] : Text) ∉ x.numTypes)
    {text : Text} {bound : ℕ} {s s' : Cache} {st : List (List Parse.Item)} {n : ℕ} {w : Option Stop}
    (h : parse (shippedCfg x funcs inc) bound (topFlags false) text s
      = some (.ok (st, n, w), s')) :
    itemsText st.flatten = text ∧ ∀ it ∈ st.flatten, Whole it :=
  ⟨(C19_lossless (shipped_ok x funcs inc h1 h2 h3) h).1,
    C19_nested (shipped_ok x funcs inc h1 h2 h3) h⟩

/-! ### C20 -/

/-- **C20**: parsing ends on every text, from every state: a nesting as deep as the text is long
is enough. -/
theorem C20_finishes (hc : Ok c) (fl : Flags) (text : Text) (s : Cache) :
    ∃ r s', parse c (text.length + 1) fl text s = some (r, s') :=
  parse_ends hc (text.length + 1) fl text s (Nat.lt_succ_self _)

/-- **C20**: a larger bound on the nesting does not change anything, so the result is that of the
program, which has no bound. -/
theorem C20_bound_irrelevant (hc : Ok c) (fl : Flags) (text : Text) (s : Cache) {m : ℕ}
    (hm : text.length < m) :
    parse c m fl text s = parse c (text.length + 1) fl text s := by
  obtain ⟨r, s', h⟩ := C20_finishes hc fl text s
  rw [h]
  exact parse_mono hm _ _ _ _ h

/-- **C20**: the outcome is items, a parsing error at a position inside the text, or an exception
that the conversion of a literal in the text raised. -/
theorem C20_outcome (hc : Ok c) (ignore : Bool) (text : Text) (s : Cache) :
    ∃ s', (∃ st, parse c (text.length + 1) (topFlags ignore) text s
          = some (.ok (st, text.length, none), s')) ∨
      (∃ m st nx pos, parse c (text.length + 1) (topFlags ignore) text s
          = some (.error (.parsing m st nx), s') ∧
        findPos text st.flatten (some nx) = some pos ∧ pos ≤ text.length) ∨
      (∃ m, parse c (text.length + 1) (topFlags ignore) text s = some (.error (.py m), s') ∧
        Raised c m text) := by
  obtain ⟨r, s', h⟩ := C20_finishes hc (topFlags ignore) text s
  refine ⟨s', ?_⟩
  cases r with
  | ok v =>
    obtain ⟨st, n, w⟩ := v
    obtain ⟨_, hn, hw⟩ := C19_lossless hc h
    subst hn hw
    exact Or.inl ⟨st, h⟩
  | error e =>
    cases e with
    | py m => exact Or.inr (Or.inr ⟨m, h, parse_good hc _ _ _ _ _ _ h⟩)
    | parsing m st nx =>
      have hg : ErrGood _ _ st nx := parse_good hc _ _ _ _ _ _ h
      obtain ⟨pre, hp, he⟩ := hg.items
      exact Or.inr (Or.inl ⟨m, st, nx, pre.length, h, findPos_covers hp.1 he, by simp [← he]⟩)

/-! ### C24 -/

/-- **C24**: for any items whose texts are the start of the text, and any rest, the position is
the length of the text of the items, and truncating gives exactly that text. -/
theorem C24_position (items : List Parse.Item) (nx : Text) :
    findPos (itemsText items ++ nx) items (some nx) = some (itemsText items).length ∧
    findPos (itemsText items ++ nx) items none = some (itemsText items).length ∧
    truncate (itemsText items ++ nx) items (some nx) = some (itemsText items) :=
  ⟨findPos_covers rfl rfl, findPos_covers_none rfl rfl, truncate_covers rfl rfl⟩

/-- **C24** for parsing errors: the items of the error cover the text before it, the rest of the
error is the text after it, and the reported position is between the two. -/
theorem C24_parsing (hc : Ok c) {ignore : Bool} {text : Text} {bound : ℕ} {s s' : Cache}
    {m : String} {st : List (List Parse.Item)} {nx : Text}
    (h : parse c bound (topFlags ignore) text s = some (.error (.parsing m st nx), s')) :
    itemsText st.flatten ++ nx = text ∧
    findPos text st.flatten (some nx) = some (itemsText st.flatten).length ∧
    truncate text st.flatten (some nx) = some (itemsText st.flatten) ∧
    ∀ it ∈ st.flatten, Whole it := by
  have hg : ErrGood _ _ st nx := parse_good hc _ _ _ _ _ _ h
  obtain ⟨pre, hp, he⟩ := hg.items
  have e : itemsText st.flatten ++ nx = text := by rw [hp.1, he]
  exact ⟨e, findPos_covers rfl e, truncate_covers rfl e, hp.2⟩

/-- **C24** for execution errors: if the error is at the item after `k` operators and operands
of a statement, the items of the error are those before that item, spaces and comments
included. -/
theorem C24_restored {pre post : List Parse.Item} {it : Parse.Item} (hit : it.functional = true) :
    restoreItems false (functionalItems pre).length (pre ++ it :: post) (pre ++ it :: post)
      = pre :=
  restoreLoop_plain hit 0 _ (by simp)

/-- **C24** for execution errors inside a bracket: the items before the bracket, and the bracket
cut at the error. -/
theorem C24_restored_inside {pre post : List Parse.Item} {it it' : Parse.Item}
    (hit : it'.functional = true) :
    restoreItems true ((functionalItems pre).length + 1) (pre ++ it' :: post) (pre ++ it :: post)
      = pre ++ [it'] :=
  restoreLoop_truncated hit 0 _ (by simp)

/-- **C24** for execution errors: the position in the expression is the length of the text of the
earlier statements and of the items before the failing one.  `next` is the failing item's text,
or missing. -/
theorem C24_execution {before after : List (List Parse.Item)} {pre post : List Parse.Item} {it : Parse.Item}
    (hit : it.functional = true) {next : Option Text} (hn : next = none ∨ next = some it.text) :
    executionPos (itemsText (before ++ [pre ++ it :: post] ++ after).flatten) before
      (restoreItems false (functionalItems pre).length (pre ++ it :: post) (pre ++ it :: post))
      next = some (itemsText (before.flatten ++ pre)).length := by
  rw [C24_restored hit]
  have e : itemsText (before ++ [pre ++ it :: post] ++ after).flatten
      = [] ++ itemsText (before ++ [pre]).flatten ++ (it.text ++ itemsText (post ++ after.flatten)) := by
    simp [itemsText]
  have hf := findItems_covers (before ++ [pre]).flatten []
    (it.text ++ itemsText (post ++ after.flatten))
  rw [← e] at hf
  simp only [List.length_nil, List.nil_append] at hf
  simp only [executionPos, findPos, hf]
  have e2 : (before ++ [pre]).flatten = before.flatten ++ pre := by simp
  rcases hn with rfl | rfl
  · simp only [e2]
  · simp only
    rw [pyFind_here]
    · simp only [e2]
    · rw [e]; simp
    · rw [e]
      simp

/-- **C24** for errors inside a bracket: cutting the bracket at the error, and then the statement
after the cut bracket, gives the text before the error. -/
theorem C24_execution_inside {before after : List (List Parse.Item)} {pre post inner : List Parse.Item}
    {k : Nest} {t rest : Text} {next : Option Text}
    (ht : itemsText inner ++ rest = t) (hn : next = none ∨ ∃ sym, next = some sym ∧ sym <+: rest) :
    ∃ it', truncateItem k t inner next = some it' ∧ it'.text = itemsText inner ∧
    executionPos (itemsText (before ++ [pre ++ Parse.Item.nest k t inner :: post] ++ after).flatten) before
      (restoreItems true ((functionalItems pre).length + 1) (pre ++ it' :: post)
        (pre ++ Parse.Item.nest k t inner :: post)) next
      = some (itemsText (before.flatten ++ pre) ++ itemsText inner).length := by
  have hpos : findPos t inner next = some (itemsText inner).length := by
    have hf := findItems_covers inner [] rest
    simp only [List.nil_append, ht, List.length_nil] at hf
    rcases hn with rfl | ⟨sym, rfl, hs⟩
    · simp only [findPos, hf]
    · simp only [findPos, hf]
      exact pyFind_here (by rw [← ht]; simp) (by rw [← ht]; simpa using hs)
  refine ⟨.nest k (itemsText inner) inner, ?_, rfl, ?_⟩
  · rw [truncateItem, truncate, hpos, ← ht]
    simp
  · rw [C24_restored_inside rfl]
    have e : itemsText (before ++ [pre ++ Parse.Item.nest k t inner :: post] ++ after).flatten
        = [] ++ itemsText (before ++ [pre ++ [Parse.Item.nest k (itemsText inner) inner]]).flatten
          ++ (rest ++ itemsText (post ++ after.flatten)) := by
      simp [itemsText, ← ht]
    have hf := findItems_covers (before ++ [pre ++ [Parse.Item.nest k (itemsText inner) inner]]).flatten []
      (rest ++ itemsText (post ++ after.flatten))
    rw [← e] at hf
    simp only [List.length_nil, List.nil_append] at hf
    simp only [executionPos, findPos, hf]
    have e2 : itemsText (before ++ [pre ++ [Parse.Item.nest k (itemsText inner) inner]]).flatten
        = itemsText (before.flatten ++ pre) ++ itemsText inner := by
      simp [itemsText]
    rcases hn with rfl | ⟨sym, rfl, hs⟩
    · simp only [e2]
    · simp only
      rw [pyFind_here]
      · simp only [e2]
      · rw [e]; simp
      · rw [e]
        simp only [List.nil_append, List.drop_left]
        exact hs.trans (List.prefix_append _ _)

/-! ### C25 -/

/-- **C25**, what holds: if the remembered line, without spaces and comments, cannot be found in
the expression even as a scattered text, the expression parses as on a fresh calculator.
What is missing: it does not hold for every history (`C25_violation`). -/
theorem C25_history_partial (hc : Ok c) (fl : Flags) {text t : Text} (ht : ¬ t.Sublist text)
    (bound : ℕ) :
    (parse c bound fl text (some t)).map Prod.fst = (parse c bound fl text none).map Prod.fst := by
  have h := parse_blind hc bound (t := t) fl text ht (some t) none (Or.inr ⟨rfl, rfl⟩)
  rcases outRel_some h with ⟨h1, h2⟩ | ⟨r, s1, s2, h1, h2, _⟩
  · rw [h1, h2]
  · rw [h1, h2]; rfl

end MC.Props
