import Verif.Props.Parse
import Verif.Model.Terminator

/-!
# C21, C22, C23, C25: operators, strings, highlighting, history
-/

namespace MC.Props

open MC.Parse MC.Parse.Spec

/-! ### C21 -/

/-- An operator symbol that may be read here: it is installed, the text starts with it, and if it
is made of letters only, no word character follows. -/
def Readable (x : Lex) (next op : Text) : Prop :=
  op ∈ x.ops ∧ op <+: next ∧
    (op ≠ [] → (∀ ch ∈ op, x.alpha ch = true) →
      ∀ ch, (next.drop op.length).head? = some ch → x.word ch = false)

theorem readable_step (x : Lex) {next op : Text} (h : op ∈ x.ops ∧ op <+: next) :
    Readable x next op ↔
      ¬ (op ≠ [] ∧ op.all x.alpha = true) ∨ wordEnd x (next.drop op.length) = true := by
  have e : wordEnd x (next.drop op.length) = true ↔
      ∀ ch, (next.drop op.length).head? = some ch → x.word ch = false := by
    cases next.drop op.length with
    | nil => simp [wordEnd]
    | cons a t => simp [wordEnd]
  rw [e]
  simp only [Readable, h.1, h.2, true_and, List.all_eq_true]
  tauto

theorem firstOp_some (x : Lex) {next : Text} : ∀ {ops : List Text},
    (∀ o ∈ ops, o ∈ x.ops ∧ o <+: next) →
    ops.Pairwise (fun a b => b.length ≤ a.length) →
    (∀ op, firstOp x next ops = some op →
      Readable x next op ∧ ∀ o ∈ ops, Readable x next o → o.length ≤ op.length) ∧
    (firstOp x next ops = none → ∀ o ∈ ops, ¬ Readable x next o)
  | [], _, _ => by simp [firstOp]
  | o :: ops, hm, hs => by
    have ih := firstOp_some x (fun p hp => hm p (by simp [hp])) hs.of_cons
    have hst := readable_step x (hm o (by simp))
    have hle : ∀ p ∈ ops, p.length ≤ o.length := fun p hp => List.rel_of_pairwise_cons hs hp
    by_cases hr : Readable x next o
    · have hf : firstOp x next (o :: ops) = some o := by
        unfold firstOp
        split
        · rename_i hc
          rcases hst.1 hr with h | h
          · exact absurd hc h
          · rw [if_pos h]
        · rfl
      rw [hf]
      refine ⟨?_, by simp⟩
      intro op h
      simp only [Option.some.injEq] at h
      subst h
      refine ⟨hr, ?_⟩
      intro p hp _
      rcases List.mem_cons.1 hp with rfl | hp
      · exact Nat.le_refl _
      · exact hle _ hp
    · have hf : firstOp x next (o :: ops) = firstOp x next ops := by
        rw [hst] at hr
        push Not at hr
        conv_lhs => unfold firstOp
        rw [if_pos hr.1, if_neg hr.2]
      rw [hf]
      refine ⟨?_, ?_⟩
      · intro op h
        refine ⟨(ih.1 op h).1, ?_⟩
        intro p hp hpr
        rcases List.mem_cons.1 hp with rfl | hp
        · exact absurd hpr hr
        · exact (ih.1 op h).2 p hp hpr
      · intro h p hp
        rcases List.mem_cons.1 hp with rfl | hp
        · exact hr
        · exact ih.2 h p hp

theorem candidates_sorted (x : Lex) (next : Text) :
    (opCandidates x next).Pairwise (fun a b => b.length ≤ a.length) := by
  have : Std.Total (fun a b : Text => b.length ≤ a.length) := ⟨fun a b => Nat.le_total _ _⟩
  have : IsTrans Text (fun a b : Text => b.length ≤ a.length) :=
    ⟨fun a b c h1 h2 => Nat.le_trans h2 h1⟩
  exact List.pairwise_insertionSort _ _

/-- **C21**: the operator read is the longest that may be read here. -/
theorem C21_longest (x : Lex) (cur : List Parse.Item) (next op : Text) :
    parseOperator x cur next = .ok (some (.leaf .op op, op.length)) ↔
      Readable x next op ∧ ∀ o, Readable x next o → o.length ≤ op.length := by
  have hm : ∀ o ∈ opCandidates x next, o ∈ x.ops ∧ o <+: next :=
    fun o ho => (mem_opCandidates x).1 ho
  have hf := firstOp_some x hm (candidates_sorted x next)
  have hin : ∀ o, Readable x next o → o ∈ opCandidates x next :=
    fun o ho => (mem_opCandidates x).2 ⟨ho.1, ho.2.1⟩
  unfold parseOperator
  cases h : firstOp x next (opCandidates x next) with
  | none =>
    simp only [Except.ok.injEq, reduceCtorEq, false_iff, not_and]
    intro hr
    exact absurd hr (hf.2 h op (hin op hr))
  | some o =>
    obtain ⟨h1, h2⟩ := hf.1 o h
    simp only [Except.ok.injEq, Option.some.injEq, Prod.mk.injEq, Parse.Item.leaf.injEq, true_and]
    constructor
    · rintro ⟨rfl, _⟩
      exact ⟨h1, fun p hp => h2 p (hin p hp) hp⟩
    · rintro ⟨hr, hl⟩
      have e : o.length = op.length :=
        Nat.le_antisymm (hl o h1) (h2 op (hin op hr) hr)
      refine ⟨?_, e⟩
      exact (List.prefix_of_prefix_length_le h1.2.1 hr.2.1 (Nat.le_of_eq e)).eq_of_length e

/-- **C21**: an operator is read whenever one may be read; the parser never fails. -/
theorem C21_none (x : Lex) (cur : List Parse.Item) (next : Text) :
    (∃ op, parseOperator x cur next = .ok (some (.leaf .op op, op.length))) ∨
    (parseOperator x cur next = .ok none ∧ ∀ o, ¬ Readable x next o) := by
  have hm : ∀ o ∈ opCandidates x next, o ∈ x.ops ∧ o <+: next :=
    fun o ho => (mem_opCandidates x).1 ho
  have hf := firstOp_some x hm (candidates_sorted x next)
  unfold parseOperator
  cases h : firstOp x next (opCandidates x next) with
  | none =>
    refine Or.inr ⟨rfl, fun o ho => ?_⟩
    exact hf.2 h o ((mem_opCandidates x).2 ⟨ho.1, ho.2.1⟩) ho
  | some o => exact Or.inl ⟨o, rfl⟩

/-- The shipped parsers with a few names, for the examples. -/
def demoLex : Lex :=
  shippedLex 30 (fun _ _ => .ok 1) ["pi".toList] ["metre".toList, "metres".toList]
    ["m".toList, "km".toList] ["US".toList] ["binary".toList] 6

/-- The parsing of the examples. -/
def demoCfg : Cfg := shippedCfg demoLex ["max".toList] (incomplete shippedOps)

theorem demoCfg_ok : Ok demoCfg :=
  shipped_ok demoLex _ _ shippedOps_ne (by decide +kernel) (by decide +kernel)

/-- `<=` is read, not `<`. -/
example : parseOperator demoLex [] "<=2".toList = .ok (some (.leaf .op "<=".toList, 2)) ∧
    "<".toList ∈ demoLex.ops := ⟨by rfl, by decide +kernel⟩

/-- `and` is not read in `android`, but is in `and(1)`. -/
example : parseOperator demoLex [] "android".toList = .ok none ∧
    parseOperator demoLex [] "and(1)".toList = .ok (some (.leaf .op "and".toList, 3)) :=
  ⟨by rfl, by rfl⟩

/-- **C21**: "ending in a letter" would be wrong: `IMPLICIT_MULTIPLY` ends in a letter, has an
underscore, and is read although a word character follows. -/
theorem C21_underscore : ∃ (x : Lex) (op : Text),
    op.getLast? = some 'Y' ∧ x.word 'Z' = true ∧
    parseOperator x [] (op ++ ['Z']) = .ok (some (.leaf .op op, op.length)) :=
  ⟨demoLex, "IMPLICIT_MULTIPLY".toList, by decide +kernel, by decide +kernel, by rfl⟩

/-! ### C22 -/

theorem stringLoop_quoted {sym esc : Char} (hne : sym ≠ esc) (rest : Text) : ∀ s : Text,
    stringLoop sym esc false
      (s.flatMap (fun ch => if ch = sym ∨ ch = esc then [esc, ch] else [ch]) ++ sym :: rest)
      = some (s, (s.flatMap (fun ch => if ch = sym ∨ ch = esc then [esc, ch] else [ch])).length)
  | [] => by simp [stringLoop]
  | ch :: s => by
    have ih := stringLoop_quoted hne rest s
    by_cases h1 : ch = sym
    · subst h1
      simp only [List.flatMap_cons, true_or, if_true, List.cons_append, List.nil_append]
      simp [stringLoop, ih, Ne.symm hne, hne]
    · by_cases h2 : ch = esc
      · subst h2
        simp only [List.flatMap_cons, or_true, if_true, List.cons_append, List.nil_append]
        simp [stringLoop, ih, h1]
      · simp only [List.flatMap_cons, h1, h2, or_self, if_false, List.cons_append,
          List.nil_append]
        simp [stringLoop, ih, h1, h2]

/-- **C22**: for every string, reading its literal gives the string, and reads exactly the
literal, whatever follows. -/
theorem C22_string (x : Lex) (hne : x.strSym ≠ x.escChar) (s rest : Text) :
    readString x (quoted x.strSym x.escChar s ++ rest)
      = .ok (some (s, (quoted x.strSym x.escChar s).length)) := by
  have h := stringLoop_quoted hne rest s
  simp only [quoted, List.cons_append, List.append_assoc, List.nil_append, readString, if_true]
  rw [h]
  simp

example : quoted '\'' '\\' "it's \\".toList = "'it\\'s \\\\'".toList := by decide +kernel

/-! At a quote every parser before that of strings finds nothing. -/

theorem basedLen_quote (pre : Text) (ok : Char → Bool) (ch : Char) (h : pre.head? = some ch)
    (hch : ch ≠ '\'') (rest : Text) : basedLen pre ok ('\'' :: rest) = 0 := by
  cases pre with
  | nil => simp at h
  | cons a t =>
    simp only [List.head?_cons, Option.some.injEq] at h
    subst h
    have e : signLen ('\'' :: rest) = 0 := by simp [signLen]
    have e2 : Char.toLower '\'' = '\'' := by decide
    simp [basedLen, e, lowerText, e2, hch]

theorem decimalLen_quote (rest : Text) : decimalLen ('\'' :: rest) = 0 := by
  have e : signLen ('\'' :: rest) = 0 := by simp [signLen]
  have e2 : Char.isDigit '\'' = false := by decide
  simp [decimalLen, e, digitsLen, e2]

theorem arbLen_quote (rest : Text) : arbLen ('\'' :: rest) = 0 := by
  have e : signLen ('\'' :: rest) = 0 := by simp [signLen]
  have e2 : Char.toLower '\'' = '\'' := by decide
  have e3 : Char.isDigit '\'' = false := by decide
  simp [arbLen, e, lowerText, e2, e3]

theorem literal_zero {len : Text → ℕ} {conv : Text → Except Err Bool} {cur : List Parse.Item}
    {next : Text} (h : len next = 0) : literal len conv cur next = .ok none := by
  simp [literal, h]

theorem noOp_quote (x : Lex) (hops : ∀ op ∈ x.ops, op ≠ [] ∧ op.head? ≠ some '\'')
    (cur : List Parse.Item) (rest : Text) : parseOperator x cur ('\'' :: rest) = .ok none := by
  rcases C21_none x cur ('\'' :: rest) with ⟨op, h⟩ | h
  · obtain ⟨⟨hm, ⟨t, ht⟩, _⟩, _⟩ := (C21_longest x cur _ op).1 h
    have := hops op hm
    cases op with
    | nil => exact absurd rfl this.1
    | cons a l =>
      simp only [List.cons_append, List.cons.injEq] at ht
      simp [ht.1] at this
  · exact h.1

/-- A turn of the loop at a literal. -/
theorem turn_string (x : Lex) (funcs : List Text) (inc : List Parse.Item → Bool)
    (hsym : x.strSym = '\'') (hesc : x.escChar = '\\') (hcom : x.commentSym ≠ '\'')
    (hops : ∀ op ∈ x.ops, op ≠ [] ∧ op.head? ≠ some '\'')
    (rec : ParseFn) (fl : Flags) (done : List (List Parse.Item)) (cur : List Parse.Item)
    (s rest : Text) (m : Cache) :
    tryParsers (shippedCfg x funcs inc) rec (quoted '\'' '\\' s ++ rest) fl
        (shippedCfg x funcs inc).parsers done cur m
      = some (.ok (.go done (cur ++ [.leaf .str (quoted '\'' '\\' s)])
          (quoted '\'' '\\' s).length), m) := by
  have hr := C22_string x (by rw [hsym, hesc]; decide) s rest
  rw [hsym, hesc] at hr
  have hq : ∃ t, quoted '\'' '\\' s ++ rest = '\'' :: t := by simp [quoted]
  have hp : (quoted '\'' '\\' s ++ rest).take (quoted '\'' '\\' s).length
      = quoted '\'' '\\' s := by simp
  generalize quoted '\'' '\\' s ++ rest = next at hr hq hp
  obtain ⟨t, rfl⟩ := hq
  have h1 : runTerminator (shippedCfg x funcs inc) cur ('\'' :: t) fl m
      = some (.ok nothing, m) := by
    unfold runTerminator
    have : starts (shippedCfg x funcs inc).termSym ('\'' :: t) = false := by
      simp [starts, shippedCfg, List.isPrefixOf]
    simp [this]
  have h2 : parseSpace cur ('\'' :: t) = .ok none := by
    have : isSpaceChar '\'' = false := by decide
    simp [parseSpace, this, leafOf]
  have h3 : parseComment x cur ('\'' :: t) = .ok none := by
    simp [parseComment, Ne.symm hcom]
  have h4 : parseBoolean x cur ('\'' :: t) = .ok none := by
    have e2 : Char.toLower '\'' = '\'' := by decide
    simp [parseBoolean, lowerText, e2]
  have h5 : lexBin x cur ('\'' :: t) = .ok none :=
    literal_zero (basedLen_quote _ _ '0' (by decide) (by decide) t)
  have h6 : lexOct x cur ('\'' :: t) = .ok none :=
    literal_zero (basedLen_quote _ _ '0' (by decide) (by decide) t)
  have h7 : lexHex x cur ('\'' :: t) = .ok none :=
    literal_zero (basedLen_quote _ _ '0' (by decide) (by decide) t)
  have h8 : lexArb x cur ('\'' :: t) = .ok none := literal_zero (arbLen_quote t)
  have h9 : lexExp x cur ('\'' :: t) = .ok none :=
    literal_zero (by simp [expLen, decimalLen_quote])
  have h10 : lexPercent x cur ('\'' :: t) = .ok none :=
    literal_zero (by simp [percentLen, decimalLen_quote])
  have h11 : lexNumber x cur ('\'' :: t) = .ok none := literal_zero (decimalLen_quote t)
  have h12 := noOp_quote x hops cur t
  have h13 : parseString x cur ('\'' :: t)
      = .ok (some (.leaf .str (quoted '\'' '\\' s), (quoted '\'' '\\' s).length)) := by
    simp [parseString, hr, hp]
  have e : (shippedCfg x funcs inc).parsers = shippedParsers x := rfl
  rw [e]
  simp [shippedParsers, tryParsers, runParser, h1, h2, h3, h4, h5, h6, h7, h8, h9, h10, h11, h12,
    h13, nothing, quoted]

/-- **C22**, whole expressions: for every string, the expression that is its literal parses, with
the shipped parsers, to one statement with one string item, and reading the text of that item
gives the string. -/
theorem C22_expression (x : Lex) (funcs : List Text) (inc : List Parse.Item → Bool)
    (hsym : x.strSym = '\'') (hesc : x.escChar = '\\') (hcom : x.commentSym ≠ '\'')
    (hops : ∀ op ∈ x.ops, op ≠ [] ∧ op.head? ≠ some '\'') (fl : Flags) (s : Text) (m : Cache)
    (bound : ℕ) :
    parse (shippedCfg x funcs inc) (bound + 1) fl (quoted '\'' '\\' s) m
      = some (.ok ([[.leaf .str (quoted '\'' '\\' s)]], (quoted '\'' '\\' s).length, none), m) ∧
    readString x (quoted '\'' '\\' s) = .ok (some (s, (quoted '\'' '\\' s).length)) := by
  constructor
  · have ht := turn_string x funcs inc hsym hesc hcom hops (parse (shippedCfg x funcs inc) bound)
      fl [] [] s [] m
    rw [List.append_nil] at ht
    have hpos : (quoted '\'' '\\' s).length ≠ 0 := by simp [quoted]
    have hne : quoted '\'' '\\' s ≠ [] := by simp [quoted]
    have hdrop : (quoted '\'' '\\' s).drop (quoted '\'' '\\' s).length = [] := by simp
    unfold parse
    generalize quoted '\'' '\\' s = q at ht hpos hne hdrop
    obtain ⟨a, l, rfl⟩ := List.exists_cons_of_ne_nil hne
    simp only [List.length_cons] at hdrop ht
    simp only [List.length_cons, parseLoop, ht, hdrop, Nat.zero_add, List.nil_append]
    simp
  · have hr := C22_string x (by rw [hsym, hesc]; decide) s []
    rwa [List.append_nil, hsym, hesc] at hr

/-- The hypotheses hold of the shipped operators and symbols. -/
example (fl : Flags) (s : Text) (m : Cache) :=
  C22_expression demoLex ["max".toList] (incomplete shippedOps) rfl rfl (by decide)
    (by decide +kernel) fl s m 0

/-! ### C23 -/

/-- **C23**: whenever highlighting gives fragments, they concatenate to the text: for every text
and every tree of items, also items that are not in the text. -/
theorem C23_highlight (cat : Kind → String) (text : Text) (items : List Parse.Item)
    (frags : List Frag) (h : highlight cat text items = some frags) :
    frags.flatMap Prod.snd = text := by
  have := highlightFrom_text text items 0 frags (Nat.zero_le _) h
  simpa [fragText] using this

/-- **C23** for statements. -/
theorem C23_statements (cat : Kind → String) : ∀ (st : List (List Parse.Item))
    (frags : List (List Frag)), highlightStatements cat st = some frags →
    frags.map (fun fs => fs.flatMap Prod.snd) = st.map itemsText
  | [], frags, h => by
    simp only [highlightStatements, List.mapM_nil, Option.pure_def, Option.some.injEq] at h
    subst h
    rfl
  | items :: st, frags, h => by
    simp only [highlightStatements, List.mapM_cons, Option.pure_def, Option.bind_eq_bind,
      Option.bind_eq_some_iff, Option.some.injEq] at h
    obtain ⟨a, ha, b, hb, rfl⟩ := h
    have := C23_statements cat st b hb
    simp only [List.map_cons, this, C23_highlight cat _ _ _ ha]

/-- **C23** for what was parsed: highlighting does not fail, and there is exactly one fragment
for each item without items inside, with its category and its text. -/
theorem C23_parsed {c : Cfg} (hc : Ok c) (cat : Kind → String) {ignore : Bool} {text : Text}
    {bound : ℕ} {s s' : Cache} {st : List (List Parse.Item)} {n : ℕ} {w : Option Stop}
    (h : parse c bound (topFlags ignore) text s = some (.ok (st, n, w), s'))
    {items : List Parse.Item} (hi : items ∈ st) :
    highlight cat (itemsText items) items
      = some ((leavesOf items).map (fun y => (cat y.1, y.2))) := by
  have hw := C19_nested hc h
  have := highlightFrom_covers (cat := cat) items []
    (fun it hit => hw it (List.mem_flatten.2 ⟨items, hi, hit⟩))
  simpa [highlight] using this

/-! ### C25 -/

/-- The texts of the items of every statement, or the message of the parsing error. -/
def shownParse (text : String) (s : Cache) : Option (List (List String) ⊕ String) :=
  match parse demoCfg (text.toList.length + 1) {} text.toList s with
  | some (.ok (st, _, _), _) => some (.inl (st.map (·.map (fun it => String.ofList it.text))))
  | some (.error (.parsing m _ _), _) => some (.inr m)
  | _ => none

/-- The remembered line after parsing. -/
def cacheAfter (text : String) (s : Cache) : Cache :=
  match parse demoCfg (text.toList.length + 1) {} text.toList s with
  | some (_, s') => s'
  | none => none

/-- **C25** does not hold: `3%⏎4` is two statements on a fresh calculator, and a parsing error
after `3 %⏎4`. -/
theorem C25_violation :
    shownParse "3%\n4" none = some (.inl [["3%", "\n"], ["4"]]) ∧
    shownParse "3%\n4" (cacheAfter "3 %\n4" none) = some (.inr "Could not parse: 4") := by
  constructor <;> decide +kernel

/-- C25_history_partial is about cases such as this: after `1 +⏎2`, the expression `3⏎4`. -/
example : cacheAfter "1 +\n2" none = some "1+".toList ∧
    ¬ ("1+".toList).Sublist "3\n4".toList ∧
    shownParse "3\n4" (cacheAfter "1 +\n2" none) = some (.inl [["3", "\n"], ["4"]]) := by
  refine ⟨?_, ?_, ?_⟩ <;> decide +kernel

/-! ### Cases of C19, C20, C23 and C24 -/

example : shownParse "1 + max(2, [3])\nx = (5 + 'a')" none = some (.inl
    [["1", " ", "+", " ", "max(2, [3])", "\n"], ["x", " ", "=", " ", "(5 + 'a')"]]) := by
  decide +kernel

/-- What a parsing error says: message, texts of the items, the rest, and the position. -/
def shownError (text : String) : Option (String × List String × String × Option ℕ) :=
  match parse demoCfg (text.toList.length + 1) {} text.toList none with
  | some (.error (.parsing m st nx), _) =>
    some (m, st.flatten.map (fun it => String.ofList it.text), String.ofList nx,
      findPos text.toList st.flatten (some nx))
  | _ => none

example : shownError "1 + (2 * [3, max(4, $)])" = some ("Could not parse: $)])",
    ["1", " ", "+", " ", "(2 * [3, max(4, "], "$)])", some 20) := by
  decide +kernel

/-- The exception of a conversion in `C20_outcome`: a digit too large for its base. -/
example : (match parse demoCfg 6 {} "10zab".toList none with
    | some (.error (.py _), _) => true
    | _ => false) = true := by decide +kernel

/-- A case of `C24_execution`: spaces and comments do not move the position. -/
example : executionPos "1\n2 + x * 3".toList [[.leaf .num ['1'], .leaf .terminator ['\n']]]
    (restoreItems false 2 [.leaf .num ['2'], .leaf .space [' '], .leaf .op ['+'], .leaf .space [' '],
        .leaf .var ['x'], .leaf .space [' '], .leaf .op ['*'], .leaf .space [' '], .leaf .num ['3']]
      [.leaf .num ['2'], .leaf .space [' '], .leaf .op ['+'], .leaf .space [' '],
        .leaf .var ['x'], .leaf .space [' '], .leaf .op ['*'], .leaf .space [' '], .leaf .num ['3']])
    (some ['x']) = some 6 := by decide +kernel

end MC.Props
