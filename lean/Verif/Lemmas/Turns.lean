import Verif.Lemmas.UnitLex
import Verif.Lemmas.Number
import Verif.Spec.Written
import Mathlib.Data.List.TakeWhile

/-!
# One turn of the parser loop, for each kind of item
-/

namespace MC.Parse
open MC.Props MC.Unit.Table MC.Parse.Spec

/-- The symbols of the calculator that the parsers of this file rely on. -/
structure SymbolsOk (x : Lex) : Prop where
  alpha : ∀ c, c.toNat < 128 → x.alpha c = isLetter c
  word : ∀ c, c.toNat < 128 → x.word c = asciiWord c
  strSym : x.strSym = '\''
  escChar : x.escChar = '\\'
  commentSym : x.commentSym = '#'
  /-- no operator is empty or starts with a digit or one of these characters -/
  opHead : ∀ op ∈ x.ops, ∃ a t, op = a :: t ∧ a.toNat < 128 ∧ a.isDigit = false ∧
    isSpaceChar a = false ∧ a ∉ ['#', '\'', '@', '(', ')', ',', '{', '}', '_', '[', ']', '.']
  /-- an operator that starts with a letter is made of letters, digits and underscores -/
  opWord : ∀ op ∈ x.ops, ∀ a, op.head? = some a → isLetter a = true → op.all asciiWord = true
  /-- no operator has a space, a bracket, a comma or a quote in it -/
  opChars : ∀ op ∈ x.ops, ∀ c ∈ op, c ∉ [' ', '(', ')', ',', '\'']
  /-- no operator starts with a truth value, and none that starts with `-` has a digit next -/
  opBool : ∀ op ∈ x.ops, ¬ "true".toList <+: lowerText op ∧ ¬ "false".toList <+: lowerText op
  opMinus : ∀ op ∈ x.ops, ∀ c t, op = '-' :: c :: t → c.isDigit = false
  /-- operators that start like a unit contain no separator -/
  opSep : ∀ op ∈ x.ops, op = [] ∨ (∃ a t, op = a :: t ∧ plain a = false) ∨ ∀ c ∈ op, sep c = false
  symbols : x.unitSymbolsEnabled = true
  /-- the names of systems and number types are words -/
  words : ∀ y ∈ x.systems ++ x.numTypes, ∀ c ∈ y, asciiWord c = true
  wordHead : ∀ y ∈ x.systems ++ x.numTypes, ∃ c s, y = c :: s ∧ isLetter c = true
  /-- no unit starts with one of these characters -/
  unitHead : ∀ u ∈ x.unitNames ++ x.unitSymbols, ∀ c, u.head? = some c → c ∉ ['[', ']', '.', ',']
  noConst : ([] : Text) ∉ x.constants

/-- None of the parsers of numbers reads anything. -/
structure NoNumber (x : Lex) (cur : List Item) (next : Text) : Prop where
  bin : lexBin x cur next = .ok none
  oct : lexOct x cur next = .ok none
  hex : lexHex x cur next = .ok none
  arb : lexArb x cur next = .ok none
  exp : lexExp x cur next = .ok none
  percent : lexPercent x cur next = .ok none
  num : lexNumber x cur next = .ok none

theorem noNumber_of_not_allowed (x : Lex) {cur : List Item} (h : numberAllowed cur = false)
    (next : Text) : NoNumber x cur next := by
  constructor <;>
    simp [lexBin, lexOct, lexHex, lexArb, lexExp, lexPercent, lexNumber, literal, h]

theorem digitsLen_zero {ok : Char → Bool} {s : Text} (h : ∀ c, s.head? = some c → ok c = false) :
    digitsLen ok s = 0 := by
  cases s with
  | nil => simp [digitsLen]
  | cons a t => simp [digitsLen, h a rfl]

/-- There is no number where, after an optional minus sign, there is no digit. -/
theorem noNumber_of_head (x : Lex) (cur : List Item) {next : Text}
    (h : ∀ c, (next.drop (signLen next)).head? = some c → c.isDigit = false) :
    NoNumber x cur next := by
  have hd : decimalLen next = 0 := by
    simp [decimalLen, digitsLen_zero h]
  have hb : ∀ (pre : Text) (ok : Char → Bool), pre.head? = some '0' → basedLen pre ok next = 0 := by
    intro pre ok hp
    cases pre with
    | nil => simp at hp
    | cons a p =>
      simp only [List.head?_cons, Option.some.injEq] at hp
      subst hp
      unfold basedLen
      rw [if_neg]
      intro hpre
      cases hs : next.drop (signLen next) with
      | nil => rw [hs] at hpre; simp [lowerText] at hpre
      | cons c t =>
        rw [hs] at hpre
        simp only [lowerText, List.map_cons, List.isPrefixOf_cons_cons, Bool.and_eq_true,
          beq_iff_eq] at hpre
        have h1 := isDigit_lower c
        rw [← hpre.1, h c (by rw [hs]; rfl)] at h1
        exact absurd h1 (by decide)
  have ha : arbLen next = 0 := by
    unfold arbLen
    cases hs : next.drop (signLen next) with
    | nil => simp [lowerText]
    | cons c t =>
      have := h c (by rw [hs]; rfl)
      simp [lowerText, isDigit_lower, this]
  exact ⟨literal_zero (hb _ _ (by decide)), literal_zero (hb _ _ (by decide)),
    literal_zero (hb _ _ (by decide)), literal_zero ha, literal_zero (by simp [expLen, hd]),
    literal_zero (by simp [percentLen, hd]), literal_zero hd⟩

/-- What may follow a decimal literal. -/
def NumEnds (rest : Text) : Prop :=
  ∀ c, rest.head? = some c → c.isDigit = false ∧
    (c = '.' → ∀ d, rest.tail.head? = some d → d.isDigit = false) ∧ c ≠ '%' ∧
    c.toLower ∉ ['e', 'z', 'b', 'o', 'x']

theorem takeWhile_all {p : Char → Bool} {a rest : Text} (h : ∀ c ∈ a, p c = true)
    (hr : ∀ c, rest.head? = some c → p c = false) : (a ++ rest).takeWhile p = a := by
  rw [takeWhile_sep hr]
  induction a with
  | nil => rfl
  | cons b t ih =>
    rw [List.takeWhile_cons, h b (by simp), if_pos rfl, ih (fun c hc => h c (by simp [hc]))]

section
variable {ip fp rest : Text} (h1 : ip ≠ []) (h2 : ∀ c ∈ ip, c.isDigit = true)
  (h3 : fp = [] ∨ ∃ f, fp = '.' :: f ∧ f ≠ [] ∧ ∀ c ∈ f, c.isDigit = true) (hr : NumEnds rest)
include h1 h2 h3 hr

omit h1 h2 in
theorem head_nodigit : ∀ c, (fp ++ rest).head? = some c → c.isDigit = false := by
  intro c hc
  rcases h3 with rfl | ⟨f, rfl, _⟩
  · exact (hr c hc).1
  · simp only [List.cons_append, List.head?_cons, Option.some.injEq] at hc
    subst hc
    decide

theorem digitsLen_literal : digitsLen Char.isDigit (ip ++ fp ++ rest) = (ip ++ fp).length := by
  have e : (ip ++ fp ++ rest).takeWhile Char.isDigit = ip := by
    rw [List.append_assoc]
    exact takeWhile_all h2 (head_nodigit h3 hr)
  have hl : ip.length ≠ 0 := by simpa using h1
  unfold digitsLen
  simp only [e, hl, if_false]
  have hd : (ip ++ fp ++ rest).drop ip.length = fp ++ rest := by
    rw [List.append_assoc]
    exact List.drop_left
  rw [hd]
  rcases h3 with rfl | ⟨f, rfl, hf, hfd⟩
  · simp only [List.nil_append, List.append_nil]
    split
    · rename_i r
      have : r.takeWhile Char.isDigit = [] := by
        cases r with
        | nil => rfl
        | cons d r => rw [List.takeWhile_cons, (hr '.' rfl).2.1 rfl d rfl]; rfl
      simp [this]
    · rfl
  · have e2 : (f ++ rest).takeWhile Char.isDigit = f := takeWhile_all hfd (fun c hc => (hr c hc).1)
    have hl2 : f.length ≠ 0 := by simpa using hf
    simp only [List.cons_append, e2, hl2, if_false, List.length_append, List.length_cons]
    omega

theorem second_ne {c : Char} (hc : c.isDigit = false) (hdot : c ≠ '.')
    (hch : c ∈ ['e', 'z', 'b', 'o', 'x']) :
    ∀ d, (ip ++ fp ++ rest).tail.head? = some d → d.toLower ≠ c := by
  intro d hd e
  cases ip with
  | nil => exact h1 rfl
  | cons a t =>
    simp only [List.cons_append, List.tail_cons] at hd
    cases t with
    | cons b t =>
      simp only [List.cons_append, List.head?_cons, Option.some.injEq] at hd
      have := h2 b (by simp)
      rw [hd, ← isDigit_lower, e, hc] at this
      cases this
    | nil =>
      simp only [List.nil_append] at hd
      rcases h3 with rfl | ⟨f, rfl, _⟩
      · exact (hr d hd).2.2.2 (by rw [e]; exact hch)
      · simp only [List.cons_append, List.head?_cons, Option.some.injEq] at hd
        subst hd
        exact hdot (by rw [← e]; decide)

end

theorem basedLen_literal {sign ip fp rest : Text} (hs : sign = [] ∨ sign = ['-']) (h1 : ip ≠ [])
    (h2 : ∀ c ∈ ip, c.isDigit = true)
    (h3 : fp = [] ∨ ∃ f, fp = '.' :: f ∧ f ≠ [] ∧ ∀ c ∈ f, c.isDigit = true) (hr : NumEnds rest)
    (ok : Char → Bool) {c : Char} (hc : c.isDigit = false) (hdot : c ≠ '.')
    (hch : c ∈ ['e', 'z', 'b', 'o', 'x']) (hsl : (sign ++ (ip ++ fp ++ rest)).drop
      (signLen (sign ++ (ip ++ fp ++ rest))) = ip ++ fp ++ rest) :
    basedLen ['0', c] ok (sign ++ (ip ++ fp ++ rest)) = 0 := by
  have := second_ne h1 h2 h3 hr hc hdot hch
  unfold basedLen
  rw [hsl, if_neg]
  intro hp
  cases hq : ip ++ fp ++ rest with
  | nil => rw [hq] at hp; simp [lowerText] at hp
  | cons a t =>
    rw [hq] at hp this
    cases t with
    | nil => simp [lowerText] at hp
    | cons b t =>
      simp only [lowerText, List.map_cons, List.isPrefixOf_cons_cons, Bool.and_eq_true, beq_iff_eq] at hp
      exact this b rfl hp.2.1.symm

theorem signLen_literal {sign ip r : Text} (hs : sign = [] ∨ sign = ['-']) (h1 : ip ≠ [])
    (h2 : ∀ c ∈ ip, c.isDigit = true) : signLen (sign ++ (ip ++ r)) = sign.length := by
  rcases hs with rfl | rfl
  · cases ip with
    | nil => exact absurd rfl h1
    | cons a t =>
      have := h2 a (by simp)
      have hne : a ≠ '-' := by rintro rfl; exact absurd this (by decide)
      simp [signLen, hne]
  · simp [signLen]

theorem parseDecimal_ok (p : ℕ) (t : Text) : always (parseDecimal p t) = .ok true := by
  unfold parseDecimal
  split
  · rename_i neg ip fp _
    obtain ⟨r, hr⟩ := (MC.Number.mk'_ok_iff (p := p) (n := decimalOf neg ip fp) (d := 1)).2 one_ne_zero
    rw [hr]
    rfl
  · rfl

theorem literal_head {t : Text} (h : IsLiteral t) :
    ∃ a s, t = a :: s ∧ (a = '-' ∨ a.isDigit = true) := by
  obtain ⟨sign, ip, fp, rfl, hs, h1, h2, _⟩ := h
  rcases hs with rfl | rfl
  · cases ip with
    | nil => exact absurd rfl h1
    | cons a t => exact ⟨a, _, rfl, .inr (h2 a (by simp))⟩
  · exact ⟨'-', _, rfl, .inl rfl⟩

/-- The parsers of numbers at a decimal literal. -/
theorem lex_literal (x : Lex) {cur : List Item} (ha : numberAllowed cur = true) {t rest : Text}
    (ht : IsLiteral t) (hr : NumEnds rest) :
    lexBin x cur (t ++ rest) = .ok none ∧ lexOct x cur (t ++ rest) = .ok none ∧
    lexHex x cur (t ++ rest) = .ok none ∧ lexArb x cur (t ++ rest) = .ok none ∧
    lexExp x cur (t ++ rest) = .ok none ∧ lexPercent x cur (t ++ rest) = .ok none ∧
    lexNumber x cur (t ++ rest) = .ok (some (.leaf .num t, t.length)) := by
  have hpos : t.length ≠ 0 := by
    obtain ⟨a, s, e, _⟩ := literal_head ht
    rw [e]; simp
  obtain ⟨sign, ip, fp, e, hs, h1, h2, h3⟩ := ht
  have e1 : t ++ rest = sign ++ (ip ++ fp ++ rest) := by rw [e]; simp
  have hsl : signLen (t ++ rest) = sign.length := by
    rw [e1, List.append_assoc ip]
    exact signLen_literal hs h1 h2
  have hdrop : (t ++ rest).drop (signLen (t ++ rest)) = ip ++ fp ++ rest := by
    rw [hsl, e1]; exact List.drop_left
  have hdl := digitsLen_literal h1 h2 h3 hr
  have hlen : sign.length + (ip ++ fp).length = t.length := by
    rw [e]; simp only [List.length_append]; omega
  have hne : (ip ++ fp).length ≠ 0 := by
    cases ip with
    | nil => exact absurd rfl h1
    | cons a t => simp
  have hdec : decimalLen (t ++ rest) = t.length := by
    unfold decimalLen
    rw [hdrop, hdl]
    simp only [hne, if_false, hsl, hlen]
  have hb : ∀ (c : Char) (ok : Char → Bool), c.isDigit = false → c ≠ '.' →
      c ∈ ['e', 'z', 'b', 'o', 'x'] → basedLen ['0', c] ok (t ++ rest) = 0 := by
    intro c ok hc hdot hch
    have := basedLen_literal hs h1 h2 h3 hr ok hc hdot hch (by rw [← e1, hdrop])
    rwa [← e1] at this
  have harb : arbLen (t ++ rest) = 0 := by
    unfold arbLen
    rw [hdrop]
    have el : ∀ s : Text, (lowerText s).takeWhile Char.isDigit = lowerText (s.takeWhile Char.isDigit) := by
      intro s
      induction s with
      | nil => rfl
      | cons a t ih =>
        simp only [lowerText, List.map_cons, List.takeWhile_cons, isDigit_lower] at *
        by_cases h : a.isDigit = true
        · simp [h, ih]
        · simp [h]
    have e2 : (ip ++ fp ++ rest).takeWhile Char.isDigit = ip := by
      rw [List.append_assoc]
      exact takeWhile_all h2 (head_nodigit h3 hr)
    have e3 : (lowerText ip).length = ip.length := by simp [lowerText]
    have hl : ip.length ≠ 0 := by simpa using h1
    simp only [el, e2, e3, hl, if_false]
    have e4 : (lowerText (ip ++ fp ++ rest)).drop ip.length = lowerText (fp ++ rest) := by
      unfold lowerText
      rw [← List.map_drop, List.append_assoc, List.drop_left]
    rw [e4]
    split
    · rename_i r heq
      exfalso
      rcases h3 with rfl | ⟨f, rfl, _⟩
      · cases rest with
        | nil => simp [lowerText] at heq
        | cons d r' =>
          simp only [lowerText, List.nil_append, List.map_cons, List.cons.injEq] at heq
          exact (hr d rfl).2.2.2 (by rw [heq.1]; decide)
      · simp only [lowerText, List.cons_append, List.map_cons, List.cons.injEq] at heq
        exact absurd heq.1 (by decide)
    · rfl
  have hdr : (t ++ rest).drop t.length = rest := List.drop_left
  refine ⟨literal_zero (hb 'b' _ (by decide) (by decide) (by decide)),
    literal_zero (hb 'o' _ (by decide) (by decide) (by decide)),
    literal_zero (hb 'x' _ (by decide) (by decide) (by decide)), literal_zero harb,
    literal_zero ?_, literal_zero ?_, ?_⟩
  · unfold expLen
    simp only [hdec, hpos, if_false, hdr]
    cases rest with
    | nil => rfl
    | cons d r =>
      have : d.toLower ≠ 'e' := fun h => (hr d rfl).2.2.2 (by rw [h]; decide)
      simp [this]
  · unfold percentLen
    simp only [hdec, hpos, if_false, hdr]
    split
    · exact absurd rfl (hr '%' rfl).2.2.1
    · rfl
  · unfold lexNumber literal
    simp only [ha, if_true, hdec, hpos, if_false, parseDecimal_ok]
    unfold leafOf
    simp [hpos]

section Turn
variable {x : Lex} (hx : SymbolsOk x) (funcs : List Text) (inc : List Item → Bool) (rec : ParseFn)
  (fl : Flags) (done : List (List Item)) (cur : List Item) (m : Cache)

/-- The parsers before that of operators read nothing. -/
theorem skip_first {a : Char} {t : Text} (h1 : a ≠ '\n' ∨ fl.ignoreTerm = true)
    (h2 : isSpaceChar a = false) (h3 : a ≠ x.commentSym)
    (hb : parseBoolean x cur (a :: t) = .ok none) (hn : NoNumber x cur (a :: t)) :
    tryParsers (shippedCfg x funcs inc) rec (a :: t) fl (shippedParsers x) done cur m
      = tryParsers (shippedCfg x funcs inc) rec (a :: t) fl ((shippedParsers x).drop 11) done cur m := by
  have ht : runTerminator (shippedCfg x funcs inc) cur (a :: t) fl m = some (.ok nothing, m) := by
    unfold runTerminator
    rcases h1 with h1 | h1
    · have : starts (shippedCfg x funcs inc).termSym (a :: t) = false := by
        simp [starts, shippedCfg, List.isPrefixOf, Ne.symm h1]
      simp [this]
    · simp [h1]
  have hs : parseSpace cur (a :: t) = .ok none := by simp [parseSpace, h2, leafOf]
  have hc : parseComment x cur (a :: t) = .ok none := by simp [parseComment, h3]
  have leaf : ∀ {f : LeafParser} {ps : List Parser}, f cur (a :: t) = .ok none →
      tryParsers (shippedCfg x funcs inc) rec (a :: t) fl (.leaf f :: ps) done cur m
        = tryParsers (shippedCfg x funcs inc) rec (a :: t) fl ps done cur m := by
    intro f ps hf
    conv_lhs => unfold tryParsers
    simp [runParser, hf, nothing]
  have h0 : ∀ {ps : List Parser},
      tryParsers (shippedCfg x funcs inc) rec (a :: t) fl (.terminator :: ps) done cur m
        = tryParsers (shippedCfg x funcs inc) rec (a :: t) fl ps done cur m := by
    intro ps
    conv_lhs => unfold tryParsers
    simp [runParser, ht, nothing]
  unfold shippedParsers
  rw [h0, leaf hs, leaf hc, leaf hb, leaf hn.bin, leaf hn.oct, leaf hn.hex, leaf hn.arb,
    leaf hn.exp, leaf hn.percent, leaf hn.num]
  rfl

/-- A turn at a space. -/
theorem turn_space {c : Char} (t : Text) (h1 : c ≠ '\n' ∨ fl.ignoreTerm = true)
    (h : isSpaceChar c = true) :
    tryParsers (shippedCfg x funcs inc) rec (c :: t) fl (shippedParsers x) done cur m
      = some (.ok (.go done (cur ++ [.leaf .space [c]]) 1), m) := by
  have ht : runTerminator (shippedCfg x funcs inc) cur (c :: t) fl m = some (.ok nothing, m) := by
    unfold runTerminator
    rcases h1 with h1 | h1
    · have : starts (shippedCfg x funcs inc).termSym (c :: t) = false := by
        simp [starts, shippedCfg, List.isPrefixOf, Ne.symm h1]
      simp [this]
    · simp [h1]
  have hs : parseSpace cur (c :: t) = .ok (some (.leaf .space [c], 1)) := by
    simp [parseSpace, h, leafOf]
  simp [shippedParsers, tryParsers, runParser, ht, hs, nothing]

theorem noBool_of_head {a : Char} {t : Text} (h : isLetter a = false) :
    parseBoolean x cur (a :: t) = .ok none := by
  have h1 : a.toLower ≠ 't' := by
    intro e
    have := isLetter_lower a
    rw [e, h] at this
    exact absurd this (by decide)
  have h2 : a.toLower ≠ 'f' := by
    intro e
    have := isLetter_lower a
    rw [e, h] at this
    exact absurd this (by decide)
  unfold parseBoolean
  rw [if_neg, if_neg]
  · intro hh
    have := of_decide_eq_true ((Bool.and_eq_true _ _).mp hh).1
    simp only [List.take_succ_cons, lowerText, List.map_cons] at this
    exact h2 (List.cons.inj this).1
  · intro hh
    have := of_decide_eq_true ((Bool.and_eq_true _ _).mp hh).1
    simp only [List.take_succ_cons, lowerText, List.map_cons] at this
    exact h1 (List.cons.inj this).1

include hx

/-- A turn at a number. -/
theorem turn_num {t rest : Text} (ht : IsLiteral t) (hr : NumEnds rest)
    (ha : numberAllowed cur = true) :
    tryParsers (shippedCfg x funcs inc) rec (t ++ rest) fl (shippedParsers x) done cur m
      = some (.ok (.go done (cur ++ [.leaf .num t]) t.length), m) := by
  obtain ⟨b1, b2, b3, b4, b5, b6, b7⟩ := lex_literal x ha ht hr
  obtain ⟨a, s, e, hd⟩ := literal_head ht
  have hpos : t.length ≠ 0 := by rw [e]; simp
  have hnext : t ++ rest = a :: (s ++ rest) := by rw [e]; rfl
  rw [hnext] at b1 b2 b3 b4 b5 b6 b7 ⊢
  have hl : isLetter a = false := by
    rcases hd with rfl | hd
    · decide
    · exact ascii_cases (P := fun c => c.isDigit = true → isLetter c = false) (by decide +kernel)
        (fun c h _ hd => by
          have h2 : asciiWord c = true := by simp [asciiWord, hd]
          have := asciiWord_ascii h2
          omega) a hd
  have hsp : isSpaceChar a = false ∧ a ≠ '\n' ∧ a ≠ '#' := by
    rcases hd with rfl | hd
    · decide
    · exact ascii_cases (P := fun c => c.isDigit = true → isSpaceChar c = false ∧ c ≠ '\n' ∧ c ≠ '#')
        (by decide +kernel) (fun c h _ hd => by
          have h2 : asciiWord c = true := by simp [asciiWord, hd]
          have := asciiWord_ascii h2
          omega) a hd
  have hb := noBool_of_head (x := x) cur (t := s ++ rest) hl
  have ht : runTerminator (shippedCfg x funcs inc) cur (a :: (s ++ rest)) fl m
      = some (.ok nothing, m) := by
    unfold runTerminator
    have : starts (shippedCfg x funcs inc).termSym (a :: (s ++ rest)) = false := by
      simp [starts, shippedCfg, List.isPrefixOf, Ne.symm hsp.2.1]
    simp [this]
  have hs : parseSpace cur (a :: (s ++ rest)) = .ok none := by simp [parseSpace, hsp.1, leafOf]
  have hc : parseComment x cur (a :: (s ++ rest)) = .ok none := by
    simp [parseComment, hx.commentSym, hsp.2.2]
  simp [shippedParsers, tryParsers, runParser, ht, hs, hc, hb, b1, b2, b3, b4, b5, b6, b7, nothing]

theorem noOp_of_head {a : Char} {t : Text}
    (h : a ∈ ['#', '\'', '@', '(', ')', ',', '{', '}', '_', '[', ']', '.']) :
    parseOperator x cur (a :: t) = .ok none := by
  rcases C21_none x cur (a :: t) with ⟨op, ho⟩ | ho
  · obtain ⟨⟨hm, hp, _⟩, _⟩ := (C21_longest x cur _ op).1 ho
    obtain ⟨b, s, rfl, _, _, _, hb⟩ := hx.opHead op hm
    rw [List.cons_prefix_cons] at hp
    rw [hp.1] at hb
    exact absurd h hb
  · exact ho.1

omit hx in
theorem skip_parser {p : Parser} {ps : List Parser} {next : Text}
    (hp : runParser (shippedCfg x funcs inc) rec p cur next fl m = some (.ok nothing, m)) :
    tryParsers (shippedCfg x funcs inc) rec next fl (p :: ps) done cur m
      = tryParsers (shippedCfg x funcs inc) rec next fl ps done cur m := by
  conv_lhs => unfold tryParsers
  simp [hp, nothing]

omit hx in
theorem try_leaf {f : LeafParser} {next : Text} {ps : List Parser} (hf : f cur next = .ok none) :
    tryParsers (shippedCfg x funcs inc) rec next fl (.leaf f :: ps) done cur m
      = tryParsers (shippedCfg x funcs inc) rec next fl ps done cur m := by
  conv_lhs => unfold tryParsers
  simp [runParser, hf, nothing]

omit hx in
theorem try_found {f : LeafParser} {next : Text} {ps : List Parser} {it : Item} {n : ℕ}
    (hf : f cur next = .ok (some (it, n))) :
    tryParsers (shippedCfg x funcs inc) rec next fl (.leaf f :: ps) done cur m
      = some (.ok (.go done (cur ++ [it]) n), m) := by
  conv_lhs => unfold tryParsers
  simp [runParser, hf]

/-- The parsers of strings, pointers and functions read nothing. -/
theorem skip_second {a : Char} {t : Text} (ho : parseOperator x cur (a :: t) = .ok none)
    (h1 : a ≠ '\'') (h2 : a ≠ '@') (hc : (callName (a :: t)).filter (· ∈ funcs) = none) :
    tryParsers (shippedCfg x funcs inc) rec (a :: t) fl ((shippedParsers x).drop 11) done cur m
      = tryParsers (shippedCfg x funcs inc) rec (a :: t) fl ((shippedParsers x).drop 15) done cur m := by
  have hs : parseString x cur (a :: t) = .ok none := by
    simp [parseString, readString, hx.strSym, h1]
  have hp : (shippedCfg x funcs inc).pointerName (a :: t) = none := by
    simp only [shippedCfg]
    split
    · rename_i r heq
      simp only [List.cons.injEq] at heq
      exact absurd heq.1 h2
    · rfl
  have hf : (shippedCfg x funcs inc).funcName (a :: t) = none := hc
  have k1 : ∀ {ps : List Parser},
      tryParsers (shippedCfg x funcs inc) rec (a :: t) fl (.pointer :: ps) done cur m
        = tryParsers (shippedCfg x funcs inc) rec (a :: t) fl ps done cur m := by
    intro ps
    conv_lhs => unfold tryParsers
    simp [runParser, hp, runFunc, nothing]
  have k2 : ∀ {ps : List Parser},
      tryParsers (shippedCfg x funcs inc) rec (a :: t) fl (.func :: ps) done cur m
        = tryParsers (shippedCfg x funcs inc) rec (a :: t) fl ps done cur m := by
    intro ps
    conv_lhs => unfold tryParsers
    simp [runParser, hf, runFunc, nothing]
  unfold shippedParsers
  simp only [List.drop_succ_cons, List.drop_zero]
  rw [try_leaf _ _ _ _ _ _ _ ho, try_leaf _ _ _ _ _ _ _ hs, k1, k2]

/-- The parsers of brackets and commas read nothing. -/
theorem skip_third {a : Char} {t : Text} (h : a ∉ [',', ')', '(', '{', '}']) :
    tryParsers (shippedCfg x funcs inc) rec (a :: t) fl ((shippedParsers x).drop 15) done cur m
      = tryParsers (shippedCfg x funcs inc) rec (a :: t) fl ((shippedParsers x).drop 21) done cur m := by
  simp only [List.mem_cons, List.not_mem_nil, or_false, not_or] at h
  obtain ⟨q1, q2, q3, q4, q5⟩ := h
  have hI : runInner rec (a :: t) fl m = some (.ok nothing, m) := by
    unfold runInner
    split
    · rename_i r heq
      simp only [List.cons.injEq] at heq
      exact absurd heq.1 q3
    · rfl
  have hL : runInline rec (a :: t) fl m = some (.ok nothing, m) := by
    unfold runInline
    split
    · rename_i r heq
      simp only [List.cons.injEq] at heq
      exact absurd heq.1 q4
    · rfl
  have step : ∀ {p : Parser} {ps : List Parser},
      runParser (shippedCfg x funcs inc) rec p cur (a :: t) fl m = some (.ok nothing, m) →
      tryParsers (shippedCfg x funcs inc) rec (a :: t) fl (p :: ps) done cur m
        = tryParsers (shippedCfg x funcs inc) rec (a :: t) fl ps done cur m := by
    intro p ps hp
    conv_lhs => unfold tryParsers
    simp [hp, nothing]
  unfold shippedParsers
  simp only [List.drop_succ_cons, List.drop_zero]
  rw [step (p := .funcParam) (by simp [runParser, starts, List.isPrefixOf, Ne.symm q1, stopIf]),
    step (p := .funcEnd) (by simp [runParser, starts, List.isPrefixOf, Ne.symm q2, stopIf]),
    step (p := .inner) (by simp [runParser, hI]),
    step (p := .innerEnd) (by simp [runParser, runEnd, starts, List.isPrefixOf, Ne.symm q2]),
    step (p := .inline) (by simp [runParser, hL]),
    step (p := .inlineEnd) (by simp [runParser, runEnd, starts, List.isPrefixOf, Ne.symm q5])]

/-- Nothing is read before the parsers of brackets and commas. -/
theorem skip_bracket {a : Char} {t : Text} (ha : a ∈ ['(', ')', ',', '{', '}']) :
    tryParsers (shippedCfg x funcs inc) rec (a :: t) fl (shippedParsers x) done cur m
      = tryParsers (shippedCfg x funcs inc) rec (a :: t) fl ((shippedParsers x).drop 15) done cur m := by
  have hn : NoNumber x cur (a :: t) := by
    apply noNumber_of_head
    have : a ≠ '-' ∧ a.isDigit = false := by revert ha; simp only [List.mem_cons, List.not_mem_nil, or_false]; rintro (rfl | rfl | rfl | rfl | rfl) <;> decide
    intro c hc
    simp only [signLen, List.head?_cons, Option.some.injEq, this.1, if_false, List.drop_zero] at hc
    rw [← hc]
    exact this.2
  have hl : isLetter a = false ∧ a ≠ '\n' ∧ isSpaceChar a = false ∧ a ≠ '#' ∧ a ≠ '\'' ∧ a ≠ '@' ∧
      a ≠ '_' ∧ a ∈ ['#', '\'', '@', '(', ')', ',', '{', '}', '_', '[', ']', '.'] := by
    revert ha; simp only [List.mem_cons, List.not_mem_nil, or_false]; rintro (rfl | rfl | rfl | rfl | rfl) <;> decide
  obtain ⟨r1, r2, r3, r4, r5, r6, r7, r8⟩ := hl
  rw [skip_first funcs inc rec fl done cur m (.inl r2) r3 (by rw [hx.commentSym]; exact r4)
    (noBool_of_head cur r1) hn,
    skip_second hx funcs inc rec fl done cur m (noOp_of_head hx cur r8) r5 r6 (by
      simp [callName, nameLen, r1, r7])]

/-- A turn at an opening bracket. -/
theorem turn_open (t : Text) {its : List Item} {len : ℕ}
    (hrec : rec { fl with inner := true, ignoreTerm := true } t m
      = some (.ok ([its], len, some .innerEnd), m)) :
    tryParsers (shippedCfg x funcs inc) rec ('(' :: t) fl (shippedParsers x) done cur m
      = some (.ok (.go done (cur ++ [.nest .inner (('(' :: t).take (len + 2))
          (.leaf .innerStart ['('] :: its)]) (len + 2)), m) := by
  rw [skip_bracket hx funcs inc rec fl done cur m (by decide)]
  simp [shippedParsers, tryParsers, runParser, starts, stopIf, nothing, runInner, hrec]

/-- A turn at the closing bracket of an inner expression. -/
theorem turn_close (t : Text) (hi : fl.inner = true) :
    tryParsers (shippedCfg x funcs inc) rec (')' :: t) fl (shippedParsers x) done cur m
      = some (.ok (.ret (done ++ [cur ++ [.leaf .innerEnd [')']]]) 0 .innerEnd), m) := by
  rw [skip_bracket hx funcs inc rec fl done cur m (by decide)]
  simp [shippedParsers, tryParsers, runParser, starts, stopIf, nothing, runInner, runEnd, hi]

/-- A turn at the closing bracket of a function. -/
theorem turn_funcEnd (t : Text) (hf : fl.func = true) (hi : fl.inner = false) :
    tryParsers (shippedCfg x funcs inc) rec (')' :: t) fl (shippedParsers x) done cur m
      = some (.ok (.ret (done ++ [cur]) 0 .funcEnd), m) := by
  rw [skip_bracket hx funcs inc rec fl done cur m (by decide)]
  simp [shippedParsers, tryParsers, runParser, starts, stopIf, nothing, hf, hi]

/-- A turn at a comma in a function. -/
theorem turn_comma (t : Text) (hf : fl.func = true) :
    tryParsers (shippedCfg x funcs inc) rec (',' :: t) fl (shippedParsers x) done cur m
      = some (.ok (.ret (done ++ [cur]) 0 .funcParam), m) := by
  rw [skip_bracket hx funcs inc rec fl done cur m (by decide)]
  simp [shippedParsers, tryParsers, runParser, starts, stopIf, hf]

/-- A turn at an inline function. -/
theorem turn_brace (t : Text) {st : List (List Item)} {len : ℕ}
    (hrec : rec { fl with inline := true } t m = some (.ok (st, len, some .inlineEnd), m)) :
    tryParsers (shippedCfg x funcs inc) rec ('{' :: t) fl (shippedParsers x) done cur m
      = some (.ok (.go done (cur ++ [.nest .inline (('{' :: t).take (len + 2))
          (.leaf .inlineStart ['{'] :: st.flatten)]) (len + 2)), m) := by
  rw [skip_bracket hx funcs inc rec fl done cur m (by decide)]
  simp [shippedParsers, tryParsers, runParser, starts, stopIf, nothing, runInner, runEnd, runInline, hrec]

/-- A turn at the closing brace of an inline function. -/
theorem turn_inlineEnd (t : Text) (hi : fl.inline = true) :
    tryParsers (shippedCfg x funcs inc) rec ('}' :: t) fl (shippedParsers x) done cur m
      = some (.ok (.ret (done ++ [cur ++ [.leaf .inlineEnd ['}']]]) 0 .inlineEnd), m) := by
  rw [skip_bracket hx funcs inc rec fl done cur m (by decide)]
  simp [shippedParsers, tryParsers, runParser, starts, stopIf, nothing, runInner, runEnd, runInline, hi]

/-- A word ends here: nothing follows, or an ASCII character that is no letter, digit or
underscore. -/
def EndsWord (rest : Text) : Prop :=
  ∀ c, rest.head? = some c → c.toNat < 128 ∧ asciiWord c = false

omit hx in
theorem prefix_word {p a rest : Text} (hp : ∀ c ∈ p, asciiWord c = true) (hr : EndsWord rest)
    (h : p <+: a ++ rest) : p <+: a := by
  rcases le_total p.length a.length with hl | hl
  · exact List.prefix_of_prefix_length_le h (List.prefix_append _ _) hl
  · obtain ⟨t, ht⟩ := List.prefix_of_prefix_length_le (List.prefix_append a rest) h hl
    cases t with
    | nil => rw [← ht]; simp
    | cons c t =>
      obtain ⟨u, hu⟩ := h
      rw [← ht, List.append_assoc, List.append_cancel_left_eq] at hu
      have h1 := (hr c (by rw [← hu]; rfl)).2
      have h2 := hp c (by rw [← ht]; simp)
      rw [h1] at h2
      cases h2

omit hx in
theorem lower_of_nonword {c : Char} (h : asciiWord c = false) : c.toLower = c :=
  ascii_cases (P := fun c => asciiWord c = false → c.toLower = c) (by decide +kernel)
    (fun _ _ h _ => h) c h

omit hx in
theorem nonword_spec {c : Char} (h : asciiWord c = false) :
    isLetter c = false ∧ c.isDigit = false ∧ c ≠ '_' := by
  unfold asciiWord at h
  simp only [Bool.or_eq_false_iff, decide_eq_false_iff_not] at h
  exact ⟨h.1.1, h.1.2, h.2⟩

/-- What is needed to read an operator: it is installed, no longer operator starts here, no number
starts here, and if it is a word, the word ends. -/
structure OpHere (x : Lex) (cur : List Item) (o rest : Text) : Prop where
  mem : o ∈ x.ops
  longest : ∀ c, rest.head? = some c → ∀ o' ∈ x.ops, ¬ (o ++ [c]) <+: o'
  noNum : numberAllowed cur = false ∨ ∀ c s, o ++ rest = '-' :: c :: s → c.isDigit = false
  word : (∃ a, o.head? = some a ∧ isLetter a = true) → EndsWord rest
  noBool : ¬ "true".toList <+: lowerText o ∧ ¬ "false".toList <+: lowerText o

omit hx in
theorem noBool_word {w rest : Text} (hr : EndsWord rest)
    (h : ¬ "true".toList <+: lowerText w ∧ ¬ "false".toList <+: lowerText w) :
    parseBoolean x cur (w ++ rest) = .ok none := by
  have key : ∀ (v : Text) (k : ℕ), (∀ c ∈ v, asciiWord c = true) → ¬ v <+: lowerText w →
      lowerText ((w ++ rest).take k) ≠ v := by
    intro v k hv hnw e
    apply hnw
    apply prefix_word hv (rest := lowerText rest)
    · intro c hc
      cases rest with
      | nil => simp [lowerText] at hc
      | cons d r =>
        simp only [lowerText, List.map_cons, List.head?_cons, Option.some.injEq] at hc
        have hd := hr d rfl
        rw [← hc, lower_of_nonword hd.2]
        exact hd
    · rw [← e]
      unfold lowerText
      rw [← List.map_append]
      exact (List.take_prefix _ _).map _
  have h1 := key "true".toList 4 (by decide +kernel) h.1
  have h2 := key "false".toList 5 (by decide +kernel) h.2
  unfold parseBoolean
  rw [if_neg (fun h => h1 (of_decide_eq_true ((Bool.and_eq_true _ _).mp h).1)),
    if_neg (fun h => h2 (of_decide_eq_true ((Bool.and_eq_true _ _).mp h).1))]

theorem word_of_ends {rest : Text} (h : EndsWord rest) {c : Char} (hc : rest.head? = some c) :
    x.word c = false := by
  rw [hx.word c (h c hc).1]
  exact (h c hc).2

/-- A turn at an operator. -/
theorem turn_op {o rest : Text} (ho : OpHere x cur o rest) :
    tryParsers (shippedCfg x funcs inc) rec (o ++ rest) fl (shippedParsers x) done cur m
      = some (.ok (.go done (cur ++ [.leaf .op o]) o.length), m) := by
  obtain ⟨a, t, e, hasc, hdig, hsp, hch⟩ := hx.opHead o ho.mem
  have hparse : parseOperator x cur (o ++ rest) = .ok (some (.leaf .op o, o.length)) := by
    rw [C21_longest]
    refine ⟨⟨ho.mem, List.prefix_append _ _, ?_⟩, ?_⟩
    · intro _ hall ch hc
      rw [List.drop_left] at hc
      have hl : isLetter a = true := by
        rw [← hx.alpha a hasc]
        exact hall a (by rw [e]; simp)
      exact word_of_ends hx (ho.word ⟨a, by rw [e]; rfl, hl⟩) hc
    · rintro o' ⟨hm, hp, _⟩
      by_contra hlt
      push Not at hlt
      obtain ⟨u, hu⟩ := List.prefix_of_prefix_length_le (List.prefix_append o rest) hp hlt.le
      cases u with
      | nil => rw [← hu] at hlt; simp at hlt
      | cons c u =>
        have hc : rest.head? = some c := by
          obtain ⟨v, hv⟩ := hp
          rw [← hu, List.append_assoc, List.append_cancel_left_eq] at hv
          rw [← hv]; rfl
        exact ho.longest c hc o' hm ⟨u, by rw [← hu]; simp⟩
  have hb : parseBoolean x cur (o ++ rest) = .ok none := by
    cases hl : isLetter a with
    | true => exact noBool_word cur (ho.word ⟨a, by rw [e]; rfl, hl⟩) ho.noBool
    | false => rw [e]; exact noBool_of_head cur hl
  have hn : NoNumber x cur (o ++ rest) := by
    rcases ho.noNum with h | h
    · exact noNumber_of_not_allowed x h _
    · apply noNumber_of_head
      intro c hc
      by_cases ha : a = '-'
      · subst ha
        rw [e] at hc
        simp only [List.cons_append, signLen, List.head?_cons, if_true, List.drop_succ_cons,
          List.drop_zero] at hc
        cases hq : t ++ rest with
        | nil => rw [hq] at hc; cases hc
        | cons d s =>
          rw [hq] at hc
          simp only [List.head?_cons, Option.some.injEq] at hc
          subst hc
          exact h d s (by rw [e, List.cons_append, hq])
      · rw [e] at hc
        simp only [List.cons_append, signLen, List.head?_cons, Option.some.injEq, ha, if_false,
          List.drop_zero] at hc
        rw [← hc]
        exact hdig
  have hnext : o ++ rest = a :: (t ++ rest) := by rw [e]; rfl
  rw [hnext] at hparse hb hn ⊢
  have hnl : a ≠ '\n' := by rintro rfl; exact absurd hsp (by decide)
  rw [skip_first funcs inc rec fl done cur m (.inl hnl) hsp (by
    rw [hx.commentSym]; rintro rfl; exact hch (by decide)) hb hn]
  exact try_found _ _ _ _ _ _ _ hparse

/-- A turn at `true` or `false` in any letter case. -/
theorem turn_bool {t rest : Text} (ht : lowerText t = "true".toList ∨ lowerText t = "false".toList)
    (hr : EndsWord rest) :
    tryParsers (shippedCfg x funcs inc) rec (t ++ rest) fl (shippedParsers x) done cur m
      = some (.ok (.go done (cur ++ [.leaf .bool t]) t.length), m) := by
  have hlen : (lowerText t).length = t.length := by simp [lowerText]
  have hend : wordEnd x rest = true := by
    cases rest with
    | nil => rfl
    | cons c r => simp [wordEnd, word_of_ends hx hr rfl]
  have hb : parseBoolean x cur (t ++ rest) = .ok (some (.leaf .bool t, t.length)) := by
    unfold parseBoolean
    rcases ht with h | h
    · have h4 : t.length = 4 := by rw [← hlen, h]; rfl
      have e1 : (t ++ rest).take 4 = t := by rw [← h4]; simp
      have e2 : (t ++ rest).drop 4 = rest := by rw [← h4]; simp
      simp [e1, e2, h, hend, leafOf, h4]
    · have h5 : t.length = 5 := by rw [← hlen, h]; rfl
      have e1 : (t ++ rest).take 5 = t := by rw [← h5]; simp
      have e2 : (t ++ rest).drop 5 = rest := by rw [← h5]; simp
      have e3 : lowerText ((t ++ rest).take 4) ≠ "true".toList := by
        have : (t ++ rest).take 4 = t.take 4 := by
          rw [List.take_append_of_le_length (by omega)]
        rw [this]
        have : lowerText (t.take 4) = (lowerText t).take 4 := by simp [lowerText, List.map_take]
        rw [this, h]
        decide
      rw [if_neg (fun h => e3 (of_decide_eq_true ((Bool.and_eq_true _ _).mp h).1))]
      simp [e1, e2, h, hend, leafOf, h5]
  have hne : ∃ a s, t = a :: s ∧ (a.toLower = 't' ∨ a.toLower = 'f') := by
    cases t with
    | nil => rcases ht with h | h <;> simp [lowerText] at h
    | cons a s =>
      refine ⟨a, s, rfl, ?_⟩
      rcases ht with h | h
      · simp only [lowerText, List.map_cons] at h
        exact .inl (List.cons.inj h).1
      · simp only [lowerText, List.map_cons] at h
        exact .inr (List.cons.inj h).1
  obtain ⟨a, s, e, ha⟩ := hne
  have hq : isSpaceChar a = false ∧ a ≠ '\n' ∧ a ≠ '#' :=
    ascii_cases (P := fun c => (c.toLower = 't' ∨ c.toLower = 'f') →
      isSpaceChar c = false ∧ c ≠ '\n' ∧ c ≠ '#') (by decide +kernel)
      (fun c hc hl h => by
        rw [hl] at h
        rcases h with rfl | rfl <;> exact absurd hc (by decide)) a ha
  have hnext : t ++ rest = a :: (s ++ rest) := by rw [e]; rfl
  rw [hnext] at hb ⊢
  have ht : runTerminator (shippedCfg x funcs inc) cur (a :: (s ++ rest)) fl m
      = some (.ok nothing, m) := by
    unfold runTerminator
    have : starts (shippedCfg x funcs inc).termSym (a :: (s ++ rest)) = false := by
      simp [starts, shippedCfg, List.isPrefixOf, Ne.symm hq.2.1]
    simp [this]
  have hs : parseSpace cur (a :: (s ++ rest)) = .ok none := by simp [parseSpace, hq.1, leafOf]
  have hc : parseComment x cur (a :: (s ++ rest)) = .ok none := by
    simp [parseComment, hx.commentSym, hq.2.2]
  simp [shippedParsers, tryParsers, runParser, ht, hs, hc, hb, nothing]

/-- A name: a letter or underscore, then letters, digits and underscores. -/
def WholeName (w : Text) : Prop := w ≠ [] ∧ nameLen w = w.length

/-- A word that is not read as something that comes before names of constants: it is neither a
boolean nor an operator, and an operator at its start is made of letters. -/
structure Word (x : Lex) (w : Text) : Prop where
  name : WholeName w
  noBool : lowerText w ≠ "true".toList ∧ lowerText w ≠ "false".toList
  noOp : ∀ op ∈ x.ops, op <+: w → op ≠ w ∧ op.all isLetter = true

omit hx in
theorem name_chars {w : Text} (h : WholeName w) :
    (∃ a t, w = a :: t ∧ (isLetter a = true ∨ a = '_')) ∧ ∀ c ∈ w, asciiWord c = true := by
  obtain ⟨h1, h2⟩ := h
  cases w with
  | nil => exact absurd rfl h1
  | cons a t =>
    unfold nameLen at h2
    dsimp only at h2
    by_cases ha : (isLetter a || decide (a = '_')) = true
    · rw [if_pos ha] at h2
      simp only [List.length_cons] at h2
      have hall : t.takeWhile (fun c => isLetter c || c.isDigit || decide (c = '_')) = t :=
        (List.takeWhile_prefix _).eq_of_length (by omega)
      simp only [Bool.or_eq_true, decide_eq_true_eq] at ha
      refine ⟨⟨a, t, rfl, ha⟩, ?_⟩
      intro c hc
      rcases List.mem_cons.1 hc with rfl | hc
      · rcases ha with ha | ha
        · simp [asciiWord, ha]
        · simp [asciiWord, ha]
      · rw [← hall] at hc
        exact List.mem_takeWhile_imp hc
    · rw [if_neg ha] at h2
      simp at h2

omit hx in
theorem sep_of_asciiWord {c : Char} (h : asciiWord c = true) : sep c = false := by
  simp [sep, h]

/-- Whatever follows a name that is not a letter, digit or underscore: nothing before the parsers of
functions reads anything. -/
theorem word_start {w rest : Text} (hw : Word x w)
    (hr : ∀ c, rest.head? = some c → c.toNat < 128 ∧ asciiWord c = false) :
    parseBoolean x cur (w ++ rest) = .ok none ∧ NoNumber x cur (w ++ rest) ∧
      parseOperator x cur (w ++ rest) = .ok none := by
  obtain ⟨⟨a, t, e, ha⟩, hall⟩ := name_chars hw.name
  have hnext : w ++ rest = a :: (t ++ rest) := by rw [e]; rfl
  have hsplit : ∀ (v : Text) (k : ℕ), v.length = k → (∀ c ∈ v, asciiWord c = true) →
      lowerText w ≠ v → lowerText ((w ++ rest).take k) = v → wordEnd x ((w ++ rest).drop k) = false := by
    intro v k hk hv hne he
    have hle : k ≤ w.length := by
      by_contra hlt
      push Not at hlt
      have hpre : w ++ rest.take (k - w.length) = (w ++ rest).take k := by
        rw [List.take_append, List.take_of_length_le hlt.le]
      rw [← hpre] at he
      cases rest with
      | nil =>
        have := congrArg List.length he
        simp [lowerText, hk] at this
        omega
      | cons c r =>
        obtain ⟨j, hj⟩ : ∃ j, k - w.length = j + 1 := ⟨k - w.length - 1, by omega⟩
        rw [hj, List.take_succ_cons] at he
        have hc : c.toLower ∈ v := by rw [← he]; simp [lowerText]
        have := hv _ hc
        rw [asciiWord_lower, (hr c rfl).2] at this
        cases this
    have hne' : k < w.length := by
      rcases Nat.lt_or_ge k w.length with h | h
      · exact h
      · exfalso
        apply hne
        have : k = w.length := le_antisymm hle h
        rw [this] at he
        simpa using he
    rw [List.drop_append_of_le_length hle]
    cases hd : w.drop k with
    | nil =>
      have := congrArg List.length hd
      simp at this
      omega
    | cons c r =>
      have hc : c ∈ w := List.drop_subset k w (by rw [hd]; simp)
      have := hall c hc
      simp [wordEnd, hx.word c (asciiWord_ascii this), this]
  refine ⟨?_, ?_, ?_⟩
  · unfold parseBoolean
    have h1 := hsplit "true".toList 4 rfl (by decide +kernel) hw.noBool.1
    have h2 := hsplit "false".toList 5 rfl (by decide +kernel) hw.noBool.2
    rw [if_neg, if_neg]
    · intro h
      have hh := (Bool.and_eq_true _ _).mp h
      rw [h2 (of_decide_eq_true hh.1)] at hh
      exact absurd hh.2 (by decide)
    · intro h
      have hh := (Bool.and_eq_true _ _).mp h
      rw [h1 (of_decide_eq_true hh.1)] at hh
      exact absurd hh.2 (by decide)
  · apply noNumber_of_head
    have hq : a ≠ '-' ∧ a.isDigit = false := by
      rcases ha with ha | rfl
      · exact ascii_cases (P := fun c => isLetter c = true → c ≠ '-' ∧ c.isDigit = false)
          (by decide +kernel) (fun c hc _ h => by
            have := isLetter_ascii h
            omega) a ha
      · decide
    intro c hc
    rw [hnext] at hc
    simp only [signLen, List.head?_cons, Option.some.injEq, hq.1, if_false, List.drop_zero] at hc
    rw [← hc]
    exact hq.2
  · rcases C21_none x cur (w ++ rest) with ⟨op, h⟩ | h
    · exfalso
      obtain ⟨⟨hm, hp, hwe⟩, _⟩ := (C21_longest x cur _ op).1 h
      obtain ⟨b, s, eo, hb1, _, _, hb4⟩ := hx.opHead op hm
      have hba : b = a := by
        rw [eo, hnext, List.cons_prefix_cons] at hp
        exact hp.1
      have hlet : isLetter b = true := by
        rw [hba]
        rcases ha with ha | ha
        · exact ha
        · exact absurd (by rw [hba, ha]; decide) hb4
      have hal := hx.opWord op hm b (by rw [eo]; rfl) hlet
      have hle : op.length ≤ w.length := by
        by_contra hlt
        push Not at hlt
        obtain ⟨u, hu⟩ := List.prefix_of_prefix_length_le (List.prefix_append w rest) hp hlt.le
        cases u with
        | nil => rw [← hu] at hlt; simp at hlt
        | cons c u =>
          have hc : rest.head? = some c := by
            obtain ⟨v, hv⟩ := hp
            rw [← hu, List.append_assoc, List.append_cancel_left_eq] at hv
            rw [← hv]; rfl
          have hlc := List.all_eq_true.1 hal c (by rw [← hu]; simp)
          rw [(hr c hc).2] at hlc
          cases hlc
      have hpw : op <+: w := List.prefix_of_prefix_length_le hp (List.prefix_append _ _) hle
      have hlt : op.length < w.length := by
        rcases Nat.lt_or_ge op.length w.length with h | h
        · exact h
        · exfalso
          exact (hw.noOp op hm hpw).1 (hpw.eq_of_length (le_antisymm hle h))
      cases hd : w.drop op.length with
      | nil =>
        have := congrArg List.length hd
        simp at this
        omega
      | cons c r =>
        have hcw := hall c (List.drop_subset op.length w (by rw [hd]; simp))
        have := hwe (by rw [eo]; simp) (by
          intro ch hch
          have := List.all_eq_true.1 (hw.noOp op hm hpw).2 ch hch
          rw [hx.alpha ch (isLetter_ascii this)]
          exact this) c (by
            rw [List.drop_append_of_le_length hle, hd]; rfl)
        rw [hx.word c (asciiWord_ascii hcw), hcw] at this
        cases this
    · exact h.1

/-- A name that is not called ends here. -/
def EndsName (rest : Text) : Prop := EndsWord rest ∧ rest.head? ≠ some '('

omit hx in
theorem nameLen_append {w rest : Text} (h : WholeName w)
    (hr : ∀ c, rest.head? = some c → asciiWord c = false) : nameLen (w ++ rest) = w.length := by
  obtain ⟨h1, h2⟩ := h
  cases w with
  | nil => exact absurd rfl h1
  | cons a t =>
    rw [← h2]
    simp only [List.cons_append, nameLen]
    rw [takeWhile_sep (a := t) (rest := rest)]
    intro c hc
    exact hr c hc

omit hx in
theorem noCall_word {w rest : Text} (h : WholeName w) (hr : EndsName rest) :
    callName (w ++ rest) = none := by
  unfold callName
  simp only [nameLen_append h (fun c hc => (hr.1 c hc).2), List.drop_left]
  rw [if_neg]
  rintro ⟨_, hc⟩
  exact hr.2 hc

omit hx in
set_option synthInstance.maxSize 1000 in
theorem word_head {a : Char} (h : isLetter a = true ∨ a = '_') :
    isSpaceChar a = false ∧ a ≠ '\n' ∧ a ≠ '#' ∧ a ≠ '\'' ∧ a ≠ '@' ∧
      a ∉ [',', ')', '(', '{', '}'] ∧ a ≠ '[' ∧ a ≠ ']' ∧ a ≠ '.' ∧ a ≠ ',' := by
  rcases h with h | rfl
  · exact ascii_cases (P := fun a => isLetter a = true → isSpaceChar a = false ∧ a ≠ '\n' ∧ a ≠ '#' ∧
      a ≠ '\'' ∧ a ≠ '@' ∧ a ∉ [',', ')', '(', '{', '}'] ∧ a ≠ '[' ∧ a ≠ ']' ∧ a ≠ '.' ∧ a ≠ ',')
      (by decide +kernel) (fun c hc _ h => by
        have := isLetter_ascii h
        omega) a h
  · decide

/-- At a word nothing is read before the parsers of constants, units, words and names. -/
theorem skip_word {w rest : Text} (hw : Word x w) (hr : EndsName rest) :
    tryParsers (shippedCfg x funcs inc) rec (w ++ rest) fl (shippedParsers x) done cur m
      = tryParsers (shippedCfg x funcs inc) rec (w ++ rest) fl ((shippedParsers x).drop 21) done cur m := by
  obtain ⟨hb, hn, ho⟩ := word_start hx cur hw hr.1
  have hc := noCall_word hw.name hr
  obtain ⟨⟨a, t, e, ha⟩, _⟩ := name_chars hw.name
  obtain ⟨r1, r2, r3, r4, r5, r6, _⟩ := word_head ha
  have hnext : w ++ rest = a :: (t ++ rest) := by rw [e]; rfl
  rw [hnext] at hb hn ho hc ⊢
  rw [skip_first funcs inc rec fl done cur m (.inl r2) r1 (by rw [hx.commentSym]; exact r3) hb hn,
    skip_second hx funcs inc rec fl done cur m ho r4 r5 (by rw [hc]; rfl),
    skip_third hx funcs inc rec fl done cur m r6]

/-- A turn at a constant. -/
theorem turn_const {w rest : Text} (hw : Word x w) (hl : w.all isLetter = true)
    (hm : w ∈ x.constants) (hr : EndsName rest) :
    tryParsers (shippedCfg x funcs inc) rec (w ++ rest) fl (shippedParsers x) done cur m
      = some (.ok (.go done (cur ++ [.leaf .constant w]) w.length), m) := by
  rw [skip_word hx funcs inc rec fl done cur m hw hr]
  have hpos : w.length ≠ 0 := by
    have := hw.name.1
    simpa using this
  apply try_found
  unfold parseConstant
  have e : (w ++ rest).takeWhile isLetter = w :=
    takeWhile_all (List.all_eq_true.1 hl) (fun c hc => (nonword_spec (hr.1 c hc).2).1)
  simp [e, hm, leafOf, hpos]

/-- What is needed of a word to be read as a variable: none of the words that are tried before
variables is at its start.  A constant is the whole first run of letters; a unit ends before
anything but a letter or an underscore; a system or a type ends before anything but a letter. -/
structure VarHere (x : Lex) (w rest : Text) : Prop where
  word : Word x w
  noConst : w.takeWhile isLetter ∉ x.constants
  noUnit : ∀ k, 0 < k → k ≤ w.length →
    (∀ c, (w.drop k).head? = some c → isLetter c = false ∧ c ≠ '_') →
    lowerText (w.take k) ∉ x.unitNames ∧ w.take k ∉ x.unitSymbols
  noLonger : ∀ c, rest.head? = some c →
    (∀ n ∈ x.unitNames, ¬ (lowerText w ++ [c]) <+: n) ∧ ∀ n ∈ x.unitSymbols, ¬ (w ++ [c]) <+: n
  noWord : ∀ y ∈ x.systems ++ x.numTypes, y <+: w →
    ∃ c, (w.drop y.length).head? = some c ∧ isLetter c = true
  words : ∀ y ∈ x.systems ++ x.numTypes, ∀ c ∈ y, asciiWord c = true

theorem noUnits_word {w rest : Text} (hname : WholeName w)
    (hnoUnit : ∀ k, 0 < k → k ≤ w.length →
      (∀ c, (w.drop k).head? = some c → isLetter c = false ∧ c ≠ '_') →
      lowerText (w.take k) ∉ x.unitNames ∧ w.take k ∉ x.unitSymbols)
    (hnoLonger : ∀ c, rest.head? = some c →
      (∀ n ∈ x.unitNames, ¬ (lowerText w ++ [c]) <+: n) ∧ ∀ n ∈ x.unitSymbols, ¬ (w ++ [c]) <+: n)
    (hr : EndsName rest) :
    ∀ k, unitLoop x (w ++ rest) k = none
  | 0 => rfl
  | k + 1 => by
    have ih := noUnits_word hname hnoUnit hnoLonger hr k
    have hall := (name_chars hname).2
    have key : unitEnd x (w ++ rest) (k + 1) = true →
        lowerText ((w ++ rest).take (k + 1)) ∉ x.unitNames ∧
        (w ++ rest).take (k + 1) ∉ x.unitSymbols := by
      intro hend
      rcases Nat.lt_or_ge w.length (k + 1) with hlt | hle
      · obtain ⟨j, hj⟩ : ∃ j, k + 1 = w.length + (j + 1) := ⟨k - w.length, by omega⟩
        rw [hj, List.take_length_add_append]
        cases hrr : rest with
        | nil =>
          have h2 := hnoUnit w.length (by
            have := hname.1
            exact List.length_pos_iff.2 this) (le_refl _) (by simp)
          simpa using h2
        | cons c r =>
          have hc : c.toLower = c := lower_of_nonword (hr.1 c (by rw [hrr]; rfl)).2
          obtain ⟨h1, h2⟩ := hnoLonger c (by rw [hrr]; rfl)
          constructor
          · intro hm
            exact h1 _ hm ⟨lowerText (r.take j), by simp [lowerText, hc]⟩
          · intro hm
            exact h2 _ hm ⟨r.take j, by simp⟩
      · rw [List.take_append_of_le_length hle]
        refine hnoUnit (k + 1) (by omega) hle ?_
        intro c hc
        unfold unitEnd at hend
        rw [List.drop_append_of_le_length hle] at hend
        cases hd : w.drop (k + 1) with
        | nil => rw [hd] at hc; cases hc
        | cons d r =>
          rw [hd] at hc hend
          simp only [List.head?_cons, Option.some.injEq] at hc
          subst hc
          have hasc := asciiWord_ascii (hall d (List.drop_subset (k + 1) w (by rw [hd]; simp)))
          simp only [List.cons_append, hx.alpha d hasc, Bool.not_eq_true', Bool.or_eq_false_iff,
            decide_eq_false_iff_not] at hend
          exact hend
    unfold unitLoop
    cases hend : unitEnd x (w ++ rest) (k + 1) with
    | false => simp [ih]
    | true =>
      obtain ⟨h1, h2⟩ := key hend
      simp [h1, h2, ih]

theorem noWords {w rest : Text} (hv : VarHere x w rest) (hr : EndsName rest) :
    ∀ ws : List Text, (∀ y ∈ ws, y ∈ x.systems ++ x.numTypes) → firstWord x (w ++ rest) ws = none
  | [], _ => rfl
  | y :: ws, h => by
    have ih := noWords hv hr ws (fun z hz => h z (by simp [hz]))
    have hall := (name_chars hv.word.name).2
    unfold firstWord
    rw [if_neg, ih]
    intro hh
    rw [Bool.and_eq_true, List.isPrefixOf_iff_prefix] at hh
    have hy := h y (by simp)
    have hp : y <+: w := prefix_word (hv.words y hy) hr.1 hh.1
    obtain ⟨c, hc, hl⟩ := hv.noWord y hy hp
    have h2 := hh.2
    rw [List.drop_append_of_le_length hp.length_le] at h2
    cases hd : w.drop y.length with
    | nil => rw [hd] at hc; cases hc
    | cons d r =>
      rw [hd] at hc h2
      simp only [List.head?_cons, Option.some.injEq] at hc
      subst hc
      simp [letterEnd, hx.alpha d (isLetter_ascii hl), hl] at h2

/-- The parsers of constants, units and words read nothing at a name. -/
theorem skip_names {w rest : Text} (hv : VarHere x w rest) (hr : EndsName rest) :
    tryParsers (shippedCfg x funcs inc) rec (w ++ rest) fl ((shippedParsers x).drop 21) done cur m
      = tryParsers (shippedCfg x funcs inc) rec (w ++ rest) fl ((shippedParsers x).drop 25) done cur m := by
  have hw := hv.word
  have h1 : parseConstant x cur (w ++ rest) = .ok none := by
    unfold parseConstant
    have e : (w ++ rest).takeWhile isLetter = w.takeWhile isLetter :=
      takeWhile_sep (fun c hc => (nonword_spec (hr.1 c hc).2).1)
    have e2 : (w ++ rest).take (w.takeWhile isLetter).length = w.takeWhile isLetter :=
      (List.prefix_iff_eq_take.1 ((List.takeWhile_prefix _).trans (List.prefix_append _ _))).symm
    simp only [e, e2, hv.noConst, if_false]
  have h2 : parseUnits x cur (w ++ rest) = .ok none := by
    unfold parseUnits
    rw [noUnits_word hx hw.name hv.noUnit hv.noLonger hr]
  have h3 : parseWord x x.systems cur (w ++ rest) = .ok none := by
    unfold parseWord
    rw [noWords hx hv hr _ (fun y hy => List.mem_append_left _ hy)]
  have h4 : parseWord x x.numTypes cur (w ++ rest) = .ok none := by
    unfold parseWord
    rw [noWords hx hv hr _ (fun y hy => List.mem_append_right _ hy)]
  unfold shippedParsers
  simp only [List.drop_succ_cons, List.drop_zero]
  rw [try_leaf _ _ _ _ _ _ _ h1, try_leaf _ _ _ _ _ _ _ h2, try_leaf _ _ _ _ _ _ _ h3,
    try_leaf _ _ _ _ _ _ _ h4]

/-- A turn at a variable. -/
theorem turn_var {w rest : Text} (hv : VarHere x w rest) (hr : EndsName rest)
    (hfl : fl.array = true → ¬ "step".toList <+: w) :
    tryParsers (shippedCfg x funcs inc) rec (w ++ rest) fl (shippedParsers x) done cur m
      = some (.ok (.go done (cur ++ [.leaf .var w]) w.length), m) := by
  have hstep : (fl.array && starts "step".toList (w ++ rest)) = false := by
    cases hf : fl.array with
    | false => rfl
    | true =>
      rw [Bool.true_and, ← Bool.not_eq_true]
      intro h
      exact hfl hf (prefix_word (by decide) hr.1 (List.isPrefixOf_iff_prefix.1 h))
  have hw := hv.word
  have hpos : w.length ≠ 0 := by
    have := hw.name.1
    simpa using this
  rw [skip_word hx funcs inc rec fl done cur m hw hr]
  have h5 : parseVar cur (w ++ rest) = .ok (some (.leaf .var w, w.length)) := by
    unfold parseVar
    rw [nameLen_append hw.name (fun c hc => (hr.1 c hc).2)]
    simp [leafOf, hpos]
  obtain ⟨⟨a, t, e, ha⟩, _⟩ := name_chars hw.name
  obtain ⟨_, _, _, _, _, _, r7, _⟩ := word_head ha
  have hnext : w ++ rest = a :: (t ++ rest) := by rw [e]; rfl
  rw [skip_names hx funcs inc rec fl done cur m hv hr]
  rw [hnext] at h5 hstep ⊢
  have ha2 : '.' ≠ a ∧ ',' ≠ a ∧ ']' ≠ a := by
    refine ⟨?_, ?_, ?_⟩ <;> rintro rfl <;> exact absurd ha (by decide)
  unfold shippedParsers
  simp only [List.drop_succ_cons, List.drop_zero]
  have hs : runParser (shippedCfg x funcs inc) rec .arrStep cur (a :: (t ++ rest)) fl m = some (.ok nothing, m) := by
    show some (Except.ok (stopIf (fl.array && starts "step".toList (a :: (t ++ rest))) .arrStep), m) = _
    rw [hstep]
    rfl
  rw [skip_parser _ _ _ _ _ _ _ (p := .array) (by
      simp [runParser, runArray, starts, shippedCfg, List.isPrefixOf, Ne.symm r7, nothing]),
    skip_parser _ _ _ _ _ _ _ (p := .arrRange) (by
      simp [runParser, starts, shippedCfg, List.isPrefixOf, ha2, stopIf]),
    skip_parser _ _ _ _ _ _ _ hs,
    skip_parser _ _ _ _ _ _ _ (p := .arrParam) (by
      simp [runParser, starts, shippedCfg, List.isPrefixOf, ha2, stopIf]),
    skip_parser _ _ _ _ _ _ _ (p := .arrEnd) (by
      simp [runParser, starts, shippedCfg, List.isPrefixOf, ha2, stopIf])]
  simp [tryParsers, runParser, h5]

theorem noUnits_head {a : Char} {t : Text} (ha : a ∈ ['[', ']', '.', ',']) :
    parseUnits x cur (a :: t) = .ok none := by
  have hl : a.toLower = a := by
    revert ha; simp only [List.mem_cons, List.not_mem_nil, or_false]; rintro (rfl | rfl | rfl | rfl) <;> decide
  have key : ∀ n, unitLoop x (a :: t) n = none := by
    intro n
    induction n with
    | zero => rfl
    | succ n ih =>
      have h1 : lowerText ((a :: t).take (n + 1)) ∉ x.unitNames := by
        intro hm
        refine hx.unitHead _ (List.mem_append_left _ hm) a ?_ ha
        simp [lowerText, hl]
      have h2 : (a :: t).take (n + 1) ∉ x.unitSymbols := by
        intro hm
        refine hx.unitHead _ (List.mem_append_right _ hm) a ?_ ha
        simp
      simp only [List.take_succ_cons] at h1 h2
      simp [unitLoop, h1, h2, ih]
  simp [parseUnits, key]

/-- The parsers of constants, units and words read nothing. -/
theorem skip_words {a : Char} {t : Text} (ha : a ∈ ['[', ']', '.', ',']) :
    tryParsers (shippedCfg x funcs inc) rec (a :: t) fl ((shippedParsers x).drop 21) done cur m
      = tryParsers (shippedCfg x funcs inc) rec (a :: t) fl ((shippedParsers x).drop 25) done cur m := by
  have h1 : isLetter a = false := by
    revert ha; simp only [List.mem_cons, List.not_mem_nil, or_false]; rintro (rfl | rfl | rfl | rfl) <;> decide
  have hcon : parseConstant x cur (a :: t) = .ok none := by
    simp [parseConstant, h1, hx.noConst]
  have hword : ∀ ws : List Text, (∀ y ∈ ws, y ∈ x.systems ++ x.numTypes) → parseWord x ws cur (a :: t) = .ok none := by
    intro ws hws
    have : firstWord x (a :: t) ws = none := by
      induction ws with
      | nil => rfl
      | cons w ws ih =>
        obtain ⟨c, s, rfl, hcl⟩ := hx.wordHead w (hws w (by simp))
        have : c ≠ a := by rintro rfl; rw [h1] at hcl; cases hcl
        simp [firstWord, List.isPrefixOf, this, ih (fun y hy => hws y (by simp [hy]))]
    simp [parseWord, this]
  unfold shippedParsers
  simp only [List.drop_succ_cons, List.drop_zero]
  rw [try_leaf _ _ _ _ _ _ _ hcon, try_leaf _ _ _ _ _ _ _ (noUnits_head hx cur ha),
    try_leaf _ _ _ _ _ _ _ (hword x.systems (by simp +contextual)),
    try_leaf _ _ _ _ _ _ _ (hword x.numTypes (by simp +contextual))]

/-- Nothing is read before the parsers of arrays. -/
theorem skip_array {a : Char} {t : Text} (ha : a ∈ ['[', ']', '.', ',']) (hf : a = ',' → fl.func = false) :
    tryParsers (shippedCfg x funcs inc) rec (a :: t) fl (shippedParsers x) done cur m
      = tryParsers (shippedCfg x funcs inc) rec (a :: t) fl ((shippedParsers x).drop 25) done cur m := by
  have hl : isLetter a = false ∧ a ≠ '\n' ∧ isSpaceChar a = false ∧ a ≠ '#' ∧ a ≠ '\'' ∧ a ≠ '@' ∧
      a ≠ '_' ∧ a ∈ ['#', '\'', '@', '(', ')', ',', '{', '}', '_', '[', ']', '.'] ∧ a ≠ '-' ∧ a.isDigit = false ∧
      a ∉ [')', '(', '{', '}'] := by
    revert ha; simp only [List.mem_cons, List.not_mem_nil, or_false]; rintro (rfl | rfl | rfl | rfl) <;> decide
  obtain ⟨r1, r2, r3, r4, r5, r6, r7, r8, r9, r10, r11⟩ := hl
  have hn : NoNumber x cur (a :: t) := by
    apply noNumber_of_head
    intro c hc
    simp only [signLen, List.head?_cons, Option.some.injEq, r9, if_false, List.drop_zero] at hc
    rw [← hc]
    exact r10
  rw [skip_first funcs inc rec fl done cur m (.inl r2) r3 (by rw [hx.commentSym]; exact r4)
    (noBool_of_head cur r1) hn,
    skip_second hx funcs inc rec fl done cur m (noOp_of_head hx cur r8) r5 r6 (by
      simp [callName, nameLen, r1, r7])]
  by_cases e : a = ','
  · subst e
    rw [← skip_words hx funcs inc rec fl done cur m (by decide)]
    unfold shippedParsers
    simp only [List.drop_succ_cons, List.drop_zero]
    rw [skip_parser _ _ _ _ _ _ _ (p := .funcParam) (by simp [runParser, starts, stopIf, hf rfl]),
      skip_parser _ _ _ _ _ _ _ (p := .funcEnd) (by simp [runParser, starts, List.isPrefixOf, stopIf]),
      skip_parser _ _ _ _ _ _ _ (p := .inner) (by simp [runParser, runInner]),
      skip_parser _ _ _ _ _ _ _ (p := .innerEnd) (by simp [runParser, runEnd, starts, List.isPrefixOf]),
      skip_parser _ _ _ _ _ _ _ (p := .inline) (by simp [runParser, runInline]),
      skip_parser _ _ _ _ _ _ _ (p := .inlineEnd) (by simp [runParser, runEnd, starts, List.isPrefixOf])]
  · rw [skip_third hx funcs inc rec fl done cur m (by simp only [List.mem_cons, not_or] at r11 ⊢; exact ⟨e, r11⟩),
      skip_words hx funcs inc rec fl done cur m ha]

/-- A turn at an array. -/
theorem turn_array {t : Text} {it : Item} {len : ℕ} (hpos : 0 < len)
    (h : runArray (shippedCfg x funcs inc) rec ('[' :: t) m = some (.ok ⟨some [it], some len, .none⟩, m)) :
    tryParsers (shippedCfg x funcs inc) rec ('[' :: t) fl (shippedParsers x) done cur m
      = some (.ok (.go done (cur ++ [it]) len), m) := by
  rw [skip_array hx funcs inc rec fl done cur m (by decide) (by simp)]
  unfold shippedParsers
  simp only [List.drop_succ_cons, List.drop_zero]
  conv_lhs => unfold tryParsers
  simp only [runParser, h]
  simp

/-- A turn at the end of an element. -/
theorem turn_arrParam (t : Text) (hf : fl.array = true) (h : fl.func = false) :
    tryParsers (shippedCfg x funcs inc) rec (',' :: t) fl (shippedParsers x) done cur m
      = some (.ok (.ret (done ++ [cur]) 0 .arrParam), m) := by
  rw [skip_array hx funcs inc rec fl done cur m (by decide) (fun _ => h)]
  simp [shippedParsers, tryParsers, runParser, runArray, starts, shippedCfg, List.isPrefixOf, stopIf, hf, nothing]

theorem turn_arrEnd (t : Text) (hf : fl.array = true) :
    tryParsers (shippedCfg x funcs inc) rec (']' :: t) fl (shippedParsers x) done cur m
      = some (.ok (.ret (done ++ [cur]) 0 .arrEnd), m) := by
  rw [skip_array hx funcs inc rec fl done cur m (by decide) (by simp)]
  simp [shippedParsers, tryParsers, runParser, runArray, starts, shippedCfg, List.isPrefixOf, stopIf, hf, nothing]

theorem turn_arrRange (t : Text) (hf : fl.array = true) :
    tryParsers (shippedCfg x funcs inc) rec ('.' :: '.' :: t) fl (shippedParsers x) done cur m
      = some (.ok (.ret (done ++ [cur]) 0 .arrRange), m) := by
  rw [skip_array hx funcs inc rec fl done cur m (by decide) (by simp)]
  simp [shippedParsers, tryParsers, runParser, runArray, starts, shippedCfg, List.isPrefixOf, stopIf, hf, nothing]

/-- A turn at `step`, which is read as a name elsewhere. -/
theorem turn_arrStep {rest : Text} (hv : VarHere x "step".toList rest) (hr : EndsName rest)
    (hf : fl.array = true) :
    tryParsers (shippedCfg x funcs inc) rec ("step".toList ++ rest) fl (shippedParsers x) done cur m
      = some (.ok (.ret (done ++ [cur]) 0 .arrStep), m) := by
  rw [skip_word hx funcs inc rec fl done cur m hv.word hr, skip_names hx funcs inc rec fl done cur m hv hr]
  simp [shippedParsers, tryParsers, runParser, runArray, starts, shippedCfg, List.isPrefixOf, stopIf, hf, nothing]

theorem firstWord_letters {w rest : Text} (hl : w.all isLetter = true) (hr : EndsWord rest) :
    ∀ ws : List Text, (∀ y ∈ ws, ∀ c ∈ y, asciiWord c = true) →
      firstWord x (w ++ rest) ws = if w ∈ ws then some w else none
  | [], _ => rfl
  | y :: ws, h => by
    have ih := firstWord_letters hl hr ws (fun z hz => h z (by simp [hz]))
    unfold firstWord
    by_cases hy : y = w
    · subst hy
      rw [if_pos, if_pos (by simp)]
      rw [Bool.and_eq_true, List.isPrefixOf_iff_prefix, List.drop_left]
      refine ⟨List.prefix_append _ _, ?_⟩
      cases hrr : rest with
      | nil => rfl
      | cons c r =>
        have hc := hr c (by rw [hrr]; rfl)
        simp [letterEnd, hx.alpha c hc.1, (nonword_spec hc.2).1]
    · have hmem : w ∈ y :: ws ↔ w ∈ ws := by
        simp [Ne.symm hy]
      rw [if_neg]
      · rw [ih]
        simp only [hmem]
      · intro hh
        rw [Bool.and_eq_true, List.isPrefixOf_iff_prefix] at hh
        have hp : y <+: w := prefix_word (h y (by simp)) hr hh.1
        obtain ⟨v, hv⟩ := hp
        cases v with
        | nil => exact hy (by rw [← hv]; simp)
        | cons c v =>
          have h2 := hh.2
          rw [← hv, List.append_assoc, List.drop_left] at h2
          have hc : isLetter c = true := List.all_eq_true.1 hl c (by rw [← hv]; simp)
          simp [letterEnd, hx.alpha c (isLetter_ascii hc), hc] at h2

/-- A turn at a unit system or a number type. -/
theorem turn_special {w rest : Text} (hw : Word x w) (hl : w.all isLetter = true)
    (hm : w ∈ x.systems ++ x.numTypes) (hc : w ∉ x.constants)
    (hu : lowerText w ∉ x.unitNames ∧ w ∉ x.unitSymbols)
    (hlong : ∀ c, rest.head? = some c →
      (∀ n ∈ x.unitNames, ¬ (lowerText w ++ [c]) <+: n) ∧ ∀ n ∈ x.unitSymbols, ¬ (w ++ [c]) <+: n)
    (hwords : ∀ y ∈ x.systems ++ x.numTypes, ∀ c ∈ y, asciiWord c = true) (hr : EndsName rest) :
    tryParsers (shippedCfg x funcs inc) rec (w ++ rest) fl (shippedParsers x) done cur m
      = some (.ok (.go done (cur ++ [.leaf .special w]) w.length), m) := by
  have hpos : w.length ≠ 0 := by
    have := hw.name.1
    simpa using this
  rw [skip_word hx funcs inc rec fl done cur m hw hr]
  have h1 : parseConstant x cur (w ++ rest) = .ok none := by
    unfold parseConstant
    have e : (w ++ rest).takeWhile isLetter = w :=
      takeWhile_all (List.all_eq_true.1 hl) (fun c hc => (nonword_spec (hr.1 c hc).2).1)
    simp [e, hc]
  have h2 : parseUnits x cur (w ++ rest) = .ok none := by
    unfold parseUnits
    rw [noUnits_word hx hw.name ?_ hlong hr]
    intro k hk hle hend
    rcases Nat.lt_or_ge k w.length with hlt | hge
    · have hget : (w.drop k).head? = some w[k] := by
        rw [List.head?_drop]
        exact List.getElem?_eq_getElem hlt
      have := (hend _ hget).1
      rw [List.all_eq_true.1 hl w[k] (List.getElem_mem hlt)] at this
      cases this
    · obtain rfl : k = w.length := le_antisymm hle hge
      simpa using hu
  have e1 := firstWord_letters hx hl hr.1 x.systems (fun y hy => hwords y (List.mem_append_left _ hy))
  have e2 := firstWord_letters hx hl hr.1 x.numTypes (fun y hy => hwords y (List.mem_append_right _ hy))
  unfold shippedParsers
  simp only [List.drop_succ_cons, List.drop_zero]
  rw [try_leaf _ _ _ _ _ _ _ h1, try_leaf _ _ _ _ _ _ _ h2]
  by_cases hs : w ∈ x.systems
  · apply try_found
    unfold parseWord
    rw [e1, if_pos hs]
  · have h3 : parseWord x x.systems cur (w ++ rest) = .ok none := by
      unfold parseWord
      rw [e1, if_neg hs]
    rw [try_leaf _ _ _ _ _ _ _ h3]
    apply try_found
    unfold parseWord
    rw [e2, if_pos ((List.mem_append.1 hm).resolve_left hs)]

omit hx in
/-- A turn at the end of a statement. -/
theorem turn_term (t : Text) (h1 : fl.ignoreTerm = false) (h2 : inc (functionalItems cur) = false)
    (h3 : m ≠ some (itemsText (functionalItems cur))) :
    tryParsers (shippedCfg x funcs inc) rec ('\n' :: t) fl (shippedParsers x) done cur m
      = some (.ok (.go (done ++ [cur ++ [.leaf .terminator ['\n']]]) [] 1), m) := by
  have ht : runTerminator (shippedCfg x funcs inc) cur ('\n' :: t) fl m
      = some (.ok ⟨some [.leaf .terminator ['\n']], some 1, .endStatement⟩, m) := by
    unfold runTerminator
    have e : starts (shippedCfg x funcs inc).termSym ('\n' :: t) = true := by
      simp [starts, shippedCfg, List.isPrefixOf]
    have e2 : (shippedCfg x funcs inc).incomplete = inc := rfl
    simp [h1, e, e2, h2, Ne.symm h3]
    exact ⟨rfl, rfl⟩
  unfold shippedParsers
  conv_lhs => unfold tryParsers
  simp only [runParser, ht]
  simp

/-- What the loop over arguments needs of the recursive call. -/
structure ReadsArgs (rec : ParseFn) (m : Cache) (L : Text → List Item → Option Char → Prop) : Prop where
  comma : ∀ {t its}, L t its (some ',') → ∀ r, rec { func := true, ignoreTerm := true } (t ++ ',' :: r) m
    = some (.ok ([its], t.length, some .funcParam), m)
  close : ∀ {t its}, L t its (some ')') → ∀ r, rec { func := true, ignoreTerm := true } (t ++ ')' :: r) m
    = some (.ok ([its], t.length, some .funcEnd), m)

omit hx in
theorem argLoop_args (k : Nest) (next rest : Text) {L : Text → List Item → Option Char → Prop}
    (hrec : ReadsArgs rec m L) {ts : Text} {its : List Item} (h : Args L ts its) :
    ∀ (n i : ℕ) (items : List Item), ts.length < n → next.drop i = ts ++ ')' :: rest →
    argLoop rec k next n i items m
      = some (.ok ⟨some [.nest k (next.take (i + ts.length + 1))
          (items ++ its ++ [.leaf .funcEnd [')']])], some (i + ts.length + 1), .none⟩, m) := by
  induction h with
  | @last t its h =>
    intro n i items hn hd
    obtain ⟨n, rfl⟩ : ∃ k, n = k + 1 := ⟨n - 1, by omega⟩
    have hi : i < next.length := by
      by_contra h
      rw [List.drop_of_length_le (by omega)] at hd
      have := congrArg List.length hd
      simp at this
    unfold argLoop
    rw [if_pos hi, hd, hrec.close h]
    simp
  | @more t its ts rest' h hs ih =>
    intro n i items hn hd
    simp only [List.length_append, List.length_cons] at hn
    obtain ⟨n, rfl⟩ : ∃ k, n = k + 1 := ⟨n - 1, by omega⟩
    have hi : i < next.length := by
      by_contra h
      rw [List.drop_of_length_le (by omega)] at hd
      have := congrArg List.length hd
      simp at this
    have hd2 : next.drop (i + t.length + 1) = ts ++ ')' :: rest := by
      rw [Nat.add_assoc, ← List.drop_drop, hd]
      simp only [List.append_assoc, List.cons_append]
      rw [List.drop_length_add_append]
      rfl
    have ih := ih n (i + t.length + 1) (items ++ its ++ [.leaf .funcParam [',']]) (by omega) hd2
    unfold argLoop
    rw [if_pos hi, hd]
    simp only [List.append_assoc, List.cons_append]
    rw [hrec.comma h]
    simp only [reduceCtorEq, if_false, List.headD_cons, Option.some.injEq]
    rw [← List.append_assoc items, ih]
    have e : i + t.length + 1 + ts.length + 1 = i + (t ++ ',' :: ts).length + 1 := by simp; omega
    rw [e]
    simp

/-- A turn at a comment. -/
theorem turn_comment {s rest : Text} (h1 : '\n' ∉ s) (h2 : rest.head? = none ∨ rest.head? = some '\n') :
    tryParsers (shippedCfg x funcs inc) rec ('#' :: s ++ rest) fl (shippedParsers x) done cur m
      = some (.ok (.go done (cur ++ [.leaf .comment ('#' :: s)]) ('#' :: s).length), m) := by
  have e : ('#' :: s ++ rest).takeWhile (fun c => decide (c ≠ '\n')) = '#' :: s := by
    apply takeWhile_all
    · intro c hc
      simp only [decide_eq_true_eq]
      rintro rfl
      rcases List.mem_cons.1 hc with h | h
      · exact absurd h (by decide)
      · exact h1 h
    · intro c hc
      rcases h2 with h | h
      · rw [h] at hc; cases hc
      · rw [h] at hc
        cases hc
        decide
  have hc : parseComment x cur ('#' :: s ++ rest) = .ok (some (.leaf .comment ('#' :: s), ('#' :: s).length)) := by
    unfold parseComment
    simp only [List.cons_append, hx.commentSym, if_true]
    have e' := e
    simp only [List.cons_append] at e'
    rw [e']
    simp [leafOf]
  have hs : parseSpace cur ('#' :: s ++ rest) = .ok none := by
    simp [parseSpace, leafOf, isSpaceChar]
  have ht : runTerminator (shippedCfg x funcs inc) cur ('#' :: s ++ rest) fl m = some (.ok nothing, m) := by
    unfold runTerminator
    have : starts (shippedCfg x funcs inc).termSym ('#' :: s ++ rest) = false := by
      simp [starts, shippedCfg, List.isPrefixOf]
    simp only [this, Bool.false_eq_true, if_false, ite_self]
  have h0 : ∀ {ps : List Parser},
      tryParsers (shippedCfg x funcs inc) rec ('#' :: s ++ rest) fl (.terminator :: ps) done cur m
        = tryParsers (shippedCfg x funcs inc) rec ('#' :: s ++ rest) fl ps done cur m := by
    intro ps
    conv_lhs => unfold tryParsers
    simp only [runParser, ht]
    simp [nothing]
  unfold shippedParsers
  rw [h0, try_leaf _ _ _ _ _ _ _ hs]
  exact try_found _ _ _ _ _ _ _ hc

/-- A turn at the call of a function. -/
theorem turn_call {w rest : Text} (hw : Word x w) (hm : w ∈ funcs) 
    {L : Text → List Item → Option Char → Prop} (hrec : ReadsArgs rec m L) {ts : Text}
    {its : List Item} (hargs : Args L ts its) :
    tryParsers (shippedCfg x funcs inc) rec (w ++ '(' :: (ts ++ ')' :: rest)) fl
        (shippedParsers x) done cur m
      = some (.ok (.go done (cur ++ [.nest .func (w ++ '(' :: (ts ++ [')']))
          (.leaf .funcName w :: .leaf .funcStart ['('] :: (its ++ [.leaf .funcEnd [')']]))])
          (w ++ '(' :: (ts ++ [')'])).length), m) := by
  have hr : ∀ c, ('(' :: (ts ++ ')' :: rest)).head? = some c →
      c.toNat < 128 ∧ asciiWord c = false := by
    intro c hc
    simp only [List.head?_cons, Option.some.injEq] at hc
    subst hc
    decide
  obtain ⟨hb, hn, ho⟩ := word_start hx cur hw hr
  have hcall : (shippedCfg x funcs inc).funcName (w ++ '(' :: (ts ++ ')' :: rest)) = some w := by
    have hpos : w.length ≠ 0 := by
      have := hw.name.1
      simpa using this
    simp only [shippedCfg, callName, nameLen_append hw.name (fun c hc => (hr c hc).2), List.drop_left]
    simp [hpos, hm]
  have hloop := argLoop_args rec m .func (w ++ '(' :: (ts ++ ')' :: rest)) rest hrec hargs
    ((w ++ '(' :: (ts ++ ')' :: rest)).length + 1) (w.length + 1)
    [.leaf .funcName w, .leaf .funcStart ['(']] (by
      simp only [List.length_append, List.length_cons]; omega) (by
      rw [List.drop_length_add_append]; rfl)
  obtain ⟨⟨a, t, e, ha⟩, _⟩ := name_chars hw.name
  obtain ⟨r1, r2, r3, r4, r5, r6, _⟩ := word_head ha
  have htake : (w ++ '(' :: (ts ++ ')' :: rest)).take
      (w.length + 1 + (ts).length + 1) = w ++ '(' :: (ts ++ [')']) := by
    have : w ++ '(' :: (ts ++ ')' :: rest)
        = (w ++ '(' :: (ts ++ [')'])) ++ rest := by simp
    rw [this]
    have hl : w.length + 1 + (ts).length + 1
        = (w ++ '(' :: (ts ++ [')'])).length := by simp; omega
    rw [hl, List.take_left]
  have hl : w.length + 1 + (ts).length + 1
      = (w ++ '(' :: (ts ++ [')'])).length := by simp; omega
  rw [htake, hl] at hloop
  have hwl : 0 < (w ++ '(' :: (ts ++ [')'])).length := by rw [← hl]; omega
  generalize (w ++ '(' :: (ts ++ [')'])) = whole at hloop hwl ⊢
  have hnext : ∃ s, w ++ '(' :: (ts ++ ')' :: rest) = a :: s := ⟨_, by rw [e]; rfl⟩
  obtain ⟨s, hs⟩ := hnext
  rw [hs] at hb hn ho hcall hloop ⊢
  rw [skip_first funcs inc rec fl done cur m (.inl r2) r1 (by rw [hx.commentSym]; exact r3) hb hn]
  have hstr : parseString x cur (a :: s) = .ok none := by
    simp [parseString, readString, hx.strSym, r4]
  have hp : (shippedCfg x funcs inc).pointerName (a :: s) = none := by
    simp only [shippedCfg]
    split
    · rename_i r heq
      simp only [List.cons.injEq] at heq
      exact absurd heq.1 r5
    · rfl
  have k1 : ∀ {ps : List Parser},
      tryParsers (shippedCfg x funcs inc) rec (a :: s) fl (.pointer :: ps) done cur m
        = tryParsers (shippedCfg x funcs inc) rec (a :: s) fl ps done cur m := by
    intro ps
    conv_lhs => unfold tryParsers
    simp [runParser, hp, runFunc, nothing]
  unfold shippedParsers
  simp only [List.drop_succ_cons, List.drop_zero]
  rw [try_leaf _ _ _ _ _ _ _ ho, try_leaf _ _ _ _ _ _ _ hstr, k1]
  conv_lhs => unfold tryParsers
  simp only [runParser, hcall, runFunc, hloop]
  simp

/-- A turn at a call of a function pointer. -/
theorem turn_pointer {w rest : Text} (hw : WholeName w)
    {L : Text → List Item → Option Char → Prop} (hrec : ReadsArgs rec m L) {ts : Text}
    {its : List Item} (hargs : Args L ts its) :
    tryParsers (shippedCfg x funcs inc) rec ('@' :: (w ++ '(' :: (ts ++ ')' :: rest))) fl
        (shippedParsers x) done cur m
      = some (.ok (.go done (cur ++ [.nest .pointer ('@' :: (w ++ '(' :: (ts ++ [')'])))
          (.leaf .funcName ('@' :: w) :: .leaf .funcStart ['('] :: (its ++ [.leaf .funcEnd [')']]))])
          ('@' :: (w ++ '(' :: (ts ++ [')']))).length), m) := by
  have hr : ∀ c, ('(' :: (ts ++ ')' :: rest)).head? = some c → asciiWord c = false := by
    intro c hc
    simp only [List.head?_cons, Option.some.injEq] at hc
    subst hc
    decide
  have hcall : (shippedCfg x funcs inc).pointerName ('@' :: (w ++ '(' :: (ts ++ ')' :: rest)))
      = some ('@' :: w) := by
    have hpos : w.length ≠ 0 := by
      have := hw.1
      simpa using this
    simp only [shippedCfg, callName, nameLen_append hw hr, List.drop_left]
    simp [hpos]
  have hloop := argLoop_args rec m .pointer ('@' :: (w ++ '(' :: (ts ++ ')' :: rest))) rest hrec hargs
    (('@' :: (w ++ '(' :: (ts ++ ')' :: rest))).length + 1) (('@' :: w).length + 1)
    [.leaf .funcName ('@' :: w), .leaf .funcStart ['(']] (by
      simp only [List.length_append, List.length_cons]; omega) (by
      have : '@' :: (w ++ '(' :: (ts ++ ')' :: rest)) = ('@' :: w) ++ '(' :: (ts ++ ')' :: rest) := rfl
      rw [this, List.drop_length_add_append]; rfl)
  have hl : ('@' :: w).length + 1 + ts.length + 1
      = ('@' :: (w ++ '(' :: (ts ++ [')']))).length := by simp; omega
  have htake : ('@' :: (w ++ '(' :: (ts ++ ')' :: rest))).take
      (('@' :: w).length + 1 + ts.length + 1) = '@' :: (w ++ '(' :: (ts ++ [')'])) := by
    have : '@' :: (w ++ '(' :: (ts ++ ')' :: rest))
        = ('@' :: (w ++ '(' :: (ts ++ [')']))) ++ rest := by simp
    rw [this, hl, List.take_left]
  rw [htake, hl] at hloop
  have hwl : 0 < ('@' :: (w ++ '(' :: (ts ++ [')']))).length := by rw [← hl]; omega
  generalize ('@' :: (w ++ '(' :: (ts ++ [')']))) = whole at hloop hwl ⊢
  generalize (w ++ '(' :: (ts ++ ')' :: rest)) = s at hcall hloop ⊢
  have hn : NoNumber x cur ('@' :: s) := by
    apply noNumber_of_head
    intro c hc
    simp only [signLen, List.head?_cons, Option.some.injEq, show ('@' : Char) ≠ '-' by decide, if_false,
      List.drop_zero] at hc
    rw [← hc]
    decide
  rw [skip_first funcs inc rec fl done cur m (.inl (by decide)) (by decide) (by rw [hx.commentSym]; decide)
    (noBool_of_head cur (by decide)) hn]
  have hstr : parseString x cur ('@' :: s) = .ok none := by
    simp [parseString, readString, hx.strSym]
  unfold shippedParsers
  simp only [List.drop_succ_cons, List.drop_zero]
  rw [try_leaf _ _ _ _ _ _ _ (noOp_of_head hx cur (by decide)), try_leaf _ _ _ _ _ _ _ hstr]
  conv_lhs => unfold tryParsers
  simp only [runParser, hcall, runFunc, hloop]
  simp

end Turn

end MC.Parse
