import Verif.Props.Parse2
import Verif.Lemmas.UnitTable

/-!
# Reading the name of a unit with the shipped parsers
-/

namespace MC.Unit.Table
open MC.Parse MC.Parse.Spec MC.NameTree

/-- A character that may follow the name of a unit: ASCII, not a word character, and none of
`-`, `.` and `(`. -/
def sep (c : Char) : Bool :=
  c.toNat < 128 && !asciiWord c && !(['-', '.', '('].contains c)

/-- A character no other kind of item starts with, before units are tried. -/
def plain (c : Char) : Bool :=
  !isSpaceChar c && !c.isDigit && !sep c && !(['#', '-', '\'', '@', '(', ')', ',', '{', '}', '\n'].contains c)

theorem ascii_cases {P : Char → Prop} (h1 : ∀ n < 128, P (Char.ofNat n))
    (h2 : ∀ c : Char, 128 ≤ c.toNat → c.toLower = c → P c) (c : Char) : P c := by
  by_cases h : c.toNat < 128
  · have := h1 _ h
    rwa [Char.ofNat_toNat] at this
  · refine h2 c (by omega) ?_
    unfold Char.toLower
    rw [dif_neg]
    intro h'
    have : c.toNat ≤ 90 := h'.2
    omega

theorem isDigit_lower (c : Char) : c.toLower.isDigit = c.isDigit :=
  ascii_cases (P := fun c => c.toLower.isDigit = c.isDigit) (by decide +kernel)
    (fun c _ h => by rw [h]) c

theorem isLetter_lower (c : Char) : isLetter c.toLower = isLetter c :=
  ascii_cases (P := fun c => isLetter c.toLower = isLetter c) (by decide +kernel)
    (fun c _ h => by rw [h]) c

theorem asciiWord_lower (c : Char) : asciiWord c.toLower = asciiWord c :=
  ascii_cases (P := fun c => asciiWord c.toLower = asciiWord c) (by decide +kernel)
    (fun c _ h => by rw [h]) c

theorem plain_lower (c : Char) : plain c.toLower = plain c :=
  ascii_cases (P := fun c => plain c.toLower = plain c) (by decide +kernel)
    (fun c _ h => by rw [h]) c

theorem sep_lower (c : Char) : sep c.toLower = sep c :=
  ascii_cases (P := fun c => sep c.toLower = sep c) (by decide +kernel)
    (fun c _ h => by rw [h]) c

theorem lower_lower (c : Char) : c.toLower.toLower = c.toLower :=
  ascii_cases (P := fun c => c.toLower.toLower = c.toLower) (by decide +kernel)
    (fun c _ h => by rw [h, h]) c

theorem lower_of_sep {c : Char} (h : sep c = true) : c.toLower = c :=
  ascii_cases (P := fun c => sep c = true → c.toLower = c) (by decide +kernel)
    (fun c _ h _ => h) c h

theorem sep_spec {c : Char} (h : sep c = true) :
    c.toNat < 128 ∧ isLetter c = false ∧ c.isDigit = false ∧ c ≠ '_' ∧ c ≠ '(' := by
  unfold sep asciiWord at h
  simp only [Bool.and_eq_true, decide_eq_true_eq, Bool.not_eq_true', Bool.or_eq_false_iff,
    decide_eq_false_iff_not, List.contains_eq_mem, List.mem_cons, List.not_mem_nil, or_false,
    not_or] at h
  tauto

theorem plain_spec {c : Char} (h : plain c = true) :
    isSpaceChar c = false ∧ c.isDigit = false ∧ c ≠ '#' ∧ c ≠ '-' ∧ c ≠ '\'' ∧ c ≠ '@' ∧ c ≠ '(' ∧
    c ≠ ')' ∧ c ≠ ',' ∧ c ≠ '{' ∧ c ≠ '}' ∧ c ≠ '\n' := by
  unfold plain at h
  simp only [Bool.and_eq_true, Bool.not_eq_true', decide_eq_false_iff_not, List.contains_eq_mem,
    List.mem_cons, List.not_mem_nil, or_false, not_or] at h
  tauto

/-- What may follow a unit. -/
def RestOk (rest : Text) : Prop := ∀ c, rest.head? = some c → sep c = true

theorem prefix_sep {p a rest : Text} (hp : ∀ c ∈ p, sep c = false) (hr : RestOk rest)
    (h : p <+: a ++ rest) : p <+: a := by
  rcases le_total p.length a.length with hl | hl
  · exact List.prefix_of_prefix_length_le h (List.prefix_append _ _) hl
  · obtain ⟨t, ht⟩ := List.prefix_of_prefix_length_le (List.prefix_append a rest) h hl
    cases t with
    | nil => rw [← ht]; simp
    | cons c t =>
      obtain ⟨u, hu⟩ := h
      rw [← ht, List.append_assoc, List.append_cancel_left_eq] at hu
      have h1 := hr c (by rw [← hu]; rfl)
      have h2 := hp c (by rw [← ht]; simp)
      rw [h1] at h2
      cases h2

theorem takeWhile_sep {p : Char → Bool} {a rest : Text} (hp : ∀ c, rest.head? = some c → p c = false) :
    (a ++ rest).takeWhile p = a.takeWhile p := by
  induction a with
  | nil =>
    cases rest with
    | nil => rfl
    | cons c t => simp [hp c rfl]
  | cons x a ih =>
    simp only [List.cons_append, List.takeWhile_cons, ih]

section
variable {c : Char} (hc : plain c = true) (t : Text)
include hc

theorem signLen_plain : signLen (c :: t) = 0 := by
  simp [signLen, (plain_spec hc).2.2.2.1]

theorem basedLen_plain (pre : Text) (ok : Char → Bool) (h : pre.head? = some '0') :
    basedLen pre ok (c :: t) = 0 := by
  cases pre with
  | nil => simp at h
  | cons a p =>
    simp only [List.head?_cons, Option.some.injEq] at h
    subst h
    have hz : ¬ '0' = c.toLower := by
      intro e
      have h1 := isDigit_lower c
      rw [← e, (plain_spec hc).2.1] at h1
      exact absurd h1 (by decide)
    simp [basedLen, signLen_plain hc, lowerText, hz]

theorem decimalLen_plain : decimalLen (c :: t) = 0 := by
  simp [decimalLen, signLen_plain hc, digitsLen, (plain_spec hc).2.1]

theorem arbLen_plain : arbLen (c :: t) = 0 := by
  simp [arbLen, signLen_plain hc, lowerText, isDigit_lower, (plain_spec hc).2.1]

end

/-- What is needed of a text to be read as a unit. -/
structure Reads (x : Lex) (n : Text) : Prop where
  plainStart : ∃ a t, n = a :: t ∧ plain a = true
  noOp : ∀ op ∈ x.ops, op <+: n →
    op.all isLetter = true ∧ op ≠ [] ∧ ∃ c, (n.drop op.length).head? = some c ∧ asciiWord c = true
  noBool : ¬ "true".toList <+: lowerText n ∧ ¬ "false".toList <+: lowerText n
  noConst : n.takeWhile isLetter ∉ x.constants
  noCall : '(' ∉ n
  isUnit : lowerText n ∈ x.unitNames ∨ n ∈ x.unitSymbols
  short : n.length ≤ x.unitMaxLength

/-- What is needed of the table. -/
structure TableOk (x : Lex) : Prop where
  alpha : ∀ c, c.toNat < 128 → x.alpha c = isLetter c
  word : ∀ c, c.toNat < 128 → x.word c = asciiWord c
  strSym : x.strSym = '\''
  commentSym : x.commentSym = '#'
  opChars : ∀ op ∈ x.ops, op = [] ∨ (∃ a t, op = a :: t ∧ plain a = false) ∨ ∀ c ∈ op, sep c = false
  symbols : x.unitSymbolsEnabled = true

theorem isLetter_ascii {c : Char} (h : isLetter c = true) : c.toNat < 128 := by
  unfold isLetter at h
  simp only [Bool.or_eq_true, Bool.and_eq_true, decide_eq_true_eq] at h
  rcases h with ⟨_, h⟩ | ⟨_, h⟩
  · have : c.toNat ≤ 122 := h
    omega
  · have : c.toNat ≤ 90 := h
    omega

theorem asciiWord_ascii {c : Char} (h : asciiWord c = true) : c.toNat < 128 := by
  unfold asciiWord at h
  simp only [Bool.or_eq_true, decide_eq_true_eq] at h
  rcases h with (h | h) | h
  · exact isLetter_ascii h
  · unfold Char.isDigit at h
    simp only [Bool.and_eq_true, decide_eq_true_eq, ge_iff_le] at h
    have : c.toNat ≤ 57 := h.2
    omega
  · subst h; decide

section
variable {x : Lex} (hx : TableOk x) {n rest : Text} (hn : Reads x n) (hr : RestOk rest)
include hx hn hr

theorem noOp_unit (cur : List Parse.Item) : parseOperator x cur (n ++ rest) = .ok none := by
  rcases Props.C21_none x cur (n ++ rest) with ⟨op, h⟩ | h
  · obtain ⟨⟨hm, hp, hw⟩, _⟩ := (Props.C21_longest x cur _ op).1 h
    exfalso
    obtain ⟨a, t, rfl, ha⟩ := hn.plainStart
    have hp' : op <+: a :: t := by
      rcases hx.opChars op hm with e | ⟨b, s, e, hb⟩ | e
      · subst e; exact List.nil_prefix
      · subst e
        rw [List.cons_append, List.cons_prefix_cons] at hp
        rw [hp.1, ha] at hb
        cases hb
      · exact prefix_sep e hr hp
    obtain ⟨h1, h2, c, h3, h4⟩ := hn.noOp op hm hp'
    have h5 := hw h2 (by
      intro ch hch
      have := List.all_eq_true.1 h1 ch hch
      rw [hx.alpha ch (isLetter_ascii this)]
      exact this) c (by
        have hl : op.length ≤ (a :: t).length := hp'.length_le
        rw [List.drop_append_of_le_length hl, List.head?_append, h3]
        rfl)
    rw [hx.word c (asciiWord_ascii h4), h4] at h5
    cases h5
  · exact h.1

theorem bool_unit (cur : List Parse.Item) : parseBoolean x cur (n ++ rest) = .ok none := by
  have key : ∀ (w : Text) (k : ℕ), (∀ c ∈ w, sep c = false) → ¬ w <+: lowerText n →
      lowerText ((n ++ rest).take k) ≠ w := by
    intro w k hw hnw e
    apply hnw
    apply prefix_sep hw (rest := lowerText rest)
    · intro c hc
      cases rest with
      | nil => simp [lowerText] at hc
      | cons d r =>
        simp only [lowerText, List.map_cons, List.head?_cons, Option.some.injEq] at hc
        rw [← hc, sep_lower]
        exact hr d rfl
    · rw [← e]
      unfold lowerText
      rw [← List.map_append]
      exact (List.take_prefix _ _).map _
  have h1 := key "true".toList 4 (by decide +kernel) hn.noBool.1
  have h2 := key "false".toList 5 (by decide +kernel) hn.noBool.2
  unfold parseBoolean
  rw [if_neg (fun h => h1 (of_decide_eq_true ((Bool.and_eq_true _ _).mp h).1)),
    if_neg (fun h => h2 (of_decide_eq_true ((Bool.and_eq_true _ _).mp h).1))]

theorem const_unit (cur : List Parse.Item) : parseConstant x cur (n ++ rest) = .ok none := by
  unfold parseConstant
  have e : (n ++ rest).takeWhile isLetter = n.takeWhile isLetter :=
    takeWhile_sep (fun c hc => (sep_spec (hr c hc)).2.1)
  have e2 : (n ++ rest).take (n.takeWhile isLetter).length = n.takeWhile isLetter := by
    have : n.takeWhile isLetter <+: n ++ rest :=
      (List.takeWhile_prefix _).trans (List.prefix_append _ _)
    exact (List.prefix_iff_eq_take.1 this).symm
  simp only [e, e2, hn.noConst, if_false]

theorem call_unit : callName (n ++ rest) = none := by
  obtain ⟨a, t, rfl, ha⟩ := hn.plainStart
  have e : nameLen ((a :: t) ++ rest) = nameLen (a :: t) := by
    simp only [List.cons_append, nameLen]
    rw [takeWhile_sep (a := t) (rest := rest)]
    intro c hc
    have h := sep_spec (hr c hc)
    simp [h.2.1, h.2.2.1, h.2.2.2.1]
  have hl : nameLen (a :: t) ≤ (a :: t).length := nameLen_le _
  unfold callName
  simp only [e]
  rw [if_neg]
  rintro ⟨_, h⟩
  rw [List.drop_append_of_le_length hl, List.head?_append] at h
  cases hd : ((a :: t).drop (nameLen (a :: t))).head? with
  | some c =>
    rw [hd] at h
    simp only [Option.some_or, Option.some.injEq] at h
    subst h
    exact hn.noCall (List.drop_subset _ _ (List.mem_of_mem_head? hd))
  | none =>
    rw [hd] at h
    simp only [Option.none_or] at h
    exact (sep_spec (hr _ h)).2.2.2.2 rfl

variable (hlong : ∀ c, rest.head? = some c →
  (∀ m ∈ x.unitNames, ¬ (lowerText n ++ [c]) <+: m) ∧ ∀ m ∈ x.unitSymbols, ¬ (n ++ [c]) <+: m)
include hlong

theorem unitLoop_unit : ∀ j, n.length + j ≤ (n ++ rest).length →
    unitLoop x (n ++ rest) (n.length + j) = some (.leaf .unit n, n.length)
  | 0, _ => by
    obtain ⟨a, t, e, _⟩ := hn.plainStart
    obtain ⟨k, hk⟩ : ∃ k, n.length = k + 1 := ⟨t.length, by rw [e]; rfl⟩
    have ht : (n ++ rest).take (k + 1) = n := by rw [← hk]; simp
    have hd : unitEnd x (n ++ rest) (k + 1) = true := by
      unfold unitEnd
      rw [← hk]
      simp only [List.drop_left]
      cases rest with
      | nil => rfl
      | cons c r =>
        have h := sep_spec (hr c rfl)
        simp [hx.alpha c h.1, h.2.1, h.2.2.2.1]
    have hl : leafOf .unit (n ++ rest) (k + 1) = some (.leaf .unit n, k + 1) := by
      unfold leafOf
      rw [ht]
      simp
    rw [Nat.add_zero, hk]
    unfold unitLoop
    rw [ht, hd, hl]
    rcases hn.isUnit with h | h
    · simp [h]
    · simp [h, hx.symbols]
  | j + 1, hj => by
    have ih := unitLoop_unit j (by omega)
    have hlt : 0 < rest.length := by
      rw [List.length_append] at hj; omega
    obtain ⟨c, r, e⟩ := List.exists_cons_of_length_pos hlt
    obtain ⟨h1, h2⟩ := hlong c (by rw [e]; rfl)
    have ht : (n ++ rest).take (n.length + (j + 1)) = n ++ c :: r.take j := by
      rw [List.take_append, List.take_of_length_le (by omega), e]
      simp
    have e1 : lowerText (n ++ c :: r.take j) ∉ x.unitNames := by
      intro hm
      apply h1 _ hm
      have hc : c.toLower = c := lower_of_sep (hr c (by rw [e]; rfl))
      refine ⟨lowerText (r.take j), ?_⟩
      simp [lowerText, hc]
    have e2 : n ++ c :: r.take j ∉ x.unitSymbols := by
      intro hm
      exact h2 _ hm ⟨r.take j, by simp⟩
    rw [show n.length + (j + 1) = (n.length + j) + 1 from rfl] at ht ⊢
    unfold unitLoop
    rw [ht]
    simp [e1, e2, ih]

theorem parseUnits_unit (cur : List Parse.Item) :
    parseUnits x cur (n ++ rest) = .ok (some (.leaf .unit n, n.length)) := by
  unfold parseUnits
  have h1 := hn.short
  obtain ⟨j, hj⟩ : ∃ j, min x.unitMaxLength (n ++ rest).length = n.length + j := by
    refine ⟨min x.unitMaxLength (n ++ rest).length - n.length, ?_⟩
    have : n.length ≤ (n ++ rest).length := by simp
    omega
  rw [hj, unitLoop_unit hx hn hr hlong j (by rw [← hj]; exact min_le_right _ _)]

/-- A turn of the loop at the name of a unit. -/
theorem turn_unit (funcs : List Text) (inc : List Parse.Item → Bool) (rec : ParseFn) (fl : Flags)
    (done : List (List Parse.Item)) (cur : List Parse.Item) (m : Cache) :
    tryParsers (shippedCfg x funcs inc) rec (n ++ rest) fl
        (shippedCfg x funcs inc).parsers done cur m
      = some (.ok (.go done (cur ++ [.leaf .unit n]) n.length), m) := by
  have h12 := noOp_unit hx hn hr cur
  have h4 := bool_unit hx hn hr cur
  have hk := const_unit hx hn hr cur
  have hcall := call_unit hx hn hr
  have hu := parseUnits_unit hx hn hr hlong cur
  obtain ⟨a, t, hat, ha⟩ := hn.plainStart
  have hpos : n.length ≠ 0 := by rw [hat]; simp
  have hnext : n ++ rest = a :: (t ++ rest) := by rw [hat]; rfl
  rw [hnext] at h12 h4 hk hcall hu ⊢
  generalize t ++ rest = t' at *
  obtain ⟨p1, p2, p3, p4, p5, p6, p7, p8, p9, p10, p11, p12⟩ := plain_spec ha
  have h1 : runTerminator (shippedCfg x funcs inc) cur (a :: t') fl m = some (.ok nothing, m) := by
    unfold runTerminator
    have : starts (shippedCfg x funcs inc).termSym (a :: t') = false := by
      simp [starts, shippedCfg, List.isPrefixOf, Ne.symm p12]
    simp [this]
  have h2 : parseSpace cur (a :: t') = .ok none := by simp [parseSpace, p1, leafOf]
  have h3 : parseComment x cur (a :: t') = .ok none := by simp [parseComment, hx.commentSym, p3]
  have h5 : lexBin x cur (a :: t') = .ok none :=
    Props.literal_zero (basedLen_plain ha t' _ _ (by decide))
  have h6 : lexOct x cur (a :: t') = .ok none :=
    Props.literal_zero (basedLen_plain ha t' _ _ (by decide))
  have h7 : lexHex x cur (a :: t') = .ok none :=
    Props.literal_zero (basedLen_plain ha t' _ _ (by decide))
  have h8 : lexArb x cur (a :: t') = .ok none := Props.literal_zero (arbLen_plain ha t')
  have h9 : lexExp x cur (a :: t') = .ok none :=
    Props.literal_zero (by simp [expLen, decimalLen_plain ha])
  have h10 : lexPercent x cur (a :: t') = .ok none :=
    Props.literal_zero (by simp [percentLen, decimalLen_plain ha])
  have h11 : lexNumber x cur (a :: t') = .ok none := Props.literal_zero (decimalLen_plain ha t')
  have h13 : parseString x cur (a :: t') = .ok none := by
    simp [parseString, readString, hx.strSym, p5]
  have h14 : (shippedCfg x funcs inc).pointerName (a :: t') = none := by
    simp only [shippedCfg]
    split
    · rename_i r heq
      simp only [List.cons.injEq] at heq
      exact absurd heq.1 p6
    · rfl
  have h15 : (shippedCfg x funcs inc).funcName (a :: t') = none := by
    simp [shippedCfg, hcall]
  have e : (shippedCfg x funcs inc).parsers = shippedParsers x := rfl
  rw [e]
  have hI : runInner rec (a :: t') fl m = some (.ok nothing, m) := by
    unfold runInner
    split
    · rename_i r heq
      simp only [List.cons.injEq] at heq
      exact absurd heq.1 p7
    · rfl
  have hL : runInline rec (a :: t') fl m = some (.ok nothing, m) := by
    unfold runInline
    split
    · rename_i r heq
      simp only [List.cons.injEq] at heq
      exact absurd heq.1 p10
    · rfl
  simp [shippedParsers, tryParsers, runParser, h1, h2, h3, h4, h5, h6, h7, h8, h9, h10, h11, h12,
    h13, h14, h15, hI, hL, hk, hu, nothing, runFunc, stopIf, runEnd, starts, List.isPrefixOf,
    Ne.symm p9, Ne.symm p8, Ne.symm p11]

end

end MC.Unit.Table
