import Verif.Lemmas.Turns

/-!
# What is written is read
-/

namespace MC.Parse
open MC.Props MC.Unit.Table MC.Parse.Spec

theorem wholeName {w : Text} (h : IsName w) : WholeName w := by
  obtain ⟨a, t, rfl, ha, ht⟩ := h
  refine ⟨by simp, ?_⟩
  unfold nameLen
  dsimp only
  rw [if_pos (by simpa using ha)]
  have : t.takeWhile (fun c => isLetter c || c.isDigit || decide (c = '_')) = t := by
    rw [List.takeWhile_eq_self_iff]
    exact ht
  simp [this, Nat.add_comm]

section
variable {x : Lex} (hx : SymbolsOk x)

theorem freeWord {w : Text} (h : FreeName x w) : Word x w :=
  ⟨wholeName h.name, h.noBool, h.noOp⟩

include hx

theorem tableOk_of : TableOk x :=
  ⟨hx.alpha, hx.word, hx.strSym, hx.commentSym, hx.opSep, hx.symbols⟩

omit hx in
theorem plain_of {a : Char} (h1 : isSpaceChar a = false) (h2 : a.isDigit = false)
    (h3 : a.toNat < 128 → asciiWord a = true) : plain a = true := by
  have key : a.toNat < 128 → plain a = true := by
    intro h
    exact ascii_cases (P := fun a => asciiWord a = true → a.isDigit = false → plain a = true)
      (by decide +kernel) (fun c hc _ hw _ => by
        have := asciiWord_ascii hw
        omega) a (h3 h) h2
  by_cases h : a.toNat < 128
  · exact key h
  · have hs : sep a = false := by simp [sep, h]
    have hn : ∀ c : Char, c.toNat < 128 → a ≠ c := by rintro c hc rfl; exact h hc
    unfold plain
    rw [h1, h2, hs]
    have : (['#', '-', '\'', '@', '(', ')', ',', '{', '}', '\n'].contains a) = false := by
      simp only [List.contains_eq_mem, List.mem_cons, List.not_mem_nil, or_false, decide_eq_false_iff_not,
        not_or]
      refine ⟨?_, ?_, ?_, ?_, ?_, ?_, ?_, ?_, ?_, ?_⟩ <;> exact hn _ (by decide)
    rw [this]
    rfl

omit hx in
theorem reads_of {n : Text} (h : IsUnit x n) : Reads x n where
  plainStart := by
    obtain ⟨a, t, e, h1, h2, h3⟩ := h.start
    exact ⟨a, t, e, plain_of h1 h2 h3⟩
  noOp := by
    rintro op hop ⟨v, hv⟩
    obtain ⟨h1, h2, h3⟩ := h.noOp op hop v hv.symm
    refine ⟨List.all_eq_true.2 h2, h1, ?_⟩
    rw [← hv, List.drop_left]
    exact h3
  noBool := h.noBool
  noConst := h.noConst
  noCall := h.noCall
  isUnit := h.isUnit
  short := h.short

theorem varHere {w rest : Text} (h : IsVar x w) (h1 : NoLonger x.unitNames (lowerText w) rest.head?)
    (h2 : NoLonger x.unitSymbols w rest.head?) : VarHere x w rest where
  word := freeWord h.free
  noConst := h.noConst
  noUnit := by
    intro k hk hle hend
    refine h.noUnit (w.take k) (w.drop k) (List.take_append_drop k w).symm ?_ hend
    intro e
    have := congrArg List.length e
    rw [List.length_take, List.length_nil, Nat.min_eq_left hle] at this
    omega
  noLonger := fun c hc => ⟨h1 c hc, h2 c hc⟩
  noWord := by
    rintro y hy ⟨v, hv⟩
    obtain ⟨c, hc, hl⟩ := h.noWord y hy v hv.symm
    refine ⟨c, ?_, hl⟩
    rw [← hv, List.drop_left]
    exact hc
  words := hx.words

omit hx in
theorem numberAllowed_append (cur : List Item) (it : Item) :
    numberAllowed (cur ++ [it]) = after (numberAllowed cur) it := by
  unfold numberAllowed previousFunctional functionalItems after
  rw [List.filter_append]
  cases h : it.functional with
  | true => simp [List.filter_cons, h]
  | false => simp [List.filter_cons, h]

omit hx in
theorem numberAllowed_items (its : List Item) : numberAllowed its = its.foldl after true := by
  induction its using List.reverseRecOn with
  | nil => rfl
  | append_singleton its it ih => rw [numberAllowed_append, ih, List.foldl_append]; rfl

theorem varHere_of {w r : Text} {nl b : Bool} (h : Leaf x nl b w .var r.head?) : VarHere x w r ∧ EndsName r := by
  generalize hn : r.head? = next at h
  cases h with
  | var h1 h2 h3 h4 h5 =>
    subst hn
    exact ⟨varHere hx h1 h4 h5, h2, h3⟩

variable (funcs : List Text) (inc : List Item → Bool) (rec : ParseFn) (m : Cache)

/-- A turn at a word. -/
theorem turn_leaf (fl : Flags) (done : List (List Item)) (cur : List Item) {nl : Bool} {t : Text}
    {k : Kind} {rest : Text} (hfl : fl.array = true → stepFree (.leaf k t) = true) (hnl : nl = true → fl.ignoreTerm = true)
    (h : Leaf x nl (numberAllowed cur) t k rest.head?) :
    tryParsers (shippedCfg x funcs inc) rec (t ++ rest) fl (shippedParsers x) done cur m
      = some (.ok (.go done (cur ++ [.leaf k t]) t.length), m) := by
  generalize hb : numberAllowed cur = b at h
  generalize hn : rest.head? = next at h
  cases h with
  | @space _ c _ h1 h2 =>
    refine turn_space funcs inc rec fl done cur m rest ?_ h1
    by_cases hc : c = '\n'
    · exact .inr (hnl (h2 hc))
    · exact .inl hc
  | comment h1 h2 => exact turn_comment hx funcs inc rec fl done cur m h1 (by rw [hn]; exact h2)
  | num h1 h2 => exact turn_num hx funcs inc rec fl done cur m h1 (fun c hc => by
      have q := h2 c (by rw [← hn, hc])
      exact ⟨q.1, fun e => absurd e q.2.1, q.2.2⟩) hb
  | bool h1 h2 => exact turn_bool hx funcs inc rec fl done cur m h1 (fun c hc => h2 c (by rw [← hn, hc]))
  | str s =>
    exact turn_string x funcs inc hx.strSym hx.escChar (by rw [hx.commentSym]; decide) (by
      intro op hop
      obtain ⟨a, t, rfl, _, _, _, h⟩ := hx.opHead op hop
      refine ⟨by simp, ?_⟩
      simp only [List.head?_cons, ne_eq, Option.some.injEq]
      rintro rfl
      exact h (by decide)) rec fl done cur s rest m
  | op h1 h2 h3 h4 =>
    refine turn_op hx funcs inc rec fl done cur m ⟨h1, ?_, ?_, ?_, hx.opBool _ h1⟩
    · intro c hc
      exact h2 c (by rw [← hn, hc])
    · cases b with
      | false => exact .inl hb
      | true =>
        refine .inr ?_
        intro c s he
        cases t with
        | nil =>
          obtain ⟨_, _, e, _⟩ := hx.opHead _ h1
          cases e
        | cons a t =>
          simp only [List.cons_append, List.cons.injEq] at he
          obtain ⟨rfl, he⟩ := he
          cases t with
          | nil =>
            refine h4 rfl rfl c ?_
            rw [← hn, show rest = c :: s from he]
            rfl
          | cons d t =>
            simp only [List.cons_append, List.cons.injEq] at he
            rw [← he.1]
            exact hx.opMinus _ h1 d t rfl
    · rintro ⟨a, ha, hl⟩ c hc
      exact h3 a ha hl c (by rw [← hn, hc])
  | const h1 h2 h3 h4 h5 =>
    exact turn_const hx funcs inc rec fl done cur m (freeWord h1) h2 h3
      ⟨fun c hc => h4 c (by rw [← hn, hc]), by rw [hn]; exact h5⟩
  | unit h1 h2 h3 h4 h5 =>
    subst hn
    have hr : RestOk rest := by
      intro c hc
      obtain ⟨q1, q2⟩ := h2 c hc
      simp [sep, q1, q2, h3 c hc]
    exact turn_unit (tableOk_of hx) (reads_of h1) hr (fun c hc => ⟨h4 c hc, h5 c hc⟩) funcs inc rec
      fl done cur m
  | special h1 h2 h3 h4 h5 =>
    subst hn
    exact turn_special hx funcs inc rec fl done cur m (freeWord h1.free) h1.letters h1.mem h1.noConst
      h1.noUnit (fun c hc => ⟨h4 c hc, h5 c hc⟩) hx.words ⟨h2, h3⟩
  | var h1 h2 h3 h4 h5 =>
    subst hn
    exact turn_var hx funcs inc rec fl done cur m (varHere hx h1 h4 h5) ⟨h2, h3⟩ (fun hf => by
      have := hfl hf
      simp only [stepFree, Bool.not_eq_true', ← Bool.not_eq_true, List.isPrefixOf_iff_prefix] at this
      exact this)

theorem leaf_ne {nl b : Bool} {t : Text} {k : Kind} {next : Option Char}
    (h : Leaf x nl b t k next) : t ≠ [] := by
  cases h with
  | space => simp
  | comment => simp
  | num h =>
    obtain ⟨s, ip, fp, rfl, _, h, _⟩ := h
    simp [h]
  | bool h =>
    rintro rfl
    rcases h with h | h <;> simp [lowerText] at h
  | str s => simp [quoted]
  | op h =>
    obtain ⟨a, t, e, _⟩ := hx.opHead _ h
    simp [e]
  | const h =>
    obtain ⟨a, t, rfl, _⟩ := h.name
    simp
  | unit h =>
    obtain ⟨a, t, rfl, _⟩ := h.start
    simp
  | special h =>
    obtain ⟨a, t, rfl, _⟩ := h.free.name
    simp
  | var h =>
    obtain ⟨a, t, rfl, _⟩ := h.free.name
    simp

omit hx in
theorem stepFreeAll_append (a b : List Item) : stepFreeAll (a ++ b) = (stepFreeAll a && stepFreeAll b) := by
  induction a with
  | nil => rfl
  | cons it a ih => simp [stepFreeAll, ih, Bool.and_assoc]

omit hx in
/-- What the loop over the elements of an array needs of the recursive call. -/
structure ReadsElems (x : Lex) (rec : ParseFn) (m : Cache) (L : Text → List Item → Option Char → Prop) : Prop where
  comma : ∀ {t its}, L t its (some ',') → ∀ r, rec { array := true, ignoreTerm := true } (t ++ ',' :: r) m
    = some (.ok ([its], t.length, some .arrParam), m)
  close : ∀ {t its}, L t its (some ']') → ∀ r, rec { array := true, ignoreTerm := true } (t ++ ']' :: r) m
    = some (.ok ([its], t.length, some .arrEnd), m)
  range : ∀ {t its}, BeforeRange L t its → ∀ r,
    rec { array := true, ignoreTerm := true } (t ++ ('.' :: '.' :: r)) m
      = some (.ok ([its], t.length, some .arrRange), m)
  step : ∀ {t its}, L t its (some 's') → ∀ r, Leaf x true false "step".toList .var r.head? →
    rec { array := true, ignoreTerm := true } (t ++ ("step".toList ++ r)) m
      = some (.ok ([its], t.length, some .arrStep), m)

omit hx in
theorem arrParse_here {next : Text} {i : ℕ} {items : List Item} {t : Text} {its : List Item} {w : Option Stop}
    (hd : next.drop i = t) {len : ℕ}
    (h : rec { array := true, ignoreTerm := true } t m = some (.ok ([its], len, w), m)) :
    arrParse rec next i items m = some (.ok (its, len, w), m) := by
  unfold arrParse
  rw [hd, h]
  rfl

omit hx in
theorem drop_more {next t r : Text} {i : ℕ} (h : next.drop i = t ++ r) : next.drop (i + t.length) = r := by
  rw [← List.drop_drop, h, List.drop_left]

omit hx in
/-- A turn of the loop at an element. -/
theorem arrTurn_element (next rest : Text) {L : Text → List Item → Option Char → Prop}
    (hrec : ReadsElems x rec m L) {ch : Char} {w : Stop} (hch : (ch = ',' ∧ w = .arrParam) ∨ (ch = ']' ∧ w = .arrEnd))
    {t : Text} {its : List Item} (h : Element x L ch t its) (i : ℕ) (items : List Item)
    (hd : next.drop i = t ++ ch :: rest) :
    arrTurn (shippedCfg x funcs inc) rec next i items m
      = some (.ok (i + t.length, items ++ its, some w), m) := by
  have hend : ∀ {t its}, L t its (some ch) → ∀ r, rec { array := true, ignoreTerm := true } (t ++ ch :: r) m
      = some (.ok ([its], t.length, some w), m) := by
    rcases hch with ⟨rfl, rfl⟩ | ⟨rfl, rfl⟩
    · exact hrec.comma
    · exact hrec.close
  have hw : w ≠ .arrRange ∧ w ≠ .arrStep := by
    rcases hch with ⟨rfl, rfl⟩ | ⟨rfl, rfl⟩ <;> decide
  have c1 : (shippedCfg x funcs inc).arrRange = ['.', '.'] := rfl
  have c2 : (shippedCfg x funcs inc).arrStep = "step".toList := rfl
  have c3 : "step".toList.length = 4 := rfl
  have c4 : ['.', '.'].length = 2 := rfl
  cases h with
  | one h hne =>
    unfold arrTurn
    rw [arrParse_here rec m hd (hend h rest)]
    simp [hne, hw]
  | @range a as b bs ha hb hne =>
    have hd' : next.drop i = a ++ ('.' :: '.' :: (b ++ ch :: rest)) := by rw [hd]; simp
    have hd2 : next.drop (i + a.length + 2) = b ++ ch :: rest := by
      rw [← List.drop_drop, drop_more hd']
      rfl
    unfold arrTurn
    rw [arrParse_here rec m hd' (hrec.range ha _)]
    simp only [ha.1, if_false, if_true]
    unfold arrRangePart
    rw [c1, c4, arrParse_here rec m hd2 (hend hb rest)]
    simp [hne, hw]
    omega
  | @step a as b bs c cs ha hb hne hs hc hne2 =>
    have hd' : next.drop i = a ++ ('.' :: '.' :: (b ++ ("step".toList ++ (c ++ ch :: rest)))) := by
      rw [hd]; simp only [List.append_assoc, List.cons_append]
    have hd2 : next.drop (i + a.length + 2) = b ++ ("step".toList ++ (c ++ ch :: rest)) := by
      rw [← List.drop_drop, drop_more hd']
      rfl
    have hd3 : next.drop (i + a.length + 2 + b.length + 4) = c ++ ch :: rest := by
      rw [← List.drop_drop, drop_more hd2]
      rfl
    unfold arrTurn
    rw [arrParse_here rec m hd' (hrec.range ha _)]
    simp only [ha.1, if_false, if_true]
    unfold arrRangePart
    have hc' : (c ++ ch :: rest).head? = c.head?.or (some ch) := by cases c <;> simp
    rw [c1, c4, arrParse_here rec m hd2 (hrec.step hb _ (by rw [hc']; exact hs))]
    simp only [hne, if_false, if_true]
    unfold arrStepPart
    rw [c2, c3, arrParse_here rec m hd3 (hend hc rest)]
    simp only [hne2, if_false, List.length_append, List.length_cons, c3, List.append_assoc, List.cons_append,
      List.nil_append]
    rw [show i + a.length + 2 + b.length + 4 + c.length = i + (a.length + (b.length + (4 + c.length) + 1 + 1)) by omega]

omit hx in
theorem arrLoop_elements (next rest : Text) {L : Text → List Item → Option Char → Prop}
    (hrec : ReadsElems x rec m L) {ts : Text} {its : List Item} (h : Elements x L ts its) :
    ∀ (n i : ℕ) (items : List Item), ts.length < n → next.drop i = ts ++ ']' :: rest →
    arrLoop (shippedCfg x funcs inc) rec next n i items m
      = some (.ok ⟨some [.nest .array (next.take (i + ts.length + 1))
          (items ++ its ++ [.leaf .arrEnd [']']])], some (i + ts.length + 1), .none⟩, m) := by
  have hi : ∀ {i : ℕ} {t : Text} {c : Char} {r : Text}, next.drop i = t ++ c :: r → i < next.length := by
    intro i t c r hd
    by_contra h
    rw [List.drop_of_length_le (by omega)] at hd
    have := congrArg List.length hd
    simp at this
  induction h with
  | @last t its h =>
    intro n i items hn hd
    obtain ⟨n, rfl⟩ : ∃ k, n = k + 1 := ⟨n - 1, by omega⟩
    unfold arrLoop
    rw [if_pos (hi hd), arrTurn_element funcs inc rec m next rest hrec (.inr ⟨rfl, rfl⟩) h i items hd]
    simp [shippedCfg]
  | @more t its ts rest' h hs ih =>
    intro n i items hn hd
    simp only [List.length_append, List.length_cons] at hn
    obtain ⟨n, rfl⟩ : ∃ k, n = k + 1 := ⟨n - 1, by omega⟩
    have hd' : next.drop i = t ++ ',' :: (ts ++ ']' :: rest) := by rw [hd]; simp
    have hd2 : next.drop (i + t.length + 1) = ts ++ ']' :: rest := by
      rw [← List.drop_drop, drop_more hd']
      rfl
    have ih := ih n (i + t.length + 1) (items ++ its ++ [.leaf .arrParam [',']]) (by omega) hd2
    unfold arrLoop
    rw [if_pos (hi hd), arrTurn_element funcs inc rec m next _ hrec (.inl ⟨rfl, rfl⟩) h i items hd']
    simp only [Option.some.injEq, reduceCtorEq, if_false, if_true]
    have e0 : (shippedCfg x funcs inc).arrParam = [','] := rfl
    rw [e0, List.length_singleton, ih]
    have e : i + t.length + 1 + ts.length + 1 = i + (t ++ ',' :: ts).length + 1 := by simp; omega
    rw [e]
    simp

omit hx in
/-- What the turns need of the recursive call. -/
structure ReadsInner (x : Lex) (rec : ParseFn) (m : Cache) (complete : List Item → Prop)
    (L : Bool → Text → List Item → Option Char → Prop) : Prop where
  inner : ∀ {t its}, L true t its (some ')') → ∀ r (fl : Flags), (fl.array = true → stepFreeAll its = true) →
    rec { fl with inner := true, ignoreTerm := true } (t ++ ')' :: r) m
      = some (.ok ([its ++ [.leaf .innerEnd [')']]], t.length, some .innerEnd), m)
  args : ReadsArgs rec m (L true)
  elems : ReadsElems x rec m (fun t its next => L true t its next ∧ stepFreeAll its = true)
  body : ∀ {nl t st}, Body (L nl) nl complete t st → ∀ r (fl : Flags), (fl.array = true → stepFreeAll st.flatten = true) →
    (nl = true → fl.ignoreTerm = true) → (nl = false → (∃ its, complete its) → fl.ignoreTerm = false) →
    rec { fl with inline := true } (t ++ '}' :: r) m
      = some (.ok (st, t.length, some .inlineEnd), m)

variable {complete : List Item → Prop}

theorem reading_ne {n : ℕ} {nl b : Bool} {t : Text} {it : Item} {next : Option Char}
    (h : ReadingC x funcs complete n nl b t it next) : t ≠ [] := by
  cases n with
  | zero =>
    obtain ⟨k, _, h⟩ := h
    exact leaf_ne hx h
  | succ n =>
    rcases h with ⟨k, _, h⟩ | ⟨ts, its, _, rfl, _⟩ | ⟨w, ts, its, _, _, _, rfl, _⟩ | ⟨w, ts, its, _, _, rfl, _⟩ |
      ⟨ts, st, _, rfl, _⟩ | ⟨ts, its, _, rfl, _⟩
    · exact leaf_ne hx h
    all_goals simp

/-- A turn at an item as it is written. -/
theorem turn_reading (fl : Flags) (done : List (List Item)) (cur : List Item) {n : ℕ} {nl : Bool}
    {t : Text} {it : Item} {rest : Text} (hfl : fl.array = true → stepFree it = true)
    (hnl : nl = true → fl.ignoreTerm = true)
    (hterm : nl = false → (∃ its, complete its) → fl.ignoreTerm = false)
    (hrec : ∀ k, n = k + 1 → ReadsInner x rec m complete (fun nl => Line (ReadingC x funcs complete k nl) true))
    (h : ReadingC x funcs complete n nl (numberAllowed cur) t it rest.head?) :
    tryParsers (shippedCfg x funcs inc) rec (t ++ rest) fl (shippedParsers x) done cur m
      = some (.ok (.go done (cur ++ [it]) t.length), m) := by
  cases n with
  | zero =>
    obtain ⟨k, rfl, h⟩ := h
    exact turn_leaf hx funcs inc rec m fl done cur hfl hnl h
  | succ n =>
    have hrec := hrec n rfl
    rcases h with ⟨k, rfl, h⟩ | ⟨ts, its, h, rfl, rfl⟩ | ⟨w, ts, its, hw, hm, h, rfl, rfl⟩ |
      ⟨w, ts, its, hw, h, rfl, rfl⟩ | ⟨ts, st, h, rfl, rfl⟩ | ⟨ts, its, h, rfl, rfl⟩
    · exact turn_leaf hx funcs inc rec m fl done cur hfl hnl h
    · have ht := turn_open hx funcs inc rec fl done cur m (ts ++ ')' :: rest)
        (hrec.inner h rest fl (fun hf => by
          have := hfl hf
          simpa [stepFree, stepFreeAll, stepFreeAll_append] using this))
      have e : '(' :: ts ++ [')'] ++ rest = '(' :: (ts ++ ')' :: rest) := by simp
      have e2 : ('(' :: (ts ++ ')' :: rest)).take (ts.length + 2) = '(' :: ts ++ [')'] := by
        rw [← e]
        have : ts.length + 2 = ('(' :: ts ++ [')']).length := by simp
        rw [this, List.take_left]
      rw [e, ht, e2]
      simp
    · have ht := turn_call hx funcs inc rec fl done cur m (freeWord hw) hm hrec.args h (rest := rest)
      have e : w ++ '(' :: ts ++ [')'] ++ rest = w ++ '(' :: (ts ++ ')' :: rest) := by simp
      rw [e, ht]
      simp
    · have ht := turn_pointer hx funcs inc rec fl done cur m (wholeName hw) hrec.args h (rest := rest)
      have e : '@' :: w ++ '(' :: ts ++ [')'] ++ rest = '@' :: (w ++ '(' :: (ts ++ ')' :: rest)) := by simp
      rw [e, ht]
      simp
    · have ht := turn_brace hx funcs inc rec fl done cur m (ts ++ '}' :: rest)
        (hrec.body h rest fl (fun hf => by
          have := hfl hf
          simpa [stepFree, stepFreeAll] using this) hnl hterm)
      have e : '{' :: ts ++ ['}'] ++ rest = '{' :: (ts ++ '}' :: rest) := by simp
      have e2 : ('{' :: (ts ++ '}' :: rest)).take (ts.length + 2) = '{' :: ts ++ ['}'] := by
        rw [← e]
        have : ts.length + 2 = ('{' :: ts ++ ['}']).length := by simp
        rw [this, List.take_left]
      rw [e, ht, e2]
      simp
    · have e : '[' :: ts ++ [']'] ++ rest = '[' :: (ts ++ ']' :: rest) := by simp
      have e2 : ('[' :: (ts ++ ']' :: rest)).take (1 + ts.length + 1) = '[' :: ts ++ [']'] := by
        rw [← e]
        have : 1 + ts.length + 1 = ('[' :: ts ++ [']']).length := by simp; omega
        rw [this, List.take_left]
      have hl := arrLoop_elements funcs inc rec m ('[' :: (ts ++ ']' :: rest)) rest hrec.elems h
        (('[' :: (ts ++ ']' :: rest)).length + 1) 1 [.leaf .arrStart ['[']]
        (by simp only [List.length_append, List.length_cons]; omega) rfl
      rw [e2] at hl
      rw [e, turn_array hx funcs inc rec fl done cur m (len := 1 + ts.length + 1) (by omega) hl]
      simp
      omega

/-- The loop at a line. -/
theorem loop_line (fl : Flags) {n : ℕ} {nl : Bool}
    (hnl : nl = true → fl.ignoreTerm = true)
    (hterm : nl = false → (∃ its, complete its) → fl.ignoreTerm = false)
    (hrec : ∀ k, n = k + 1 → ReadsInner x rec m complete (fun nl => Line (ReadingC x funcs complete k nl) true))
    {b : Bool} {t : Text} {its : List Item} {tail : Option Char}
    (h : Line (ReadingC x funcs complete n nl) b t its tail) (hfl : fl.array = true → stepFreeAll its = true) :
    ∀ (rest : Text) (N pos : ℕ) (done : List (List Item)) (cur : List Item),
      rest.head? = tail → numberAllowed cur = b →
      parseLoop (shippedCfg x funcs inc) rec fl (its.length + N) pos (t ++ rest) done cur m
        = parseLoop (shippedCfg x funcs inc) rec fl N (pos + t.length) rest done (cur ++ its) m := by
  induction h with
  | nil => intro rest N pos done cur _ _; simp
  | @cons b t it rest' its tail hr hl ih =>
    intro rest N pos done cur htail hb
    have hne := reading_ne hx funcs hr
    have hfl1 : fl.array = true → stepFree it = true ∧ stepFreeAll its = true := by
      intro hf
      have := hfl hf
      simpa [stepFreeAll] using this
    have ih := ih (fun hf => (hfl1 hf).2)
    have ht := turn_reading hx funcs inc rec m fl done cur (fun hf => (hfl1 hf).1) hnl hterm hrec (rest := rest' ++ rest)
      (t := t) (it := it) (by
        rw [hb]
        have : (rest' ++ rest).head? = rest'.head?.or tail := by
          rw [← htail]; cases rest' <;> simp
        rw [this]
        exact hr)
    obtain ⟨a, s, e⟩ := List.exists_cons_of_ne_nil hne
    have ih := ih rest N (pos + t.length) done (cur ++ [it]) htail (by
      rw [numberAllowed_append, hb])
    have hd : (t ++ (rest' ++ rest)).drop t.length = rest' ++ rest := List.drop_left
    rw [List.length_cons, Nat.add_right_comm, List.append_assoc]
    have hpos : t.length ≠ 0 := by simpa using hne
    have hcons : t ++ (rest' ++ rest) = a :: (s ++ (rest' ++ rest)) := by rw [e]; rfl
    rw [parseLoop]
    rw [hcons] at hd ht ⊢
    dsimp only
    have hp : (shippedCfg x funcs inc).parsers = shippedParsers x := rfl
    rw [hp, ht]
    dsimp only
    rw [if_neg hpos, hd, ih]
    simp [Nat.add_assoc]

omit hx in
theorem line_length {R : Bool → Text → Item → Option Char → Prop}
    (hR : ∀ b t it next, R b t it next → t ≠ []) {b : Bool} {t : Text} {its : List Item}
    {tail : Option Char} (h : Line R b t its tail) : its.length ≤ t.length := by
  induction h with
  | nil => simp
  | cons hr _ ih =>
    have := List.length_pos_iff.2 (hR _ _ _ _ hr)
    simp only [List.length_append, List.length_cons]
    omega

theorem parse_line (bound : ℕ) (fl : Flags) {n : ℕ} {nl : Bool}
    (hnl : nl = true → fl.ignoreTerm = true)
    (hterm : nl = false → (∃ its, complete its) → fl.ignoreTerm = false)
    (hrec : ∀ k, n = k + 1 → ReadsInner x (parse (shippedCfg x funcs inc) bound) m complete
      (fun nl => Line (ReadingC x funcs complete k nl) true))
    {t : Text} {its : List Item} {tail : Option Char}
    (h : Line (ReadingC x funcs complete n nl) true t its tail) (hfl : fl.array = true → stepFreeAll its = true)
    (rest : Text) (hr : rest.head? = tail) :
    ∃ N, rest.length < N ∧ parse (shippedCfg x funcs inc) (bound + 1) fl (t ++ rest) m
      = parseLoop (shippedCfg x funcs inc) (parse (shippedCfg x funcs inc) bound) fl N t.length rest [] its m := by
  have hle := line_length (R := ReadingC x funcs complete n nl) (fun _ _ _ _ h => reading_ne hx funcs h) h
  refine ⟨(t ++ rest).length + 1 - its.length, by simp; omega, ?_⟩
  have := loop_line hx funcs inc (parse (shippedCfg x funcs inc) bound) m fl hnl hterm hrec h hfl rest
    ((t ++ rest).length + 1 - its.length) 0 [] [] hr rfl
  rw [show its.length + ((t ++ rest).length + 1 - its.length) = (t ++ rest).length + 1 by
    simp; omega] at this
  rw [Nat.zero_add, List.nil_append] at this
  exact this

/-- The statements of an inline function. -/
theorem loop_body (hc : ∀ its, complete its → inc its = false ∧ m ≠ some (itemsText its))
    (fl : Flags) {n : ℕ} {nl : Bool} (hin : fl.inline = true)
    (hnl : nl = true → fl.ignoreTerm = true)
    (hterm : nl = false → (∃ its, complete its) → fl.ignoreTerm = false)
    (hrec : ∀ k, n = k + 1 → ReadsInner x rec m complete (fun nl => Line (ReadingC x funcs complete k nl) true))
    {t : Text} {st : List (List Item)} (h : Body (Line (ReadingC x funcs complete n nl) true) nl complete t st)
    (hfl : fl.array = true → stepFreeAll st.flatten = true) (r : Text) : ∀ (N pos : ℕ) (done : List (List Item)), t.length < N →
      parseLoop (shippedCfg x funcs inc) rec fl N pos (t ++ '}' :: r) done [] m
        = some (.ok (done ++ st, pos + t.length, some .inlineEnd), m) := by
  have hpar : (shippedCfg x funcs inc).parsers = shippedParsers x := rfl
  induction h with
  | @last t its hl =>
    intro N pos done hN
    have hle := line_length (R := ReadingC x funcs complete n nl) (fun _ _ _ _ h => reading_ne hx funcs h) hl
    have e := loop_line hx funcs inc rec m fl hnl hterm hrec hl (fun hf => by
      have := hfl hf
      simp only [List.flatten_cons, stepFreeAll_append, Bool.and_eq_true] at this
      exact this.1.1) ('}' :: r) (N - its.length) pos done [] rfl rfl
    rw [show its.length + (N - its.length) = N by omega, List.nil_append] at e
    rw [e]
    obtain ⟨k, hk⟩ : ∃ k, N - its.length = k + 1 := ⟨N - its.length - 1, by omega⟩
    rw [hk, parseLoop]
    dsimp only
    rw [hpar, turn_inlineEnd hx funcs inc rec fl done its m r hin]
    rfl
  | @more t its ts st hn hl hcomp hp ih =>
    intro N pos done hN
    simp only [List.length_append, List.length_cons] at hN
    have hle := line_length (R := ReadingC x funcs complete n nl) (fun _ _ _ _ h => reading_ne hx funcs h) hl
    have hfl1 : fl.array = true → stepFreeAll its = true ∧ stepFreeAll st.flatten = true := by
      intro hf
      have := hfl hf
      simp only [List.flatten_cons, stepFreeAll_append, Bool.and_eq_true] at this
      exact ⟨this.1.1, this.2⟩
    have ih := ih (fun hf => (hfl1 hf).2)
    have e := loop_line hx funcs inc rec m fl hnl hterm hrec hl (fun hf => (hfl1 hf).1) ('\n' :: (ts ++ '}' :: r)) (N - its.length) pos
      done [] rfl rfl
    rw [show its.length + (N - its.length) = N by omega, List.nil_append] at e
    rw [List.append_assoc, List.cons_append, e]
    obtain ⟨k, hk⟩ : ∃ k, N - its.length = k + 1 := ⟨N - its.length - 1, by omega⟩
    obtain ⟨c1, c2⟩ := hc _ hcomp
    have ht := turn_term (x := x) funcs inc rec fl done its m (ts ++ '}' :: r) (hterm hn ⟨_, hcomp⟩) c1 c2
    rw [hk, parseLoop]
    dsimp only
    rw [hpar, ht]
    dsimp only
    rw [if_neg (by decide), List.drop_one, List.tail_cons, ih _ _ _ (by omega)]
    simp [Nat.add_assoc, Nat.add_comm 1]

variable (hc : ∀ its, complete its → inc its = false ∧ m ≠ some (itemsText its))
include hc

theorem readsInner_step (bound n : ℕ)
    (hrec : ∀ k, n = k + 1 → ReadsInner x (parse (shippedCfg x funcs inc) bound) m complete
      (fun nl => Line (ReadingC x funcs complete k nl) true)) :
    ReadsInner x (parse (shippedCfg x funcs inc) (bound + 1)) m complete
      (fun nl => Line (ReadingC x funcs complete n nl) true) where
  inner := by
    intro t its h r fl hfl
    obtain ⟨N, hN, e⟩ := parse_line hx funcs inc m bound { fl with inner := true, ignoreTerm := true }
      (fun _ => rfl) (fun h => by cases h) hrec h hfl (')' :: r) rfl
    rw [e]
    obtain ⟨N, rfl⟩ : ∃ k, N = k + 1 := ⟨N - 1, by omega⟩
    rw [parseLoop]
    have ht := turn_close hx funcs inc (parse (shippedCfg x funcs inc) bound)
      { fl with inner := true, ignoreTerm := true } [] its m r rfl
    have hp : (shippedCfg x funcs inc).parsers = shippedParsers x := rfl
    dsimp only
    rw [hp, ht]
    rfl
  args := {
    comma := by
      intro t its h r
      obtain ⟨N, hN, e⟩ := parse_line hx funcs inc m bound { func := true, ignoreTerm := true }
        (fun _ => rfl) (fun h => by cases h) hrec h (fun h => by cases h) (',' :: r) rfl
      rw [e]
      obtain ⟨N, rfl⟩ : ∃ k, N = k + 1 := ⟨N - 1, by omega⟩
      rw [parseLoop]
      have ht := turn_comma hx funcs inc (parse (shippedCfg x funcs inc) bound)
        { func := true, ignoreTerm := true } [] its m r rfl
      have hp : (shippedCfg x funcs inc).parsers = shippedParsers x := rfl
      dsimp only
      rw [hp, ht]
      rfl
    close := by
      intro t its h r
      obtain ⟨N, hN, e⟩ := parse_line hx funcs inc m bound { func := true, ignoreTerm := true }
        (fun _ => rfl) (fun h => by cases h) hrec h (fun h => by cases h) (')' :: r) rfl
      rw [e]
      obtain ⟨N, rfl⟩ : ∃ k, N = k + 1 := ⟨N - 1, by omega⟩
      rw [parseLoop]
      have ht := turn_funcEnd hx funcs inc (parse (shippedCfg x funcs inc) bound)
        { func := true, ignoreTerm := true } [] its m r rfl rfl
      have hp : (shippedCfg x funcs inc).parsers = shippedParsers x := rfl
      dsimp only
      rw [hp, ht]
      rfl }
  elems := {
    comma := by
      rintro t its ⟨h, hs⟩ r
      obtain ⟨N, hN, e⟩ := parse_line hx funcs inc m bound { array := true, ignoreTerm := true }
        (fun _ => rfl) (fun h => by cases h) hrec h (fun _ => hs) (',' :: r) rfl
      rw [e]
      obtain ⟨N, rfl⟩ : ∃ k, N = k + 1 := ⟨N - 1, by omega⟩
      rw [parseLoop]
      have ht := turn_arrParam hx funcs inc (parse (shippedCfg x funcs inc) bound)
        { array := true, ignoreTerm := true } [] its m r rfl rfl
      have hp : (shippedCfg x funcs inc).parsers = shippedParsers x := rfl
      dsimp only
      rw [hp, ht]
      rfl
    close := by
      rintro t its ⟨h, hs⟩ r
      obtain ⟨N, hN, e⟩ := parse_line hx funcs inc m bound { array := true, ignoreTerm := true }
        (fun _ => rfl) (fun h => by cases h) hrec h (fun _ => hs) (']' :: r) rfl
      rw [e]
      obtain ⟨N, rfl⟩ : ∃ k, N = k + 1 := ⟨N - 1, by omega⟩
      rw [parseLoop]
      have ht := turn_arrEnd hx funcs inc (parse (shippedCfg x funcs inc) bound)
        { array := true, ignoreTerm := true } [] its m r rfl
      have hp : (shippedCfg x funcs inc).parsers = shippedParsers x := rfl
      dsimp only
      rw [hp, ht]
      rfl
    range := by
      rintro t its ⟨_, ⟨h, hs⟩ | ⟨u, its', w, ⟨h, hs⟩, hw, ho, rfl, rfl⟩⟩ r
      · obtain ⟨N, hN, e⟩ := parse_line hx funcs inc m bound { array := true, ignoreTerm := true }
          (fun _ => rfl) (fun h => by cases h) hrec h (fun _ => hs) ('.' :: '.' :: r) rfl
        rw [e]
        obtain ⟨N, rfl⟩ : ∃ k, N = k + 1 := ⟨N - 1, by omega⟩
        rw [parseLoop]
        have ht := turn_arrRange hx funcs inc (parse (shippedCfg x funcs inc) bound)
          { array := true, ignoreTerm := true } [] its m r rfl
        have hp : (shippedCfg x funcs inc).parsers = shippedParsers x := rfl
        dsimp only
        rw [hp, ht]
        rfl
      · have hne : w ≠ [] := by
          obtain ⟨a, s, e, _⟩ := literal_head hw
          simp [e]
        obtain ⟨a, s, rfl⟩ := List.exists_cons_of_ne_nil hne
        obtain ⟨N, hN, e⟩ := parse_line hx funcs inc m bound { array := true, ignoreTerm := true }
          (fun _ => rfl) (fun h => by cases h) hrec h (fun _ => hs) ((a :: s) ++ '.' :: '.' :: r) rfl
        rw [List.append_assoc, e]
        simp only [List.length_append, List.length_cons] at hN
        obtain ⟨N, rfl⟩ : ∃ k, N = k + 2 := ⟨N - 2, by omega⟩
        rw [parseLoop]
        have ht := turn_num hx funcs inc (parse (shippedCfg x funcs inc) bound)
          { array := true, ignoreTerm := true } [] its' m hw (rest := '.' :: '.' :: r) (by
            intro c hc
            simp only [List.head?_cons, Option.some.injEq] at hc
            subst hc
            refine ⟨by decide, ?_, by decide, by decide⟩
            intro _ d hd
            simp only [List.tail_cons, List.head?_cons, Option.some.injEq] at hd
            subst hd
            decide) (by rw [numberAllowed_items]; exact ho)
        have hp : (shippedCfg x funcs inc).parsers = shippedParsers x := rfl
        simp only [List.cons_append] at ht ⊢
        rw [hp, ht]
        have ht2 := turn_arrRange hx funcs inc (parse (shippedCfg x funcs inc) bound)
          { array := true, ignoreTerm := true } [] (its' ++ [.leaf .num (a :: s)]) m r rfl
        have hd : (a :: (s ++ '.' :: '.' :: r)).drop (a :: s).length = '.' :: '.' :: r :=
          List.drop_left (l₁ := a :: s)
        dsimp only
        rw [if_neg (by simp), hd, parseLoop]
        dsimp only
        rw [hp, ht2]
        simp
    step := by
      rintro t its ⟨h, hs⟩ r hl
      obtain ⟨N, hN, e⟩ := parse_line hx funcs inc m bound { array := true, ignoreTerm := true }
        (fun _ => rfl) (fun h => by cases h) hrec h (fun _ => hs) ("step".toList ++ r) rfl
      rw [e]
      obtain ⟨N, rfl⟩ : ∃ k, N = k + 1 := ⟨N - 1, by omega⟩
      rw [parseLoop]
      obtain ⟨hv, hr⟩ := varHere_of hx hl
      have ht := turn_arrStep hx funcs inc (parse (shippedCfg x funcs inc) bound)
        { array := true, ignoreTerm := true } [] its m hv hr rfl
      have hp : (shippedCfg x funcs inc).parsers = shippedParsers x := rfl
      have hcons : "step".toList ++ r = 's' :: ("tep".toList ++ r) := rfl
      rw [hcons] at ht ⊢
      dsimp only
      rw [hp, ht]
      rfl }
  body := by
    intro nl t st h r fl hfl hnl hterm
    rw [parse]
    have := loop_body hx funcs inc (parse (shippedCfg x funcs inc) bound) m hc { fl with inline := true } rfl
      hnl hterm hrec h hfl r ((t ++ '}' :: r).length + 1) 0 [] (by simp; omega)
    rw [Nat.zero_add, List.nil_append] at this
    exact this

theorem readsInner (extra : ℕ) : ∀ n, ReadsInner x (parse (shippedCfg x funcs inc) (n + extra + 1)) m complete
    (fun nl => Line (ReadingC x funcs complete n nl) true)
  | 0 => readsInner_step hx funcs inc m hc _ _ (fun k hk => by omega)
  | n + 1 => readsInner_step hx funcs inc m hc _ _ (fun k hk => by
      obtain rfl : n = k := by omega
      rw [show n + 1 + extra = n + extra + 1 by omega]
      exact readsInner extra n)

theorem readsInner_at (extra : ℕ) {n : ℕ} : ∀ k, n = k + 1 →
    ReadsInner x (parse (shippedCfg x funcs inc) (n + extra)) m complete
      (fun nl => Line (ReadingC x funcs complete k nl) true) := by
  intro k hk
  subst hk
  rw [show k + 1 + extra = k + extra + 1 by omega]
  exact readsInner hx funcs inc m hc extra k

/-- The items before the next thing, wherever a line stands. -/
theorem parse_prefix (extra : ℕ) (fl : Flags) {n : ℕ} {nl : Bool} (hfl : fl.array = false)
    (hnl : nl = true → fl.ignoreTerm = true)
    (hterm : nl = false → (∃ its, complete its) → fl.ignoreTerm = false)
    {t : Text} {its : List Item} {tail : Option Char}
    (h : Line (ReadingC x funcs complete n nl) true t its tail) (rest : Text) (hr : rest.head? = tail) :
    ∃ N, rest.length < N ∧ parse (shippedCfg x funcs inc) (n + extra + 1) fl (t ++ rest) m
      = parseLoop (shippedCfg x funcs inc) (parse (shippedCfg x funcs inc) (n + extra)) fl N
          t.length rest [] its m :=
  parse_line hx funcs inc m (n + extra) fl hnl hterm (readsInner_at hx funcs inc m hc extra) h
    (fun h => by rw [hfl] at h; cases h) rest hr

/-- A whole text. -/
theorem parse_whole (extra : ℕ) (fl : Flags) {n : ℕ} {nl : Bool} (hfl : fl.array = false)
    (hnl : nl = true → fl.ignoreTerm = true)
    (hterm : nl = false → (∃ its, complete its) → fl.ignoreTerm = false) {t : Text} {its : List Item}
    (h : Line (ReadingC x funcs complete n nl) true t its none) :
    parse (shippedCfg x funcs inc) (n + extra + 1) fl t m
      = some (.ok ([its], t.length, none), m) := by
  obtain ⟨N, hN, e⟩ := parse_prefix hx funcs inc m hc extra fl hfl hnl hterm h [] rfl
  rw [List.append_nil] at e
  rw [e]
  obtain ⟨N, rfl⟩ : ∃ k, N = k + 1 := ⟨N - 1, by omega⟩
  rw [parseLoop]
  rfl

/-- Programs. -/
theorem loop_program (extra : ℕ) (fl : Flags) {n : ℕ} (hfl : fl.array = false)
    (hfalse : fl.ignoreTerm = false) {comp : List Item → Prop}
    (ht : ∀ its, comp its → inc its = false ∧ m ≠ some (itemsText its))
    {t : Text} {st : List (List Item)} (h : ProgramC x funcs n complete comp t st) :
    ∀ (N pos : ℕ) (done : List (List Item)), t.length < N →
      parseLoop (shippedCfg x funcs inc) (parse (shippedCfg x funcs inc) (n + extra)) fl N pos t done [] m
        = some (.ok (done ++ st, pos + t.length, none), m) := by
  have hrec := readsInner_at hx funcs inc m hc extra (n := n)
  induction h with
  | @last t its hl =>
    intro N pos done hN
    have hle := line_length (R := ReadingC x funcs complete n false) (fun _ _ _ _ h => reading_ne hx funcs h) hl
    have e := loop_line hx funcs inc (parse (shippedCfg x funcs inc) (n + extra)) m fl
      (by simp) (fun _ _ => hfalse) hrec hl (fun h => by rw [hfl] at h; cases h) [] (N - its.length) pos done [] rfl rfl
    rw [show its.length + (N - its.length) = N by omega, List.append_nil, List.nil_append] at e
    rw [e]
    obtain ⟨k, hk⟩ : ∃ k, N - its.length = k + 1 := ⟨N - its.length - 1, by omega⟩
    rw [hk, parseLoop]
  | @more t its ts st hl hcomp hp ih =>
    intro N pos done hN
    simp only [List.length_append, List.length_cons] at hN
    have hle := line_length (R := ReadingC x funcs complete n false) (fun _ _ _ _ h => reading_ne hx funcs h) hl
    have e := loop_line hx funcs inc (parse (shippedCfg x funcs inc) (n + extra)) m fl
      (by simp) (fun _ _ => hfalse) hrec hl (fun h => by rw [hfl] at h; cases h) ('\n' :: ts) (N - its.length) pos done [] rfl rfl
    rw [show its.length + (N - its.length) = N by omega, List.nil_append] at e
    rw [e]
    obtain ⟨k, hk⟩ : ∃ k, N - its.length = k + 1 := ⟨N - its.length - 1, by omega⟩
    obtain ⟨c1, c2⟩ := ht _ hcomp
    have ht := turn_term (x := x) funcs inc (parse (shippedCfg x funcs inc) (n + extra)) fl done its m ts
      hfalse c1 c2
    have hpar : (shippedCfg x funcs inc).parsers = shippedParsers x := rfl
    rw [hk, parseLoop]
    dsimp only
    rw [hpar, ht]
    dsimp only
    rw [if_neg (by decide), List.drop_one, List.tail_cons, ih _ _ _ (by omega)]
    simp [Nat.add_assoc, Nat.add_comm 1]

end
end MC.Parse
