import Verif.Model.UnitName
import Verif.Model.UnitCalc
import Verif.Props.Display
import Verif.Props.UnitMeaning

/-! # Lemmas on how units are written -/

set_option linter.unusedSectionVars false

namespace MC.Unit
open MC MC.Spec MC.Parse.Spec MC.Props
open MC.Parse (Text)

/-! ## Exponents -/

theorem decText_reads {p : ℕ} (hp : 6 < p) {q : ℚ} {z : ℤ} (hz : q = z / 10 ^ 6) (hs : |z| < 10 ^ p) :
    rnd p q = q ∧ IsLiteral (decText p q) ∧
      ∃ r, parseDecimal p (decText p q) = some (.ok r) ∧ r.val = q := by
  have hr : rnd p q = q := rnd_of_fits ⟨z, -6, by rw [hz, zpow_neg]; rfl, hs⟩
  refine ⟨hr, ?_⟩
  have h6 : (q * 10 ^ 6).den = 1 := by
    rw [hz, div_mul_cancel₀ _ (by norm_num)]
    rfl
  obtain ⟨k, hk⟩ : ∃ k, (List.range (p + 7)).find? (fun k => (q * 10 ^ k).den = 1) = some k := by
    rw [← Option.isSome_iff_exists, List.find?_isSome]
    exact ⟨6, by simp, by simpa using h6⟩
  have hden : (q * 10 ^ k).den = 1 := by simpa using List.find?_some hk
  have hle : k ≤ 6 := by
    by_contra hc
    rw [List.find?_range_eq_some] at hk
    have := hk.2.2 6 (by omega)
    simp [h6] at this
  set c : ℤ := (q * 10 ^ k).num with hc
  have hq : q = c / 10 ^ k := by
    have : q * 10 ^ k = c := by
      rw [hc]
      exact (Rat.coe_int_num_of_den_eq_one hden).symm
    rw [← this]
    field_simp
  have htext : decText p q = fmtFixed (decide (q < 0)) c.natAbs k := by
    simp only [decText, hr, hk, Option.getD_some, ← hc]
  obtain ⟨ip, fp, e, h1, h2, h3, h4, h5, -⟩ := fmtFixed_parts (decide (q < 0)) c.natAbs k
  have hval : decimalOf (decide (q < 0)) ip fp = (c : ℚ) / 10 ^ k := by
    rw [h5]
    have hpos : (0 : ℚ) < 10 ^ k := by positivity
    by_cases hneg : q < 0
    · have : c < 0 := by
        rw [hq, div_neg_iff] at hneg
        rcases hneg with h | h
        · exact absurd h.2 (not_lt.2 hpos.le)
        · exact_mod_cast h.1
      simp only [hneg, decide_true, if_true]
      rw [Nat.cast_natAbs, abs_of_neg this]
      push_cast
      ring
    · have : 0 ≤ c := by
        by_contra hcc
        push Not at hcc
        apply hneg
        rw [hq]
        exact div_neg_of_neg_of_pos (by exact_mod_cast hcc) hpos
      simp only [hneg, decide_false, Bool.false_eq_true, if_false]
      rw [Nat.cast_natAbs, abs_of_nonneg this]
      ring
  rw [htext, e]
  constructor
  · refine ⟨if decide (q < 0) then ['-'] else [], ip, if fp = [] then [] else '.' :: fp, rfl, ?_, h2, h1, ?_⟩
    · split <;> simp
    · split
      · exact .inl rfl
      · rename_i hf
        exact .inr ⟨fp, rfl, hf, h3⟩
  · obtain ⟨r, r1, -, r3⟩ := parse_assemble (p := p) (n := k) (by omega) h1 h2 h3 hval
    exact ⟨r, r1, by rw [r3, ← hq]⟩

/-! ## Units as they are written -/

/-- A written unit with its exponent: the unit, the exponent, the word, and the text of the exponent. -/
structure Part (U : Type) where
  unit : U
  pow : ℚ
  word : Text
  exp : Option Text

section
variable {U : Type}

/-- The pieces of a part. -/
def Part.pieces (a : Part U) : List (Text × Style) :=
  match a.exp with
  | none => [(a.word, .special)]
  | some e => raisedParts a.word e

/-- Its text. -/
def Part.text (a : Part U) : Text := a.word ++ (match a.exp with | none => [] | some e => '^' :: e)

/-- Its items. -/
def Part.items (a : Part U) : List Parse.Item :=
  .leaf .unit a.word :: (match a.exp with | none => [] | some e => [.leaf .op ['^'], .leaf .num e])

/-- The text of some parts. -/
def partsText : List (Part U) → Text
  | [] => []
  | [a] => a.text
  | a :: b :: as => a.text ++ ' ' :: partsText (b :: as)

/-- The items of some parts. -/
def partsItems : List (Part U) → List Parse.Item
  | [] => []
  | [a] => a.items
  | a :: b :: as => a.items ++ .leaf .space [' '] :: partsItems (b :: as)

theorem spaced_text (ps : List (Part U)) :
    ((spaced (ps.map Part.pieces)).map (·.1)).flatten = partsText ps := by
  have hp : ∀ a : Part U, (a.pieces.map (·.1)).flatten = a.text := by
    intro a
    unfold Part.pieces Part.text
    cases a.exp <;> simp [raisedParts]
  induction ps with
  | nil => simp [spaced, List.intercalate, partsText]
  | cons a as ih =>
    cases as with
    | nil => simp [spaced, List.intercalate, partsText, hp]
    | cons b as =>
      rw [partsText, ← ih, ← hp a]
      simp [spaced, List.intercalate]

variable (x : Parse.Lex) (named : Text → Option U) (p : ℕ)

/-- The part is what it says. -/
structure GoodPart (a : Part U) : Prop where
  isUnit : IsUnit x a.word
  ends : ∀ c ∈ [' ', '/', ')', '^'],
    NoLonger x.unitNames (lowerText a.word) (some c) ∧ NoLonger x.unitSymbols a.word (some c)
  name : named a.word = some a.unit
  one : a.exp = none → a.pow = 1
  exps : ∀ e, a.exp = some e → IsLiteral e ∧ ∃ r, parseDecimal p e = some (.ok r) ∧ r.val = a.pow
  ne : a.pow ≠ 0

variable {x named p} {funcs : List Text}

theorem reading_leaf {n : ℕ} {nl first : Bool} {t : Text} {k : Parse.Kind} {next : Option Char}
    (h : Leaf x nl first t k next) : Reading x funcs n nl first t (.leaf k t) next := by
  cases n with
  | zero => exact ⟨k, rfl, h⟩
  | succ n => exact .inl ⟨k, rfl, h⟩

/-- What may follow a part. -/
def PartEnds (next : Option Char) : Prop := next ∈ [none, some ' ', some '/', some ')']

theorem literal_head {e : Text} (h : IsLiteral e) : ∃ c t, e = c :: t ∧ (c = '-' ∨ c.isDigit = true) := by
  obtain ⟨sign, ip, fp, rfl, hs, hi, hd, -⟩ := h
  rcases hs with rfl | rfl
  · cases ip with
    | nil => exact absurd rfl hi
    | cons c t => exact ⟨c, t ++ fp, by simp, .inr (hd c (by simp))⟩
  · exact ⟨'-', ip ++ fp, by simp, .inl rfl⟩

theorem head_or {a : Char} {t : Text} {tail : Option Char} : (a :: t).head?.or tail = some a := rfl

/-- The lexer knows `^` and `/`, and no longer operator starts with them and then a number or a word. -/
structure KnowsOps (x : Parse.Lex) : Prop where
  caret : ['^'] ∈ x.ops
  slash : ['/'] ∈ x.ops
  caretOnly : ∀ c, c = '-' ∨ c.isDigit = true → ∀ o ∈ x.ops, ¬ (['^'] ++ [c]) <+: o
  slashOnly : ∀ c, (c = '(' ∨ (c.toNat < 128 → Parse.asciiWord c = true)) → ∀ o ∈ x.ops, ¬ (['/'] ++ [c]) <+: o

theorem line_part (hk : KnowsOps x) {n : ℕ} {nl first : Bool} {a : Part U} (h : GoodPart x named p a) {rest : Text}
    {its : List Parse.Item} {tail : Option Char} (hn : PartEnds (rest.head?.or tail))
    (hl : Line (Reading x funcs n nl) false rest its tail) :
    Line (Reading x funcs n nl) first (a.text ++ rest) (a.items ++ its) tail := by
  have hunit : ∀ next, (next = some '^' ∨ PartEnds next) → Leaf x nl first a.word .unit next := by
    intro next hnext
    have key : ∀ c, next = some c → c ∈ [' ', '/', ')', '^'] := by
      rintro c rfl
      rcases hnext with h | h
      · cases h; simp
      · simp only [PartEnds, List.mem_cons, Option.some.injEq, List.not_mem_nil, or_false, reduceCtorEq, false_or] at h
        rcases h with rfl | rfl | rfl <;> simp
    refine .unit h.isUnit ?_ ?_ ?_ ?_
    · intro c hc
      have := key c hc
      simp only [List.mem_cons, List.not_mem_nil, or_false] at this
      rcases this with rfl | rfl | rfl | rfl <;> decide
    · intro c hc
      have := key c hc
      simp only [List.mem_cons, List.not_mem_nil, or_false] at this
      rcases this with rfl | rfl | rfl | rfl <;> decide
    · intro c hc o ho
      exact (h.ends c (key c hc)).1 c rfl o ho
    · intro c hc o ho
      exact (h.ends c (key c hc)).2 c rfl o ho
  unfold Part.text Part.items
  cases he : a.exp with
  | none =>
    simp only [List.append_nil, List.cons_append, List.nil_append]
    exact .cons (reading_leaf (hunit _ (.inr hn))) hl
  | some e =>
    obtain ⟨hlit, -⟩ := h.exps e he
    obtain ⟨c, t, rfl, hc⟩ := literal_head hlit
    simp only [List.append_assoc, List.cons_append, List.nil_append]
    refine .cons (t := a.word) (reading_leaf (hunit _ (.inl rfl))) ?_
    refine .cons (t := ['^']) (rest := (c :: t) ++ rest) (reading_leaf (.op hk.caret ?_ ?_ ?_)) ?_
    · intro d hd
      simp only [List.cons_append, List.head?_cons, Option.some_or, Option.some.injEq] at hd
      subst hd
      exact hk.caretOnly _ hc
    · intro b hb hl
      cases hb
      exact absurd hl (by decide)
    · intro _ h
      exact absurd h (by decide)
    refine .cons (t := c :: t) (rest := rest) (reading_leaf (.num hlit ?_)) ?_
    · intro d hd
      rw [hd] at hn
      simp only [PartEnds, List.mem_cons, Option.some.injEq, List.not_mem_nil, or_false, reduceCtorEq, false_or] at hn
      rcases hn with rfl | rfl | rfl <;> decide
    · exact hl

theorem line_parts (hk : KnowsOps x) {n : ℕ} {nl : Bool} {ps : List (Part U)} (hne : ps ≠ [])
    (h : ∀ a ∈ ps, GoodPart x named p a) {rest : Text}
    {its : List Parse.Item} {tail : Option Char} (hn : PartEnds (rest.head?.or tail))
    (hl : Line (Reading x funcs n nl) false rest its tail) {first : Bool} :
    Line (Reading x funcs n nl) first (partsText ps ++ rest) (partsItems ps ++ its) tail := by
  induction ps generalizing first with
  | nil => exact absurd rfl hne
  | cons a as ih =>
    cases as with
    | nil => exact line_part hk (h a (by simp)) hn hl
    | cons b as =>
      simp only [partsText, partsItems, List.append_assoc, List.cons_append]
      refine line_part hk (h a (by simp)) (by simp [PartEnds]) ?_
      refine .cons (t := [' ']) (reading_leaf (.space (by decide) (fun h => absurd h (by decide)))) ?_
      exact ih (by simp) (fun c hc => h c (List.mem_cons_of_mem _ hc))

theorem parts_first {ps : List (Part U)} (hne : ps ≠ []) (h : ∀ a ∈ ps, GoodPart x named p a) (rest : Text)
    (tail : Option Char) : ∃ c, (partsText ps ++ rest).head?.or tail = some c ∧ (c.toNat < 128 → Parse.asciiWord c = true) := by
  cases ps with
  | nil => exact absurd rfl hne
  | cons a as =>
    obtain ⟨c, t, e, -, -, hc⟩ := (h a (by simp)).isUnit.start
    have : ∃ r, partsText (a :: as) = a.word ++ r := by
      cases as with
      | nil => exact ⟨_, rfl⟩
      | cons b as => exact ⟨_, by rw [partsText, Part.text, List.append_assoc]⟩
    obtain ⟨r, hr⟩ := this
    exact ⟨c, by rw [hr, e]; rfl, hc⟩

end

/-! ## What they mean -/

section
variable {U D K : Type} [DecidableEq U] [DecidableEq D] [Field K] [LinearOrder K] [IsStrictOrderedRing K]
variable (pw : K → ℚ → K) (N : Norm U D K) (asRat : K → Option ℚ) (fuel : ℕ)
variable (p : ℕ) (named : Text → Option U)

/-- What words mean. -/
inductive Word : Parse.Kind → Text → QVal U K → Prop
  | num {t r} : parseDecimal p t = some (.ok r) → Word .num t (.arg (.num (r.num / r.den) none))
  | unit {t u} : named t = some u → Word .unit t (.arg (.unit (newFromUnit u)))

/-- What operators do with operands they know. -/
def opQ (o : String) (ins : List (QVal U K)) : Except String (QVal U K) :=
  match callQ (σ := Unit) pw N asRat fuel (fun _ _ s => (.error (.calc "unknown"), s)) o ins () with
  | (.ok v, _) => if v.getErr.isNone then .ok v else .error "an error"
  | _ => .error "an error"

theorem opQ_does {σ : Type} {rest : String → List (QVal U K) → Act σ (QVal U K)} {o : String} {ins : List (QVal U K)}
    {v : QVal U K} (h : opQ pw N asRat fuel o ins = .ok v) (s : σ) :
    callQ pw N asRat fuel rest o ins s = (.ok v, s) ∧ v.getErr = none := by
  unfold opQ callQ at h
  unfold callQ
  split at h
  · rename_i v' s' h'
    split at h
    · rename_i hv
      cases h
      refine ⟨?_, by simpa using hv⟩
      by_cases ho : o ∈ quantityOps
      · rw [if_pos ho] at h' ⊢
        cases hf : ins.find? (fun x => x.getErr.isSome) with
        | some y =>
          rw [hf] at h'
          simp only at h' ⊢
          cases h'
          rfl
        | none =>
          rw [hf] at h'
          simp only at h' ⊢
          cases ha : applyQ pw N asRat fuel o ins with
          | some r =>
            rw [ha] at h'
            simp only at h' ⊢
            simp only [Prod.mk.injEq] at h'
            rw [h'.1]
          | none =>
            rw [ha] at h'
            cases h'
      · rw [if_neg ho] at h'
        cases h'
    · cases h
  · cases h

theorem does_words {σ : Type} {rest : String → List (QVal U K) → Act σ (QVal U K)} {others : Parse.Item → Act σ (QVal U K)}
    {funcs : String → Option (FuncDef (QVal U K) σ)} (s : σ) :
    DoesU (wordQ p named others) (callQ pw N asRat fuel rest) QVal.getErr funcs s (Word p named)
      (opQ pw N asRat fuel) (fun _ _ => .error "no function") where
  words := by
    intro k t v h
    cases h with
    | num h => exact ⟨by simp only [wordQ, h], rfl⟩
    | unit h => exact ⟨by simp only [wordQ, h], rfl⟩
  operators := fun o ins v h => opQ_does pw N asRat fuel h s
  functions := by intro w vs v h; cases h

variable {pw N asRat fuel p named} {x : Parse.Lex}

/-- The operands and operators of a part. -/
def Part.toks (a : Part U) : List (Tok (QVal U K)) :=
  .val (.arg (.unit (newFromUnit a.unit))) ::
    (match a.exp with | none => [] | some _ => [.op "^", .val (.arg (.num (a.pow : K) none))])

theorem stands_part {a : Part U} (h : GoodPart x named p a) {its : List Parse.Item} {toks : List (Tok (QVal U K))}
    (hs : StandsU QVal.isUnit (Word p named) (opQ pw N asRat fuel) (fun _ _ => .error "no function") its toks) :
    StandsU QVal.isUnit (Word p named) (opQ pw N asRat fuel) (fun _ _ => .error "no function") (a.items ++ its)
      (a.toks ++ toks) := by
  unfold Part.items Part.toks
  cases he : a.exp with
  | none =>
    simp only [List.cons_append, List.nil_append]
    exact .word (by decide) (.unit h.name) hs
  | some e =>
    obtain ⟨-, r, h1, h2⟩ := h.exps e he
    simp only [List.cons_append, List.nil_append]
    refine .word (by decide) (.unit h.name) (.op (.word (by decide) ?_ hs))
    have : ((a.pow : ℚ) : K) = (r.num : K) / r.den := by
      rw [← h2, Number.val]
      push_cast
      rfl
    rw [this]
    exact .num h1

theorem stands_parts {ps : List (Part U)} (h : ∀ a ∈ ps, GoodPart x named p a) {its : List Parse.Item}
    {toks : List (Tok (QVal U K))}
    (hs : StandsU QVal.isUnit (Word p named) (opQ pw N asRat fuel) (fun _ _ => .error "no function") its toks) :
    StandsU QVal.isUnit (Word p named) (opQ pw N asRat fuel) (fun _ _ => .error "no function")
      (partsItems ps ++ its) (ps.flatMap Part.toks ++ toks) := by
  induction ps with
  | nil => simpa [partsItems] using hs
  | cons a as ih =>
    cases as with
    | nil => simpa [partsItems] using stands_part (h a (by simp)) hs
    | cons b as =>
      have := ih (fun c hc => h c (List.mem_cons_of_mem _ hc))
      simp only [partsItems, List.flatMap_cons, List.append_assoc, List.cons_append] at this ⊢
      exact stands_part (h a (by simp)) (.skip (by decide) this)

theorem newFromUnit_eq (u : U) : newFromUnit u = [(u, 1)] := by simp [newFromUnit, add, find]

theorem power_one {u : U} {q : ℚ} (h : q ≠ 0) : power q [(u, 1)] = some [(u, q)] := by
  simp [power, multiply, removeZeros, checkEmpty, h]

theorem phrase_part (hQ : ∀ q : ℚ, asRat (q : K) = some q) {a : Part U} (h : GoodPart x named p a) :
    Phrase QVal.isUnit (opQ pw N asRat fuel) 3 true true (a.toks (K := K)) (.arg (.unit [(a.unit, a.pow)])) := by
  unfold Part.toks
  cases he : a.exp with
  | none =>
    rw [newFromUnit_eq, h.one he]
    exact phrase_word 3 _ rfl
  | some e =>
    have : applyQ pw N asRat fuel "^" [.arg (.unit (newFromUnit a.unit)), .arg (.num (a.pow : K) none)]
        = some (some (.ok (.arg (.unit [(a.unit, a.pow)])))) := by
      simp only [applyQ, powArgs, hQ, newFromUnit_eq, power_one h.ne]
    have hop : opQ pw N asRat fuel "^" [.arg (.unit (newFromUnit a.unit)), .arg (.num (a.pow : K) none)]
        = .ok (.arg (.unit [(a.unit, a.pow)])) := by
      simp [opQ, callQ, quantityOps, QVal.getErr, this, wrapErr]
    have hl := PhraseFrom.left (isUnit := QVal.isUnit) (j := 0) (k := 0) (o := "^") (b := true) (e := true)
      (b' := false) (e' := false) rfl (by decide) (phrase_word 1 _ rfl) (phrase_word 0 _ rfl) hop (by decide)
      (fun h => absurd h (by decide))
    exact phrase_up 2 (i := 1) hl

theorem addAll_fresh {m l : PL U} (c : ℚ) (h : (l ++ m).map (·.1) |>.Nodup) :
    addAll m c l = l ++ m.map (fun o => (o.1, o.2 * c)) := by
  induction m generalizing l with
  | nil => simp [addAll]
  | cons o m ih =>
    have hf : find o.1 l = none := by
      unfold find
      rw [Option.map_eq_none_iff, List.find?_eq_none]
      intro y hy e
      rw [List.map_append, List.map_cons] at h
      have := (List.nodup_append.1 h).2.2 y.1 (List.mem_map.2 ⟨y, hy, rfl⟩) o.1 (by simp)
      exact this (by simpa using e)
    have e1 : addAll (o :: m) c l = addAll m c (l ++ [(o.1, o.2 * c)]) := by
      simp [addAll, add, hf]
    rw [e1, ih]
    · simp
    · simpa using h

theorem newList_two {m l : PL U} (c : ℚ) (hne : l ≠ []) (h : ((l ++ m).map (·.1)).Nodup) :
    newList [(l, 1), (m, c)] = some (l ++ m.map (fun o => (o.1, o.2 * c))) := by
  have h1 : addAll l 1 [] = l := by
    rw [addAll_fresh 1 (by
      rw [List.nil_append]
      exact (h.sublist ((List.sublist_append_left l m).map _)))]
    simp
  simp only [newList, List.foldl_cons, List.foldl_nil, h1, addAll_fresh c h, checkEmpty]
  rw [if_neg]
  cases l with
  | nil => exact absurd rfl hne
  | cons a l => simp

/-- The list a list of parts is for. -/
def partsList (ps : List (Part U)) : PL U := ps.map (fun a => (a.unit, a.pow))

theorem opQ_times {l m k : PL U} (h : newList [(l, 1), (m, 1)] = some k) :
    opQ pw N asRat fuel "UNIT_MULTIPLY" [.arg (.unit l), .arg (.unit m)] = .ok (.arg (.unit k)) := by
  simp [opQ, callQ, quantityOps, QVal.getErr, applyQ, asArg, opMultiply, h, wrapErr, Except.map]

theorem opQ_per {l m k : PL U} (h : newList [(l, 1), (m, -1)] = some k) :
    opQ pw N asRat fuel "UNIT_DIVIDE" [.arg (.unit l), .arg (.unit m)] = .ok (.arg (.unit k)) := by
  simp [opQ, callQ, quantityOps, QVal.getErr, applyQ, asArg, opDivide, h, wrapErr, Except.map]

theorem opQ_of {v : K} {l : PL U} :
    opQ pw N asRat fuel "UNIT_ASSIGNMENT" [.arg (.num v none), .arg (.unit l)] = .ok (.arg (.num v (some l))) := by
  simp [opQ, callQ, quantityOps, QVal.getErr, applyQ, asArg, opMultiply, Arg.split, wrapErr, Except.map]

theorem phrase_parts (hQ : ∀ q : ℚ, asRat (q : K) = some q) {ps : List (Part U)} (hne : ps ≠ [])
    (h : ∀ a ∈ ps, GoodPart x named p a) (hd : ((partsList ps).map (·.1)).Nodup) :
    Phrase QVal.isUnit (opQ pw N asRat fuel) 4 true true (ps.flatMap (Part.toks (K := K)))
      (.arg (.unit (partsList ps))) := by
  induction ps using List.reverseRecOn with
  | nil => exact absurd rfl hne
  | append_singleton ps a ih =>
    have ha := phrase_part (pw := pw) (N := N) (fuel := fuel) hQ (h a (by simp))
    rw [List.flatMap_append]
    by_cases hps : ps = []
    · subst hps
      have := phrase_up 1 ha
      simpa [partsList] using this
    · have hd' : ((partsList ps).map (·.1)).Nodup := by
        refine hd.sublist (List.Sublist.map _ ?_)
        simp [partsList]
      have ih' := ih hps (fun b hb => h b (by simp [hb])) hd'
      have : [a].flatMap (Part.toks (K := K)) = a.toks := by simp
      rw [this]
      refine PhraseFrom.times ih' ha rfl rfl (opQ_times ?_)
      rw [newList_two 1]
      · simp [partsList]
      · simpa [partsList] using hps
      · simpa [partsList] using hd

end
end MC.Unit
