import Verif.Lemmas.Written
import Verif.Props.UnitRead

/-! # C69: an expression is read as the words it is written with -/

namespace MC.Props
open MC.Parse MC.Parse.Spec
open MC.Unit MC.Unit.Table

attribute [local irreducible] ops units unitNames unitSymbols maxLength

section
variable (p : ℕ) (powF : ℚ → ℚ → Except Err ℚ) (word alpha : Char → Bool)

/-- The calculator with everything installed. -/
def fullLex : Lex := unitLex p powF word alpha shippedSystems shippedTypes

theorem ops_heads : (opsSymbols shippedOps).all (fun o => (o.head?.any (fun a =>
    decide (a.toNat < 128) && !a.isDigit && !isSpaceChar a &&
    !(['#', '\'', '@', '(', ')', ',', '{', '}', '_', '[', ']', '.'].contains a) &&
    (!isLetter a || o.all asciiWord))) &&
    o.all (fun c => !([' ', '(', ')', ',', '\''].contains c)) &&
    !("true".toList.isPrefixOf (lowerText o)) && !("false".toList.isPrefixOf (lowerText o)) &&
    (match o with | '-' :: c :: _ => !c.isDigit | _ => true)) = true := by
  decide +kernel

theorem units_heads : (unitNames ++ unitSymbols).all (fun u =>
    u.head?.all (fun c => !(['[', ']', '.', ','].contains c))) = true := by
  decide +kernel

variable {p powF word alpha} (hw : ∀ c, c.toNat < 128 → word c = asciiWord c)
  (ha : ∀ c, c.toNat < 128 → alpha c = isLetter c)
include hw ha

theorem symbolsOk : SymbolsOk (fullLex p powF word alpha) := by
  have key : ∀ o ∈ (fullLex p powF word alpha).ops, _ :=
    fun o ho => List.all_eq_true.1 ops_heads o ho
  simp only [Bool.and_eq_true] at key
  constructor
  · exact ha
  · exact hw
  · rfl
  · rfl
  · rfl
  · intro o ho
    obtain ⟨⟨⟨⟨h, _⟩, _⟩, _⟩, _⟩ := key o ho
    cases o with
    | nil => simp at h
    | cons a t =>
      simp only [List.head?_cons, Option.any_some, Bool.and_eq_true, Bool.not_eq_true',
        decide_eq_true_eq] at h
      refine ⟨a, t, rfl, h.1.1.1.1, h.1.1.1.2, h.1.1.2, ?_⟩
      have := h.1.2
      simpa using this
  · intro o ho a hh hl
    obtain ⟨⟨⟨⟨h, _⟩, _⟩, _⟩, _⟩ := key o ho
    rw [hh] at h
    simp only [Option.any_some, Bool.and_eq_true, hl, Bool.not_true, Bool.false_or] at h
    exact h.2
  · intro o ho c hc
    obtain ⟨⟨⟨⟨_, h⟩, _⟩, _⟩, _⟩ := key o ho
    have := List.all_eq_true.1 h c hc
    simpa using this
  · intro o ho
    obtain ⟨⟨⟨⟨_, _⟩, h1⟩, h2⟩, _⟩ := key o ho
    rw [Bool.not_eq_true', ← Bool.not_eq_true, List.isPrefixOf_iff_prefix] at h1 h2
    exact ⟨h1, h2⟩
  · intro o ho c t e
    obtain ⟨⟨⟨⟨_, _⟩, _⟩, _⟩, h⟩ := key o ho
    subst e
    simpa using h
  · exact (tableOk hw ha).opChars
  · rfl
  · have : (shippedSystems ++ shippedTypes).all (fun y => y.all asciiWord) = true := by decide +kernel
    intro y hy c hc
    exact List.all_eq_true.1 (List.all_eq_true.1 this y hy) c hc
  · have : (shippedSystems ++ shippedTypes).all (fun y => y.head?.any isLetter) = true := by decide +kernel
    intro y hy
    have := List.all_eq_true.1 this y hy
    cases y with
    | nil => cases this
    | cons c s => exact ⟨c, s, rfl, this⟩
  · intro u hu c hc
    have := List.all_eq_true.1 units_heads u hu
    rw [hc] at this
    simpa using this
  · show ([] : Text) ∉ constantNames
    decide

variable (funcs : List Text) (inc : List Parse.Item → Bool)

/-- **C69**: an expression, built from words, brackets and calls, with any spaces and comments
between them, is read as exactly the items it is built from, to the end of the text, whatever was
read before (`m`) and however deep it is nested. -/
theorem C69_read {n : ℕ} {t : Text} {its : List Parse.Item}
    (h : Expression (fullLex p powF word alpha) funcs n t its) (extra : ℕ) (fl : Flags)
    (hfl : fl.array = false) (m : Cache) :
    parse (shippedCfg (fullLex p powF word alpha) funcs inc) (n + extra + 1) fl t m
      = some (.ok ([its], t.length, none), m) :=
  parse_whole (symbolsOk hw ha) funcs inc m (fun _ h => h.elim) extra fl hfl (by simp)
    (fun _ h => h.elim fun _ h => h.elim) h

/-- **C69**, statements: lines that are complete are read as separate statements, each as the items
it is built from; the lines of an inline function too (`inner`). -/
theorem C69_statements {inner : List Parse.Item → Prop} (hi : ∀ its, inner its → inc its = false) {n : ℕ} {t : Text}
    {st : List (List Parse.Item)}
    (h : ProgramC (fullLex p powF word alpha) funcs n inner (fun its => inc its = false) t st) (extra : ℕ) :
    parse (shippedCfg (fullLex p powF word alpha) funcs inc) (n + extra + 1) {} t none
      = some (.ok (st, t.length, none), none) := by
  have := loop_program (symbolsOk hw ha) funcs inc none (fun its h => ⟨hi its h, by simp⟩) extra {} rfl rfl
    (comp := fun its => inc its = false) (fun its h => ⟨h, by simp⟩) h (t.length + 1) 0 []
    (by omega)
  rw [List.nil_append, Nat.zero_add] at this
  exact this

/-- **C69**, no ambiguity: a text is the written form of one sequence of items only. -/
theorem C69_unambiguous {n k : ℕ} {t : Text} {its its' : List Parse.Item}
    (h : Expression (fullLex p powF word alpha) funcs n t its)
    (h' : Expression (fullLex p powF word alpha) funcs k t its') : its = its' := by
  have e1 := C69_read hw ha funcs (fun _ => false) h k {} rfl none
  have e2 := C69_read hw ha funcs (fun _ => false) h' n {} rfl none
  rw [Nat.add_comm n k, e2] at e1
  simp only [Option.some.injEq, Prod.mk.injEq, Except.ok.injEq, List.cons.injEq, and_true] at e1
  exact e1.symm

theorem names_dot : unitNames.all (fun n => n.head? ≠ some '.') = true := by decide +kernel
theorem symbols_dot : unitSymbols.all (fun n => n.head? ≠ some '.') = true := by decide +kernel

/-- The words for units of the shipped calculator are words for units in the sense of the
specification. -/
theorem isUnit_writes {n : Text} (h : WritesUnit n) (h1 : n ≠ "as".toList) (h2 : n ≠ "GΩ".toList) :
    IsUnit (fullLex p powF word alpha) n := by
  have hr : Reads (fullLex p powF word alpha) n := reads_writes h h1 h2
  refine ⟨hr.isUnit, hr.short, ?_, hr.noCall, hr.noBool, hr.noConst, ?_⟩
  · obtain ⟨a, t, e, hp⟩ := hr.plainStart
    have hdot : a ≠ '.' := by
      rintro rfl
      rcases writes_table h with hm | hm
      · have := List.all_eq_true.1 (names_dot hw ha) _ hm
        rw [e] at this
        simp [lowerText] at this
      · have := List.all_eq_true.1 (symbols_dot hw ha) _ hm
        rw [e] at this
        simp at this
    unfold plain at hp
    simp only [Bool.and_eq_true, Bool.not_eq_true'] at hp
    obtain ⟨⟨⟨p1, p2⟩, p3⟩, p4⟩ := hp
    refine ⟨a, t, e, p1, p2, ?_⟩
    intro hasc
    by_contra hcw
    rw [Bool.not_eq_true] at hcw
    simp only [List.contains_eq_mem, List.mem_cons, List.not_mem_nil, or_false,
      decide_eq_false_iff_not, not_or] at p4
    unfold sep at p3
    simp [hasc, hcw, p4.2.1, p4.2.2.2.2.1, hdot] at p3
  · intro o ho v hv
    obtain ⟨q1, q2, q3⟩ := hr.noOp o ho ⟨v, hv.symm⟩
    refine ⟨q2, List.all_eq_true.1 q1, ?_⟩
    rw [hv, List.drop_left] at q3
    exact q3

end

/-- The shipped calculator on ASCII. -/
def asciiFull : Lex := fullLex 30 (fun _ _ => .ok 0) asciiWord isLetter

theorem isUnit_km : IsUnit asciiFull "km".toList :=
  isUnit_writes (fun _ _ => rfl) (fun _ _ => rfl) (.inl (by decide +kernel)) (by decide) (by decide)

theorem isVar_width : IsVar asciiFull "width".toList where
  free := ⟨⟨'w', "idth".toList, rfl, by decide, by decide⟩, by decide +kernel, by decide +kernel⟩
  noConst := by decide +kernel
  noUnit := by
    intro u v e hu hv
    have hlen : u.length ≤ 5 := by
      have := congrArg List.length e
      simp at this
      omega
    have hu' : u = ("width".toList).take u.length := by rw [e]; simp
    have hv' : v = ("width".toList).drop u.length := by rw [e]; simp
    have : u.length = 5 := by
      by_contra hne
      have hpos : 0 < u.length := List.length_pos_iff.2 hu
      have : u.length = 1 ∨ u.length = 2 ∨ u.length = 3 ∨ u.length = 4 := by omega
      rcases this with h | h | h | h <;> rw [h] at hv' <;> rw [hv'] at hv <;>
        exact absurd (hv _ rfl).1 (by decide)
    rw [this] at hu'
    rw [hu']
    decide +kernel
  noWord := by
    intro y hy v e
    have hcheck : (asciiFull.systems ++ asciiFull.numTypes).all
        (fun y => !(y.isPrefixOf "width".toList)) = true := by decide +kernel
    have := List.all_eq_true.1 hcheck y hy
    rw [Bool.not_eq_true', ← Bool.not_eq_true, List.isPrefixOf_iff_prefix] at this
    exact absurd ⟨v, e.symm⟩ this

/-- The items of `2*(width -1) km`. -/
def demoItems : List Parse.Item :=
  [.leaf .num ['2'], .leaf .op ['*'],
   .nest .inner "(width -1)".toList [.leaf .innerStart ['('], .leaf .var "width".toList,
     .leaf .space [' '], .leaf .op ['-'], .leaf .num ['1'], .leaf .innerEnd [')']],
   .leaf .space [' '], .leaf .unit "km".toList]

theorem demo_digit (c : Char) (hc : c.isDigit = true) : IsLiteral [c] :=
  ⟨[], [c], [], rfl, .inl rfl, by simp, by simpa using hc, .inl rfl⟩

theorem demo_op (o : Text) (c : Char) (h1 : o ∈ asciiFull.ops)
    (h2 : asciiFull.ops.all (fun o' => !((o ++ [c]).isPrefixOf o')) = true)
    (h3 : isLetter (o.headD '+') = false) (nl : Bool) : Leaf asciiFull nl false o .op (some c) := by
  refine .op h1 ?_ ?_ ?_
  · intro d hd o' ho'
    cases hd
    have := List.all_eq_true.1 h2 o' ho'
    rw [Bool.not_eq_true', ← Bool.not_eq_true, List.isPrefixOf_iff_prefix] at this
    exact this
  · intro a hh hl
    cases o with
    | nil => cases hh
    | cons a' t =>
      cases hh
      rw [List.headD_cons, hl] at h3
      cases h3
  · intro h
    cases h

theorem demo_longer (ws : List Text) (w : Text) (c : Char)
    (h : ws.all (fun o => !((w ++ [c]).isPrefixOf o)) = true) : NoLonger ws w (some c) := by
  intro d hd o ho
  cases hd
  have := List.all_eq_true.1 h o ho
  rw [Bool.not_eq_true', ← Bool.not_eq_true, List.isPrefixOf_iff_prefix] at this
  exact this

theorem demo_ends (c : Char) (h1 : c.toNat < 128) (h2 : asciiWord c = false) : WordEnds (some c) := by
  intro d hd
  cases hd
  exact ⟨h1, h2⟩

theorem demo_inner : Line (Reading asciiFull [] 0 true) true "width -1".toList
    [.leaf .var "width".toList, .leaf .space [' '], .leaf .op ['-'], .leaf .num ['1']] (some ')') := by
  refine Line.cons (t := "width".toList) (rest := " -1".toList) ⟨_, rfl, .var isVar_width
    (demo_ends ' ' (by decide) (by decide)) (by decide) (demo_longer _ _ _ (by decide +kernel))
    (demo_longer _ _ _ (by decide +kernel))⟩ ?_
  refine Line.cons (t := [' ']) (rest := "-1".toList) ⟨_, rfl, .space (by decide) (by decide)⟩ ?_
  refine Line.cons (t := ['-']) (rest := "1".toList)
    ⟨_, rfl, demo_op ['-'] '1' (by decide +kernel) (by decide +kernel) (by decide) true⟩ ?_
  refine Line.cons (t := ['1']) (rest := []) ⟨_, rfl, .num (demo_digit '1' (by decide)) ?_⟩ .nil
  intro c hc
  cases hc
  decide

/-- Non-vacuity: `2*(width -1) km` is the written form of these items; the minus sign after `width`
is an operator. -/
theorem demo_written : Expression asciiFull [] 1 "2*(width -1) km".toList demoItems := by
  refine Line.cons (t := ['2']) (rest := "*(width -1) km".toList)
    (.inl ⟨_, rfl, .num (demo_digit '2' (by decide)) ?_⟩) ?_
  · intro c hc
    cases hc
    decide
  refine Line.cons (t := ['*']) (rest := "(width -1) km".toList)
    (.inl ⟨_, rfl, demo_op ['*'] '(' (by decide +kernel) (by decide +kernel) (by decide) false⟩) ?_
  refine Line.cons (t := "(width -1)".toList) (rest := " km".toList)
    (.inr (.inl ⟨_, _, demo_inner, rfl, rfl⟩)) ?_
  refine Line.cons (t := [' ']) (rest := "km".toList) (.inl ⟨_, rfl, .space (by decide) (by decide)⟩) ?_
  refine Line.cons (t := "km".toList) (rest := []) (.inl ⟨_, rfl, .unit isUnit_km ?_ ?_ ?_ ?_⟩) .nil
  all_goals (intro c hc; cases hc)

example (m : Cache) : parse (shippedCfg asciiFull [] (fun _ => false)) 2 {} "2*(width -1) km".toList m
    = some (.ok ([demoItems], 15, none), m) :=
  C69_read (fun _ _ => rfl) (fun _ _ => rfl) [] (fun _ => false) demo_written 0 {} rfl m

end MC.Props
