import Verif.Lemmas.Broken
import Verif.Lemmas.CutElse
import Verif.Props.Parse2
import Verif.Props.Program

/-! # C77: a statement may be broken over lines after an operator, and before `else` -/

namespace MC.Props
open MC MC.Spec MC.Numerical MC.Numeric MC.Arrays MC.Boolean MC.Number MC.State
open MC.Strings (Texts HasStrings ReadsAs IsString IsInt)
open MC.Parse (Kind Text Cache shippedCfg)
set_option linter.unusedSectionVars false

/-- What stands before a line break is the beginning of the statement up to an operator, or up to an `else`. -/
theorem break_prefix {x : Parse.Lex} {names : List Text} {n : ℕ} {t : Text} {its : List Parse.Item}
    {bs : List (List Parse.Item)} {tail : Option Char} (h : Parse.Spec.Broken x names n [] t its bs tail)
    {b : List Parse.Item} (hb : b ∈ bs) : (∃ pre o post, b = pre ++ [.leaf .op o] ∧
      its.filter Parse.Item.functional = pre ++ .leaf .op o :: post ∧ String.ofList o ∉ ["++", "--"]) ∨
    ∃ post, its.filter Parse.Item.functional = b ++ .leaf .op "else".toList :: post := by
  obtain ⟨post, h3, ⟨pre, o, rfl, h1, h2⟩ | h1⟩ := Parse.breaks_of names h b hb
  · left
    refine ⟨pre, o, post, rfl, ?_, ?_⟩
    · rw [List.nil_append] at h3
      unfold Parse.Spec.words at h3
      rw [h3]
      simp
    · intro hm
      simp only [List.mem_cons, List.not_mem_nil, or_false] at hm
      rcases hm with hm | hm
      · exact h1 (by rw [← hm, String.toList_ofList])
      · exact h2 (by rw [← hm, String.toList_ofList])
  · right
    rw [List.nil_append] at h3
    unfold Parse.Spec.words at h3
    cases post with
    | nil => cases h1
    | cons a post =>
      simp only [List.head?_cons, Option.some.injEq] at h1
      exact ⟨post, by rw [h3, h1]⟩

section
variable {V σ : Type} {atomVal : Parse.Item → Act σ V} {call : String → List V → Act σ V} {isUnit : V → Bool}
  {mkErr : ExecErr → V} {getErr : V → Option Raise} {funcs : String → Option (FuncDef V σ)}
  {s : σ} {lit : Parse.Item → V → Prop} {f g : String → List V → Except String V}
  (p : ℕ) (powF : ℚ → ℚ → Except Err ℚ) (word alpha : Char → Bool)

/-- **C77**: an expression on several lines, broken after operators and before `else`, is answered with one answer: what
the expression means, as if it stood on one line; with any memory of the parser.  There can be any
number of line breaks, and spaces and comments around them. -/
theorem C77_expression (hw : ∀ c, c.toNat < 128 → word c = Parse.asciiWord c)
    (ha : ∀ c, c.toNat < 128 → alpha c = Parse.isLetter c)
    (hd : Does atomVal call isUnit getErr funcs s lit f g)
    (names : List Text) (finalize : V → Act σ V)
    {n : ℕ} {t : Text} {its : List Parse.Item} {bs : List (List Parse.Item)}
    (hx : Parse.Spec.Broken (fullLex p powF word alpha) names n [] t its bs none)
    {v w : V} {s' : σ} (hm : Means lit f g its v) (hfin : finalize v s = (.ok w, s')) (m : Cache)
    (extra : ℕ) :
    ∃ m', calculateText (shippedCfg (fullLex p powF word alpha) names
        (Parse.incomplete (shipped call isUnit mkErr getErr funcs)))
      (shipped call isUnit mkErr getErr funcs) atomVal finalize (n + extra + 1) t m s
      = some (.ran [⟨some w, s'⟩] .done, m', s') := by
  obtain ⟨h0, _, h1, h2, _, h3⟩ := means_runs (mkErr := mkErr) hd hm
  have ht : t ≠ [] := by
    rintro rfl
    have := Parse.broken_length (symbolsOk hw ha) names hx
    exact h0 (List.length_eq_zero_iff.1 (by simpa using this))
  obtain ⟨m', _, e⟩ := Parse.loop_statements (symbolsOk hw ha) names
    (Parse.incomplete (shipped call isUnit mkErr getErr funcs)) extra {} rfl rfl (.last hx)
    (by
      intro b hb
      obtain ⟨pre, o, post, rfl, e1, e2⟩ | ⟨post, e1⟩ := break_prefix hx hb
      · exact expression_cut call isUnit mkErr getErr funcs hm e1 e2
      · exact expression_else call isUnit mkErr getErr funcs hm e1)
    (by simp) (by simp) (t.length + 1) 0 [] m (by omega) (by simp)
  refine ⟨m', ?_⟩
  have e' : Parse.parse (shippedCfg (fullLex p powF word alpha) names
      (Parse.incomplete (shipped call isUnit mkErr getErr funcs))) (n + extra + 1) {} t m
      = some (.ok ([its], t.length, none), m') := by
    rw [List.nil_append, Nat.zero_add] at e
    exact e
  rw [calculateText, if_neg ht, e']
  have hst : stmt (shipped call isUnit mkErr getErr funcs) atomVal finalize (toNodes its) s
      = (.ok (some w), s') := by
    rw [stmt]
    have h3' : (shipped call isUnit mkErr getErr funcs).getErr v = none := h3
    cases hs : Node.srcs (shipped call isUnit mkErr getErr funcs) atomVal (toNodes its) with
    | nil => exact absurd hs h1
    | cons a as =>
      simp only [executeNodes]
      rw [h2]
      simp only [h3', hfin]
  simp only [List.map_cons, List.map_nil, calculate, hst]

end

/-- Statements that mean something are incomplete before their line breaks, and complete at their end. -/
theorem statements_ends {x : Parse.Lex} {names : List Text} {n p k : ℕ} {rounding : Bool}
    {inc : List Parse.Item → Bool}
    (hend : ∀ {env env' : Env} {its : List Parse.Item} {a : Option Spec.Plain}, LineMeans p k rounding env its a env' →
      inc (its.filter Parse.Item.functional) = false)
    (hcut : ∀ {env env' : Env} {its : List Parse.Item} {a : Option Spec.Plain}, LineMeans p k rounding env its a env' →
      ∀ {pre post : List Parse.Item} {o : Text}, its.filter Parse.Item.functional = pre ++ .leaf .op o :: post →
      String.ofList o ∉ ["++", "--"] → inc (pre ++ [.leaf .op o]) = true)
    (helse : ∀ {env env' : Env} {its : List Parse.Item} {a : Option Spec.Plain}, LineMeans p k rounding env its a env' →
      ∀ {pre post : List Parse.Item}, its.filter Parse.Item.functional = pre ++ .leaf .op "else".toList :: post →
      inc pre = true)
    {t : Text} {st bs es : List (List Parse.Item)} (h : Parse.Spec.Statements x names n t st bs es) :
    ∀ {env env' : Env} {as : List (Option Spec.Plain)}, LinesMean p k rounding env st as env' →
      (∀ b ∈ bs, inc b = true) ∧ ∀ e ∈ es, inc e = false := by
  have cut : ∀ {env env' : Env} {its its' : List Parse.Item} {a : Option Spec.Plain} {t : Text}
      {bs : List (List Parse.Item)} {tail : Option Char}, LineMeans p k rounding env its' a env' →
      its'.filter Parse.Item.functional = its.filter Parse.Item.functional →
      Parse.Spec.Broken x names n [] t its bs tail → ∀ b ∈ bs, inc b = true := by
    intro env env' its its' a t bs tail hl e hb b hbs
    obtain ⟨pre, o, post, rfl, e1, e2⟩ | ⟨post, e1⟩ := break_prefix hb hbs
    · exact hcut hl (e.trans e1) e2
    · exact helse hl (e.trans e1)
  induction h with
  | last hb =>
    intro env env' as hl
    cases hl with
    | cons h1 _ => exact ⟨cut h1 rfl hb, by simp⟩
  | @more t its ts st bs bs' es hb _ ih =>
    intro env env' as hl
    cases hl with
    | cons h1 h2 =>
      obtain ⟨i1, i2⟩ := ih h2
      have e : (its ++ [Parse.Item.leaf .terminator ['\n']]).filter Parse.Item.functional
          = its.filter Parse.Item.functional := by
        simp [Parse.Item.functional]
      refine ⟨?_, ?_⟩
      · intro b hbs
        rw [List.mem_append] at hbs
        rcases hbs with hbs | hbs
        · exact cut h1 e hb b hbs
        · exact i1 b hbs
      · intro e' he
        rw [List.mem_cons] at he
        rcases he with rfl | he
        · have := hend h1
          rw [e] at this
          exact this
        · exact i2 e' he

section
variable {S U K τ : Type} {c : Calc S U Ref K} {num? : S → Option Number} {ofNum : Number → S}
  {asBool : S → Option Bool} {ofBool : Bool → S} {ua : UnitAlgebra S U} {Q : S → Prop} {T : Texts S U Ref} {p : ℕ} {rounding : Bool}

/-- **C77**, programs: what `C73_program` says also holds of statements that are broken over several
lines after operators and before `else`.

Missing: the words before a line break, written without spaces, must not be the same text as the words
of a statement that is followed by another (`C77_violation`). -/
theorem C77_program_partial (ho : Arithmetical c num? ofNum asBool ofBool ua Q T)
    (hvars : HasVariables c) {k : ℕ} (hk : 3 * k + 1 ≤ p)
    (powF : ℚ → ℚ → Except Err ℚ) (word alpha : Char → Bool)
    (hw : ∀ c, c.toNat < 128 → word c = Parse.asciiWord c)
    (ha : ∀ c, c.toNat < 128 → alpha c = Parse.isLetter c)
    (names : List Text) (fi : Finish S U Ref) (nothing : S)
    (others : String → List (Opd S U Ref) → Act (St S U τ) (Opd S U Ref))
    (words : Parse.Item → Act (St S U τ) (Opd S U Ref)) (mkErr : ExecErr → Opd S U Ref)
    {base : S → ℕ} {offset : S → ℤ} {rounding : Bool}
    (hround : rounding = true → ∀ w, Q w → base w = 10 ∧ offset w = 0) (hshow : rounding = true → ShowsWhole k num? Q T)
    (funcs : String → Option (FuncDef (Opd S U Ref) (St S U τ)))
    {env env' : Env} {s : St S U τ} (henv : Holds num? Q asBool T env s) (hclean : Clean s)
    {n : ℕ} {t : Text} {st bs es : List (List Parse.Item)} {as : List (Option Spec.Plain)}
    (hx : Parse.Spec.Statements (fullLex p powF word alpha) names n t st bs es)
    (hne : ∀ b ∈ bs, ∀ e ∈ es, Parse.Spec.joined b ≠ Parse.Spec.joined e)
    (hm : LinesMean p k rounding env st as env') (ht : t ≠ []) (extra : ℕ) :
    ∃ rs s' m', calculateText (shippedCfg (fullLex p powF word alpha) names
          (Parse.incomplete (progEngine p num? ofNum ua asBool ofBool T powF c others mkErr base offset funcs)))
        (progEngine p num? ofNum ua asBool ofBool T powF c others mkErr base offset funcs)
        (wordVal p ofNum ofBool T nothing words) (finalize fi) (n + extra + 1) t none s
        = some (.ran rs .done, m', s') ∧
      List.Forall₂ (fun r a => Reports num? Q asBool T r.answer a) rs as ∧
      Holds num? Q asBool T env' s' ∧ s'.rest = s.rest ∧
      ∀ n : String, (∀ its ∈ st, Parse.Item.leaf .var n.toList ∉ its) → s'.vars n = s.vars n := by
  obtain ⟨rs, s', e1, e2, e3, _, e4, e5⟩ := lines_run ho hvars hk powF fi nothing others words mkErr hround hshow funcs hm 0
    henv hclean
  obtain ⟨hb, he⟩ := statements_ends
    (inc := Parse.incomplete (progEngine p num? ofNum ua asBool ofBool T powF c others mkErr base offset funcs))
    (fun hl => line_complete _ _ _ _ _ hl) (fun hl _ _ _ e ho => line_cut _ _ _ _ _ hl e ho)
    (fun hl _ _ e => line_else _ _ _ _ _ hl e) hx hm
  obtain ⟨m', _, e⟩ := Parse.loop_statements (symbolsOk hw ha) names
    (Parse.incomplete (progEngine p num? ofNum ua asBool ofBool T powF c others mkErr base offset funcs))
    extra {} rfl rfl hx hb he hne (t.length + 1) 0 [] none (by omega) (by simp)
  refine ⟨rs, s', m', ?_, e2, e3, e4, e5⟩
  have e' : Parse.parse (shippedCfg (fullLex p powF word alpha) names
      (Parse.incomplete (progEngine p num? ofNum ua asBool ofBool T powF c others mkErr base offset funcs)))
      (n + extra + 1) {} t none = some (.ok (st, t.length, none), m') := by
    rw [List.nil_append, Nat.zero_add] at e
    exact e
  rw [calculateText, if_neg ht, e']
  simp only [e1]

end

/-- **C77** does not hold of all programs: after `3 %⏎4` on two lines, the line `3%` is taken for the
beginning of an expression that goes on, and the text is not read at all; with the same lines the other
way round it is. -/
theorem C77_violation :
    shownParse "3 %\n4\n3%\n5" none = some (.inr "Could not parse: 5") ∧
    shownParse "3%\n5\n3 %\n4" none = some (.inl [["3%", "\n"], ["5", "\n"], ["3", " ", "%", "\n", "4"]]) := by
  constructor <;> decide +kernel

/-! ## Non-vacuity -/

/-- The items of `2*⏎(width -1) km`. -/
def brokenItems : List Parse.Item :=
  [.leaf .num ['2'], .leaf .op ['*'], .leaf .space ['\n'],
   .nest .inner "(width -1)".toList [.leaf .innerStart ['('], .leaf .var "width".toList,
     .leaf .space [' '], .leaf .op ['-'], .leaf .num ['1'], .leaf .innerEnd [')']],
   .leaf .space [' '], .leaf .unit "km".toList]

theorem demo_broken : Parse.Spec.Broken asciiFull [] 1 [] "2*\n(width -1) km".toList brokenItems
    [[.leaf .num ['2'], .leaf .op ['*']]] none := by
  refine Parse.Spec.Broken.brk (before := []) (t := "2*".toList) (its := [.leaf .num ['2'], .leaf .op ['*']])
    (ts := "(width -1) km".toList) ?_ (.inl ⟨[.leaf .num ['2']], ['*'], by simp [Parse.Spec.words, Parse.Item.functional],
      by decide, by decide⟩) (.line ?_)
  · refine Parse.Spec.Line.cons (t := ['2']) (rest := "*".toList)
      (.inl ⟨_, rfl, .num (demo_digit '2' (by decide)) ?_⟩) ?_
    · intro c hc
      cases hc
      decide
    exact Parse.Spec.Line.cons (t := ['*']) (rest := [])
      (.inl ⟨_, rfl, demo_op ['*'] '\n' (by decide +kernel) (by decide +kernel) (by decide) false⟩) .nil
  · refine Parse.Spec.Line.cons (t := "(width -1)".toList) (rest := " km".toList)
      (.inr (.inl ⟨_, _, demo_inner, rfl, rfl⟩)) ?_
    refine Parse.Spec.Line.cons (t := [' ']) (rest := "km".toList) (.inl ⟨_, rfl, .space (by decide) (by decide)⟩) ?_
    refine Parse.Spec.Line.cons (t := "km".toList) (rest := []) (.inl ⟨_, rfl, .unit isUnit_km ?_ ?_ ?_ ?_⟩) .nil
    all_goals (intro c hc; cases hc)

theorem broken_means : Means (onlyWords fun k t v => meaningOf k t = some v) actionOf (fun _ _ => .error "none")
    brokenItems 4000 := by
  obtain ⟨hs, hr⟩ := demo_means
  refine .phrase ?_ hr
  cases hs with
  | skip hk _ => simp [emptyKinds] at hk
  | word hk hl hs =>
    refine .word hk hl ?_
    cases hs with
    | skip hk _ => simp [emptyKinds] at hk
    | word hk _ _ => exact absurd hk (by decide)
    | op hs => exact .op (.skip (by decide) hs)

/-- Non-vacuity: `2*⏎(width -1) km` is answered like `2*(width -1) km`. -/
example (m : Cache) : ∃ m', calculateText (shippedCfg asciiFull [] (Parse.incomplete
    (shipped (fun o xs (n : ℕ) => (match actionOf o xs with | .ok v => .ok v | .error e => .error (.calc e), n))
      (fun _ => false) (fun _ => 0) (fun _ => none) (fun _ => none))))
    (shipped (fun o xs n => (match actionOf o xs with | .ok v => .ok v | .error e => .error (.calc e), n))
      (fun _ => false) (fun _ => 0) (fun _ => none) (fun _ => none))
    (fun it (n : ℕ) => (match it with
      | .leaf k t => match meaningOf k t with | some v => .ok v | none => .error (.calc "none")
      | _ => .error (.calc "none"), n))
    (fun v n => (.ok v, n + 1)) 2 "2*\n(width -1) km".toList m 7
    = some (.ran [⟨some 4000, 8⟩] .done, m', 8) := by
  refine C77_expression 30 (fun _ _ => .ok 0) Parse.asciiWord Parse.isLetter (fun _ _ => rfl)
    (fun _ _ => rfl) ?_ [] _ demo_broken broken_means rfl m 0
  refine ⟨fun it v h => ?_, fun o ins v h => ?_, fun _ _ _ _ _ => rfl, fun w vs v h => ?_⟩
  · obtain ⟨k, t⟩ | _ := it
    · have h : meaningOf k t = some v := h
      simp only [h]
      exact ⟨trivial, trivial, trivial⟩
    · cases h
  · simp only [h]
    exact ⟨trivial, trivial⟩
  · cases h

/-- The items of `1 then 2⏎else 1`. -/
def elseItems : List Parse.Item :=
  [.leaf .num ['1'], .leaf .space [' '], .leaf .op "then".toList, .leaf .space [' '], .leaf .num ['2'],
   .leaf .space ['\n'], .leaf .op "else".toList, .leaf .space [' '], .leaf .num ['1']]

theorem else_broken : Parse.Spec.Broken asciiFull [] 1 [] "1 then 2\nelse 1".toList elseItems
    [[.leaf .num ['1'], .leaf .op "then".toList, .leaf .num ['2']]] none := by
  have word : ∀ o : Text, o ∈ asciiFull.ops → asciiFull.ops.all (fun o' => !((o ++ [' ']).isPrefixOf o')) = true →
      Parse.Spec.Leaf asciiFull false false o .op (some ' ') := by
    intro o h1 h2
    exact .op h1 (demo_longer _ _ _ h2) (fun _ _ _ => demo_ends ' ' (by decide) (by decide)) (fun h => by cases h)
  refine Parse.Spec.Broken.brk (before := []) (t := "1 then 2".toList) (its := [.leaf .num ['1'], .leaf .space [' '],
    .leaf .op "then".toList, .leaf .space [' '], .leaf .num ['2']]) (ts := "else 1".toList) ?_ (.inr rfl) (.line ?_)
  · refine Parse.Spec.Line.cons (t := ['1']) (rest := " then 2".toList)
      (.inl ⟨_, rfl, .num (demo_digit '1' (by decide)) ?_⟩) ?_
    · intro c hc
      cases hc
      decide
    refine Parse.Spec.Line.cons (t := [' ']) (rest := "then 2".toList) (.inl ⟨_, rfl, .space (by decide) (by decide)⟩) ?_
    refine Parse.Spec.Line.cons (t := "then".toList) (rest := " 2".toList)
      (.inl ⟨_, rfl, word _ (by decide +kernel) (by decide +kernel)⟩) ?_
    refine Parse.Spec.Line.cons (t := [' ']) (rest := "2".toList) (.inl ⟨_, rfl, .space (by decide) (by decide)⟩) ?_
    refine Parse.Spec.Line.cons (t := ['2']) (rest := []) (.inl ⟨_, rfl, .num (demo_digit '2' (by decide)) ?_⟩) .nil
    intro c hc
    cases hc
    decide
  · refine Parse.Spec.Line.cons (t := "else".toList) (rest := " 1".toList)
      (.inl ⟨_, rfl, word _ (by decide +kernel) (by decide +kernel)⟩) ?_
    refine Parse.Spec.Line.cons (t := [' ']) (rest := "1".toList) (.inl ⟨_, rfl, .space (by decide) (by decide)⟩) ?_
    refine Parse.Spec.Line.cons (t := ['1']) (rest := []) (.inl ⟨_, rfl, .num (demo_digit '1' (by decide)) ?_⟩) .nil
    intro c hc
    cases hc

/-- What `then` does in the example. -/
def chooses : String → List ℤ → Except String ℤ
  | "then", [a, b, c] => .ok (if a = 0 then c else b)
  | _, _ => .error "no operator"

theorem else_means : Means (onlyWords fun k t v => meaningOf k t = some v) chooses (fun _ _ => .error "none")
    elseItems 2 := by
  refine .phrase (toks := [.val 1, .op "then", .val 2, .op "else", .val 1])
    (.word (by decide) rfl (.skip (by decide) (.op (.skip (by decide) (.word (by decide) rfl
      (.skip (by decide) (.op (.skip (by decide) (.word (by decide) rfl .nil))))))))) ?_
  refine lift_reads (i := 15) ?_ (by decide)
  exact .tern (k := 14) (t := [.val 1]) (u := [.val 2]) (r := [.val 1]) (o := "then") (s := "else") rfl
    (lift_reads (.atom 1) (by decide)) (lift_reads (.atom 2) (by decide)) (lift_reads (.atom 1) (by decide)) rfl

/-- Non-vacuity: `1 then 2⏎else 1` is answered like `1 then 2 else 1`. -/
example (m : Cache) : ∃ m', calculateText (shippedCfg asciiFull [] (Parse.incomplete
    (shipped (fun o xs (n : ℕ) => (match chooses o xs with | .ok v => .ok v | .error e => .error (.calc e), n))
      (fun _ => false) (fun _ => 0) (fun _ => none) (fun _ => none))))
    (shipped (fun o xs n => (match chooses o xs with | .ok v => .ok v | .error e => .error (.calc e), n))
      (fun _ => false) (fun _ => 0) (fun _ => none) (fun _ => none))
    (fun it (n : ℕ) => (match it with
      | .leaf k t => match meaningOf k t with | some v => .ok v | none => .error (.calc "none")
      | _ => .error (.calc "none"), n))
    (fun v n => (.ok v, n + 1)) 2 "1 then 2\nelse 1".toList m 7
    = some (.ran [⟨some 2, 8⟩] .done, m', 8) := by
  refine C77_expression 30 (fun _ _ => .ok 0) Parse.asciiWord Parse.isLetter (fun _ _ => rfl)
    (fun _ _ => rfl) ?_ [] _ else_broken else_means rfl m 0
  refine ⟨fun it v h => ?_, fun o ins v h => ?_, fun _ _ _ _ _ => rfl, fun w vs v h => ?_⟩
  · obtain ⟨k, t⟩ | _ := it
    · have h : meaningOf k t = some v := h
      simp only [h]
      exact ⟨trivial, trivial, trivial⟩
    · cases h
  · simp only [h]
    exact ⟨trivial, trivial⟩
  · cases h

/-- The statements of the program of `Props/Program.lean` with the first one broken after `=`. -/
def brokenProgram : List (List Parse.Item) :=
  [[.leaf .var "width".toList, .leaf .op ['='], .leaf .space ['\n'], .leaf .num ['7'], .leaf .terminator ['\n']],
   [.leaf .var "width".toList, .leaf .op ['/', '='], .leaf .num ['2'], .leaf .terminator ['\n']],
   testItems]

theorem prog_broken : Parse.Spec.Statements asciiFull [] 1 "width=\n7\nwidth/=2\n2*(width -1)>=5".toList brokenProgram
    [[.leaf .var "width".toList, .leaf .op ['=']]]
    [[.leaf .var "width".toList, .leaf .op ['='], .leaf .num ['7']],
     [.leaf .var "width".toList, .leaf .op ['/', '='], .leaf .num ['2']]] := by
  have h1 : Parse.Spec.Broken asciiFull [] 1 [] "width=\n7".toList
      [.leaf .var "width".toList, .leaf .op ['='], .leaf .space ['\n'], .leaf .num ['7']]
      [[.leaf .var "width".toList, .leaf .op ['=']]] (some '\n') := by
    refine Parse.Spec.Broken.brk (before := []) (t := "width=".toList)
      (its := [.leaf .var "width".toList, .leaf .op ['=']]) (ts := "7".toList) ?_
      (.inl ⟨[.leaf .var "width".toList], ['='], by simp [Parse.Spec.words, Parse.Item.functional], by decide, by decide⟩)
      (.line ?_)
    · refine Parse.Spec.Line.cons (t := "width".toList) (rest := "=".toList) (.inl ⟨_, rfl, .var isVar_width
        (demo_ends '=' (by decide) (by decide)) (by decide) (demo_longer _ _ _ (by decide +kernel))
        (demo_longer _ _ _ (by decide +kernel))⟩) ?_
      exact Parse.Spec.Line.cons (t := ['=']) (rest := [])
        (.inl ⟨_, rfl, demo_op ['='] '\n' (by decide +kernel) (by decide +kernel) (by decide) false⟩) .nil
    · refine Parse.Spec.Line.cons (t := ['7']) (rest := []) (.inl ⟨_, rfl, .num (demo_digit '7' (by decide)) ?_⟩) .nil
      intro c hc
      cases hc
      decide
  have h2 : Parse.Spec.Broken asciiFull [] 1 [] "width/=2".toList
      [.leaf .var "width".toList, .leaf .op ['/', '='], .leaf .num ['2']] [] (some '\n') :=
    .line (prog_line ['/', '='] '/' '2' (by decide) (by decide +kernel) (by decide +kernel) rfl (by decide)
      (by decide) (by decide +kernel) (by decide +kernel) (by decide))
  exact Parse.Spec.Statements.more (t := "width=\n7".toList) (ts := "width/=2\n2*(width -1)>=5".toList) h1
    (.more (t := "width/=2".toList) (ts := "2*(width -1)>=5".toList) h2 (.last (.line test_written)))

theorem broken_prog_means : LinesMean 30 9 true (fun _ => none) brokenProgram
    [some (.num (7 : ℕ)), some (.num (7 / 2)), some (.truth true)] widthEnv := by
  have digit : ∀ (env : Env) (c : Char) (d : ℕ), digitValue c = some d → d < 10 →
      Says 30 9 true env [.leaf .num [c], .leaf .terminator ['\n']] (.num d) := by
    intro env c d h hd
    refine .phrase (toks := [.val (.num d)]) (.word rfl ?_ (.skip (by decide) .nil)) (lift_reads (.atom _) (Nat.zero_le _))
    have := Word.number (p := 30) (env := env) (neg := false) (whole := [c]) (frac := [])
      (ip := [d]) (fp := []) (.cons ⟨h, hd⟩ .nil) (by simp) .nil (by norm_num)
    simpa [onlyWords, positionalQ, positional] using this
  have change : ∀ (o : Text) (rest : List Parse.Item), Change (.leaf .var "width".toList :: .leaf .op o :: rest) "width"
      (String.ofList o) rest := by
    intro o rest
    exact Change.mk (a := []) (b := []) (x := "width".toList) (fun _ h => by cases h) (fun _ h => by cases h)
  have first : Says 30 9 true (fun _ => none) [.leaf .space ['\n'], .leaf .num ['7'], .leaf .terminator ['\n']]
      (.num (7 : ℕ)) := by
    obtain ⟨hs, hr⟩ := digit (fun _ => none) '7' 7 (by decide) (by norm_num)
    exact .phrase (.skip (by decide) hs) hr
  refine .cons (.assign (change ['='] _) first) ?_
  refine .cons (.update (o := "/") (u := .num (7 : ℕ)) (w := .num (7 / 2)) (by decide) (change ['/', '='] _)
    (digit _ '2' 2 (by decide) (by norm_num)) rfl ?_) ?_
  · simp only [school, short]
    rw [if_neg (by norm_num), if_pos ⟨by decide +kernel, by decide +kernel⟩]
    norm_num
  have : Store.set (Store.set (fun _ => none) "width" (.num (7 : ℕ))) "width" (.num (7 / 2)) = widthEnv := by
    funext n
    unfold Store.set widthEnv
    split <;> rfl
  rw [this]
  exact .cons (.value test_means) .nil

/-- Non-vacuity: a program with a statement on two lines. -/
example : ∃ rs s' m', calculateText (shippedCfg asciiFull []
      (Parse.incomplete (progEngine (τ := ℕ) 30 AS.num? AS.ofNum noAlgebra AS.asBool AS.b AS.texts (fun _ _ => .ok 0) quietCalc
        (fun _ _ s => (.error (.calc "no"), s)) (fun _ => ⟨.sc (.b false), none, none, none⟩) AS.base (fun _ => 0) (fun _ => none))))
    (progEngine 30 AS.num? AS.ofNum noAlgebra AS.asBool AS.b AS.texts (fun _ _ => .ok 0) quietCalc
      (fun _ _ s => (.error (.calc "no"), s)) (fun _ => ⟨.sc (.b false), none, none, none⟩) AS.base (fun _ => 0) (fun _ => none))
    (wordVal 30 AS.ofNum AS.b AS.texts (.b false) (fun _ s => (.error (.calc "no"), s)))
    (finalize ⟨true, fun _ => false, fun v _ => .ok (v, none)⟩) 2
    "width=\n7\nwidth/=2\n2*(width -1)>=5".toList none ⟨fun _ => none, 5⟩ = some (.ran rs .done, m', s') ∧
    List.Forall₂ (fun r a => Reports AS.num? AS.Ten AS.asBool AS.texts r.answer a) rs
      [some (.num (7 : ℕ)), some (.num (7 / 2)), some (.truth true)] ∧
    Holds AS.num? AS.Ten AS.asBool AS.texts widthEnv s' ∧ s'.rest = 5 := by
  obtain ⟨rs, s', m', h1, h2, h3, h4, _⟩ := C77_program_partial quietCalc_arithmetical rfl (k := 9) (by norm_num)
    (fun _ _ => .ok 0) Parse.asciiWord Parse.isLetter (fun _ _ => rfl) (fun _ _ => rfl) []
    ⟨true, fun _ => false, fun v _ => .ok (v, none)⟩ (.b false)
    (fun _ _ s => (.error (.calc "no"), s)) (fun _ s => (.error (.calc "no"), s))
    (fun _ => ⟨.sc (.b false), none, none, none⟩) (rounding := true) (fun _ => ten_base) (fun _ => AS.shows 9) (fun _ => none) (env := fun _ => none)
    (s := (⟨fun _ => none, 5⟩ : St AS Empty ℕ)) (fun n v h => by cases h) (fun n v u h => by cases h)
    prog_broken (by decide) broken_prog_means (by decide) 0
  exact ⟨rs, s', m', h1, h2, h3, h4⟩

end MC.Props
