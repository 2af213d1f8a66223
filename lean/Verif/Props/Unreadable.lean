import Verif.Lemmas.Unreadable
import Verif.Props.Program

/-! # C78: a text that cannot be read is rejected as a whole, at the mistake -/

namespace MC.Props
open MC MC.Spec MC.State MC.Unit.Table
open MC.Parse (Kind Text Cache shippedCfg)

attribute [local irreducible] ops units unitNames unitSymbols maxLength

section
variable {V σ : Type} {p : ℕ} {powF : ℚ → ℚ → Except Err ℚ} {word alpha : Char → Bool}
  (hw : ∀ c, c.toNat < 128 → word c = Parse.asciiWord c)
  (ha : ∀ c, c.toNat < 128 → alpha c = Parse.isLetter c) (names : List Text)

theorem constants_ne : ([] : Text) ∉ constantNames := by decide +kernel

theorem special_heads : ∀ y ∈ shippedSystems ++ shippedTypes, ∃ c s, y = c :: s ∧ Parse.isLetter c = true := by
  have : (shippedSystems ++ shippedTypes).all (fun y => y.head?.any Parse.isLetter) = true := by decide +kernel
  intro y hy
  have h := List.all_eq_true.1 this y hy
  cases y with
  | nil => cases h
  | cons c s => exact ⟨c, s, rfl, by simpa using h⟩

include hw ha

/-- **C78**: if the lines before the mistake are complete, the text is rejected: the error has the
message for the mistake, its rest is the text from the mistake on and its items are the text before.
No statement has run and the state is as before, whatever the lines before the mistake say. -/
theorem C78_rejected (inc : List Parse.Item → Bool) (cfg : Config V σ) (atomVal : Parse.Item → Act σ V)
    (finalize : V → Act σ V) {n : ℕ} {t bad : Text} {msg : String}
    (h : Parse.Spec.Rejected (fullLex p powF word alpha) names n (fun ws => inc ws = false) t msg bad)
    (s : σ) (extra : ℕ) :
    ∃ st, Parse.itemsText st.flatten ++ bad = t ∧
      calculateText (shippedCfg (fullLex p powF word alpha) names inc) cfg atomVal finalize (n + extra + 1) t none s
        = some (.unread (.parsing msg st bad), none, s) := by
  have ht : t ≠ [] := by
    cases h with
    | here h => exact Parse.unreadable_ne names h
    | line => simp
  obtain ⟨st, e1, e2⟩ := Parse.loop_rejected (symbolsOk hw ha) names inc none constants_ne special_heads extra
    (fun its h => ⟨h, by simp⟩) h (t.length + 1) 0 [] (by omega)
  refine ⟨st, e1, ?_⟩
  have e3 : Parse.parse (shippedCfg (fullLex p powF word alpha) names inc) (n + extra + 1) {} t none
      = some (.error (.parsing msg st bad), none) := e2
  rw [calculateText, if_neg ht, e3]

/-- **C78** with programs: lines that mean something, whatever they mean, and then a mistake. -/
theorem C78_program (call : String → List V → Act σ V) (isUnit : V → Bool) (mkErr : ExecErr → V)
    (getErr : V → Option Raise) (funcs : String → Option (FuncDef V σ)) (atomVal : Parse.Item → Act σ V)
    (finalize : V → Act σ V) {n q k : ℕ} {rounding : Bool} {t bad : Text} {msg : String}
    (h : Parse.Spec.Rejected (fullLex p powF word alpha) names n
      (fun ws => ∃ its a env env', LineMeans q k rounding env its a env' ∧ ws = Parse.Spec.words its) t msg bad)
    (s : σ) (extra : ℕ) :
    ∃ st, Parse.itemsText st.flatten ++ bad = t ∧
      calculateText (shippedCfg (fullLex p powF word alpha) names
          (Parse.incomplete (shipped call isUnit mkErr getErr funcs)))
        (shipped call isUnit mkErr getErr funcs) atomVal finalize (n + extra + 1) t none s
        = some (.unread (.parsing msg st bad), none, s) := by
  refine C78_rejected hw ha names _ _ _ _ ?_ s extra
  induction h with
  | here h => exact .here h
  | line hl hc _ ih =>
    obtain ⟨its, a, env, env', h1, h2⟩ := hc
    refine .line hl ?_ ih
    rw [h2]
    exact line_complete call isUnit mkErr getErr funcs h1

/-- **C78**, the other way round: if anything at all was run or changed, the whole text was read
first: the statements that are run are, written one after the other, the text. -/
theorem C78_whole (inc : List Parse.Item → Bool) (cfg : Config V σ) (atomVal : Parse.Item → Act σ V)
    (finalize : V → Act σ V) {bound : ℕ} {t : Text} {m m' : Cache} {s s' : σ} {r : Run V σ}
    (h : calculateText (shippedCfg (fullLex p powF word alpha) names inc) cfg atomVal finalize bound t m s
      = some (r, m', s')) :
    (∃ e, r = .unread e ∧ s' = s) ∨
    ∃ rs how, ∃ st : List (List Parse.Item), r = .ran rs how ∧ Parse.itemsText st.flatten = t ∧
      (t ≠ [] → calculate cfg atomVal finalize 0 (st.map toNodes) s = (rs, how, s')) ∧
      (t = [] → rs = [] ∧ how = .done ∧ s' = s) := by
  have h1 : ([] : Text) ∉ (fullLex p powF word alpha).ops := shippedOps_ne
  have h2 : ([] : Text) ∉ (fullLex p powF word alpha).systems := by
    show ([] : Text) ∉ shippedSystems
    decide +kernel
  have h3 : ([] : Text) ∉ (fullLex p powF word alpha).numTypes := by
    show ([] : Text) ∉ shippedTypes
    decide +kernel
  rw [calculateText] at h
  split at h
  · rename_i ht
    simp only [Option.some.injEq, Prod.mk.injEq] at h
    obtain ⟨rfl, rfl, rfl⟩ := h
    exact .inr ⟨[], .done, [], rfl, by rw [ht]; rfl, fun h => absurd ht h, fun _ => ⟨rfl, rfl, rfl⟩⟩
  · rename_i ht
    cases hp : Parse.parse (shippedCfg (fullLex p powF word alpha) names inc) bound {} t m with
    | none => rw [hp] at h; cases h
    | some q =>
      obtain ⟨q, m1⟩ := q
      rw [hp] at h
      cases q with
      | error e =>
        simp only [Option.some.injEq, Prod.mk.injEq] at h
        obtain ⟨rfl, rfl, rfl⟩ := h
        exact .inl ⟨e, rfl, rfl⟩
      | ok q =>
        obtain ⟨st, len, w⟩ := q
        simp only [Option.some.injEq, Prod.mk.injEq] at h
        obtain ⟨rfl, rfl, rfl⟩ := h
        exact .inr ⟨_, _, st, rfl, (C19_shipped _ names inc h1 h2 h3 hp).1, fun _ => rfl, fun h => absurd h ht⟩

omit hw ha in
/-- The printable ASCII characters that nothing starts with, digits among them. -/
theorem C78_foreign : ∀ c ∈ "0123456789,.:;?]$\"`".toList, Parse.Spec.Foreign (fullLex p powF word alpha) c := by
  have k1 : "0123456789,.:;?]$\"`".toList.all (fun c => !Parse.isLetter c && c ≠ '_' && !Parse.isSpaceChar c &&
      !(['#', '\'', '@', '(', ')', '[', '{', '}', '-'].contains c)) = true := by decide +kernel
  have k2 : (Parse.opsSymbols Parse.shippedOps).all (fun o => !o.head?.any
      ("0123456789,.:;?]$\"`".toList.contains ·)) = true := by decide +kernel
  have k3 : (unitNames ++ unitSymbols).all (fun o => !o.head?.any
      ("0123456789,.:;?]$\"`".toList.contains ·)) = true := by decide +kernel
  intro c hc
  have h1 := List.all_eq_true.1 k1 c hc
  simp only [Bool.and_eq_true, Bool.not_eq_true', decide_eq_true_eq] at h1
  have key : ∀ l : List Text, l.all (fun o => !o.head?.any ("0123456789,.:;?]$\"`".toList.contains ·)) = true →
      ∀ o ∈ l, o.head? ≠ some c := by
    intro l hl o ho e
    have h := List.all_eq_true.1 hl o ho
    have hc' : "0123456789,.:;?]$\"`".toList.contains c = true := List.contains_iff_mem.2 hc
    rw [e, Option.any_some, hc'] at h
    cases h
  exact ⟨⟨h1.1.1.1, h1.1.1.2, h1.1.2⟩, by simpa using h1.2, key _ k2, key _ k3⟩

end

/-! ## Non-vacuity -/

theorem demo_rejected : Parse.Spec.Rejected asciiFull [] 1
    (fun ws => ∃ its a env env', LineMeans 30 9 true env its a env' ∧ ws = Parse.Spec.words its)
    "width=7\n2*(8 3".toList "Could not parse: 3" "3".toList := by
  refine .line (t := "width=7".toList) (ts := "2*(8 3".toList)
    (its := [.leaf .var "width".toList, .leaf .op ['='], .leaf .num ['7']]) ?_ ?_ (.here ?_)
  · exact prog_line ['='] '=' '7' (by decide) (by decide +kernel) (by decide +kernel) rfl (by decide) (by decide)
      (by decide +kernel) (by decide +kernel) (by decide)
  · have h := prog_means
    cases h with
    | cons h _ => exact ⟨_, _, _, _, h, by simp [Parse.Spec.words, Parse.Item.functional]⟩
  · refine .after (t := "2*".toList) (its := [.leaf .num ['2'], .leaf .op ['*']]) (rest := "(8 3".toList) ?_
      (.bracket (ts := "8 3".toList) (.after (t := "8 ".toList) (its := [.leaf .num ['8'], .leaf .space [' ']])
        (rest := "3".toList) ?_ (.number (c := '3') (r := []) (C78_foreign _ (by decide)) (by decide))))
    · refine Parse.Spec.Line.cons (t := ['2']) (rest := "*".toList)
        (.inl ⟨_, rfl, .num (demo_digit '2' (by decide)) ?_⟩) ?_
      · intro c hc
        cases hc
        decide
      exact Parse.Spec.Line.cons (t := ['*']) (rest := [])
        (.inl ⟨_, rfl, demo_op ['*'] '(' (by decide +kernel) (by decide +kernel) (by decide) false⟩) .nil
    · refine Parse.Spec.Line.cons (t := ['8']) (rest := " ".toList) ⟨_, rfl, .num (demo_digit '8' (by decide)) ?_⟩ ?_
      · intro c hc
        cases hc
        decide
      exact Parse.Spec.Line.cons (t := [' ']) (rest := []) ⟨_, rfl, .space (by decide) (by decide)⟩ .nil

/-- Non-vacuity: `width=7⏎2*(8 3` is rejected because of the `3`; the variable is not set. -/
example (call : String → List ℕ → Act (String → ℕ) ℕ) (s : String → ℕ) : ∃ st,
    Parse.itemsText st.flatten = "width=7\n2*(8 ".toList ∧
    calculateText (shippedCfg asciiFull [] (Parse.incomplete
        (shipped call (fun _ => false) (fun _ => 0) (fun _ => none) (fun _ => none))))
      (shipped call (fun _ => false) (fun _ => 0) (fun _ => none) (fun _ => none)) (fun _ s => (.ok 1, s))
      (fun v s => (.ok v, s)) 2 "width=7\n2*(8 3".toList none s
      = some (.unread (.parsing "Could not parse: 3" st ['3']), none, s) := by
  obtain ⟨st, h1, h2⟩ := C78_program (fun _ _ => rfl) (fun _ _ => rfl) [] call (fun _ => false) (fun _ => 0)
    (fun _ => none) (fun _ => none) (fun _ s => (.ok 1, s)) (fun v s => (.ok v, s)) demo_rejected s 0
  refine ⟨st, ?_, h2⟩
  exact List.append_cancel_right (h1.trans (by decide))

end MC.Props
