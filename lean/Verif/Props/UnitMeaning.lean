import Verif.Lemmas.UnitRun
import Verif.Spec.UnitMeaning
import Verif.Props.Meaning

/-! # C79: calculating an expression with units gives what the expression means -/

namespace MC.Props
open MC MC.Spec
open MC.Parse (Kind Text Cache shippedCfg)

section
variable {V σ : Type} (atomVal : Parse.Item → Act σ V)
  (call : String → List V → Act σ V) (isUnit : V → Bool) (mkErr : ExecErr → V)
  (getErr : V → Option Raise) (funcs : String → Option (FuncDef V σ))

/-- What words, operators and functions mean (`lit`, `f`, `g`) is what they do in the state `s`, and
they leave that state alone.  The meanings are not errors. -/
structure DoesU (s : σ) (lit : Kind → Text → V → Prop) (f g : String → List V → Except String V) :
    Prop where
  words : ∀ k t v, lit k t v → atomVal (.leaf k t) s = (.ok v, s) ∧ getErr v = none
  operators : ∀ o ins v, f o ins = .ok v → call o ins s = (.ok v, s) ∧ getErr v = none
  functions : ∀ w vs v, g w vs = .ok v → ∃ fd, funcs w = some fd ∧ fd.call vs s = (.ok v, s) ∧
    getErr v = none

variable {atomVal call isUnit mkErr getErr funcs}

theorem phrase_ne {f : String → List V → Except String V} {j k : ℕ} {b e : Bool} {toks : List (Tok V)} {v : V}
    (h : PhraseFrom isUnit f j k b e toks v) : toks ≠ [] := by
  obtain ⟨y, R, rfl⟩ := phrase_last h
  simp

theorem phrase_noErr {f : String → List V → Except String V}
    (hf : ∀ o ins v, f o ins = .ok v → getErr v = none) {j k : ℕ} {b e : Bool} {toks : List (Tok V)} {v : V}
    (h : PhraseFrom isUnit f j k b e toks v) (hu : ∀ x, Tok.val x ∈ toks → getErr x = none) :
    getErr v = none := by
  induction h with
  | atom v => exact hu v (by simp)
  | up _ ih => exact ih hu
  | left _ _ _ _ hx => exact hf _ _ _ hx
  | pref _ _ _ _ hx => exact hf _ _ _ hx
  | tern _ _ _ _ hx => exact hf _ _ _ hx
  | times _ _ _ _ hx => exact hf _ _ _ hx
  | per _ _ _ _ hx => exact hf _ _ _ hx
  | of _ _ _ _ hx => exact hf _ _ _ hx
  | next _ _ hx => exact hf _ _ _ hx

variable {s : σ} {lit : Kind → Text → V → Prop} {f g : String → List V → Except String V}

theorem standsU_inside {its : List Parse.Item} {toks : List (Tok V)} (h : StandsU isUnit lit f g its toks) :
    Inside its := by
  refine StandsU.rec (motive_1 := fun its _ _ => Inside its) (motive_2 := fun _ _ _ => True)
    (motive_3 := fun _ _ _ => True) ?_ ?_ ?_ ?_ ?_ ?_ ?_ ?_ ?_ ?_ h
  · intro it hit
    cases hit
  · intro k t its toks hk _ ih it hit
    rcases List.mem_cons.1 hit with rfl | hit
    · simp only [emptyKinds, List.mem_cons, List.not_mem_nil, or_false] at hk
      rcases hk with rfl | rfl | rfl <;> exact ⟨rfl, rfl⟩
    · exact ih it hit
  · intro o its toks _ ih it hit
    rcases List.mem_cons.1 hit with rfl | hit
    · exact ⟨rfl, rfl⟩
    · exact ih it hit
  · intro k t v its toks hk _ _ ih it hit
    rcases List.mem_cons.1 hit with rfl | hit
    · simp only [valueKinds, List.mem_cons, List.not_mem_nil, or_false] at hk
      rcases hk with rfl | rfl | rfl | rfl | rfl | rfl | rfl <;> exact ⟨rfl, rfl⟩
    · exact ih it hit
  · intro t inner v its toks _ _ _ ih it hit
    rcases List.mem_cons.1 hit with rfl | hit
    · exact ⟨rfl, rfl⟩
    · exact ih it hit
  · intro t w args vs v its toks _ _ _ _ ih it hit
    rcases List.mem_cons.1 hit with rfl | hit
    · exact ⟨rfl, rfl⟩
    · exact ih it hit
  all_goals intros; trivial

/-- What the items of a phrase are for the engine. -/
def RunsU (cfg : Config V σ) (atomVal : Parse.Item → Act σ V)
    (getErr : V → Option Raise) (s : σ) (its : List Parse.Item) (v : V) : Prop :=
  its ≠ [] ∧ Inside its ∧ Node.srcs cfg atomVal (toNodes its) ≠ [] ∧
    execute cfg (Node.srcs cfg atomVal (toNodes its)) s = (.ok v, s) ∧
    getErr v = none

theorem runsU_argVals (cfg : Config V σ) (hge : cfg.getErr = getErr) (b : Bool) {v : V} {its}
    (h : RunsU cfg atomVal getErr s its v) {rest : List (List (Node Parse.Item))} {vs : List V}
    (hr : argVals cfg b (Node.runs cfg atomVal rest) s = (.ok vs, s)) :
    argVals cfg b (Node.runs cfg atomVal (toNodes its :: rest)) s = (.ok (v :: vs), s) := by
  obtain ⟨_, _, _, h1, h2⟩ := h
  rw [Node.runs, argVals, h1]
  have : (if b = true then none else cfg.getErr v) = none := by
    rw [hge, h2]
    simp
  simp only [this, hr]

/-- The engine finds in the items of an expression the operands and operators they stand for. -/
theorem standsU_gives (hd : DoesU atomVal call getErr funcs s lit f g)
    {its : List Parse.Item} {toks : List (Tok V)} (h : StandsU isUnit lit f g its toks) :
    Gives s (Node.srcs (shipped call isUnit mkErr getErr funcs) atomVal (toNodes its)) toks ∧
      (∀ x, Tok.val x ∈ toks → getErr x = none) := by
  have hskip : ∀ (k : Kind) (t : Text) (its : List Parse.Item), (Parse.Item.leaf k t).functional = false →
      Node.srcs (shipped call isUnit mkErr getErr funcs) atomVal (toNodes (.leaf k t :: its))
        = Node.srcs (shipped call isUnit mkErr getErr funcs) atomVal (toNodes its) := by
    intro k t its hk
    have : toNode (.leaf k t) = .skip (String.ofList t) := by
      cases k <;> first
        | (simp [toNode, Parse.Item.functional, Parse.Item.text]; done)
        | (simp [Parse.Item.functional] at hk)
    rw [toNodes, this, Node.srcs, Node.src]
  refine StandsU.rec
    (motive_1 := fun its toks _ =>
      Gives s (Node.srcs (shipped call isUnit mkErr getErr funcs) atomVal (toNodes its)) toks ∧
      (∀ x, Tok.val x ∈ toks → getErr x = none))
    (motive_2 := fun its v _ =>
      RunsU (shipped call isUnit mkErr getErr funcs) atomVal getErr s its v)
    (motive_3 := fun args vs _ => ∀ b : Bool,
      argVals (shipped call isUnit mkErr getErr funcs) b
        (Node.runs (shipped call isUnit mkErr getErr funcs) atomVal
          ((toArgs (args ++ [.leaf .funcEnd [')']])).filter (fun a => !a.isEmpty))) s = (.ok vs, s))
    ?_ ?_ ?_ ?_ ?_ ?_ ?_ ?_ ?_ ?_ h
  · exact ⟨by rw [toNodes, Node.srcs]; exact .nil, by simp⟩
  · intro k t its toks hk _ ih
    rw [hskip]
    · exact ih
    · simp only [emptyKinds, List.mem_cons, List.not_mem_nil, or_false] at hk
      rcases hk with rfl | rfl | rfl <;> rfl
  · intro o its toks _ ih
    refine ⟨?_, ?_⟩
    · rw [toNodes, toNode, Node.srcs, Node.src]
      exact .op ih.1
    · intro x hx
      rcases List.mem_cons.1 hx with hx | hx
      · cases hx
      · exact ih.2 x hx
  · intro k t v its toks hk hl _ ih
    obtain ⟨h1, h3⟩ := hd.words k t v hl
    have : toNode (.leaf k t) = .atom (.leaf k t) := by
      simp only [valueKinds, List.mem_cons, List.not_mem_nil, or_false] at hk
      rcases hk with rfl | rfl | rfl | rfl | rfl | rfl | rfl <;>
        simp [toNode, Parse.Item.functional]
    refine ⟨?_, ?_⟩
    · rw [toNodes, this, Node.srcs, Node.src]
      exact .operand h1 ih.1
    · intro x hx
      rcases List.mem_cons.1 hx with hx | hx
      · cases hx
        exact h3
      · exact ih.2 x hx
  · intro t inner v its toks _ _ ihi ih
    obtain ⟨_, _, _, h1, h3⟩ := ihi
    refine ⟨?_, ?_⟩
    · rw [toNodes, toNode, Node.srcs, Node.src]
      refine .operand ?_ ih.1
      rw [List.cons_append, hskip _ _ _ rfl, toNodes_append, srcs_append, hskip _ _ _ rfl]
      rw [show Node.srcs (shipped call isUnit mkErr getErr funcs) atomVal (toNodes []) = [] by
        rw [toNodes, Node.srcs]]
      rw [List.append_nil, innerVal, h1]
      have : (shipped call isUnit mkErr getErr funcs).getErr v = none := h3
      simp only [this]
    · intro x hx
      rcases List.mem_cons.1 hx with hx | hx
      · cases hx
        exact h3
      · exact ih.2 x hx
  · intro t w args vs v its toks _ hg _ iha ih
    obtain ⟨fd, h1, h2, h4⟩ := hd.functions _ _ _ hg
    refine ⟨?_, ?_⟩
    · rw [toNodes, toNode, parsedFunc, Node.srcs, Node.src]
      refine .operand ?_ ih.1
      have e1 : callNameOf (.leaf .funcName w :: .leaf .funcStart ['('] :: args
          ++ [.leaf .funcEnd [')']]) = String.ofList w := rfl
      have e2 : toArgs (.leaf .funcName w :: .leaf .funcStart ['('] :: args
          ++ [.leaf .funcEnd [')']]) = toArgs (args ++ [.leaf .funcEnd [')']]) := by
        rw [List.cons_append, List.cons_append, toArgs, toArgs]
        simp [isComma, isCallPart]
      have e3 : (shipped call isUnit mkErr getErr funcs).funcs (String.ofList w) = some fd := h1
      rw [e1, e2, funcVal, e3]
      simp only [iha fd.canBeExc, h2]
    · intro x hx
      rcases List.mem_cons.1 hx with hx | hx
      · cases hx
        exact h4
      · exact ih.2 x hx
  · intro its toks v b e hs hr ih
    have hne := phrase_ne hr
    have hex := execute_phrase (call := call) (mkErr := mkErr) (getErr := getErr) (funcs := funcs)
      (fun o ins v h => (hd.operators o ins v h).1) (le_refl 16) ih.1 hr
    have hsrc : Node.srcs (shipped call isUnit mkErr getErr funcs) atomVal (toNodes its) ≠ [] := by
      intro e
      have := ih.1
      rw [e] at this
      cases this
      exact hne rfl
    refine ⟨?_, standsU_inside hs, hsrc, hex,
      phrase_noErr (fun o ins v h => (hd.operators o ins v h).2) hr ih.2⟩
    rintro rfl
    apply hsrc
    rw [toNodes, Node.srcs]
  · intro b
    rw [List.nil_append, toArgs_end]
    simp [Node.runs, argVals]
  · intro its v _ ih b
    have e : toArgs (its ++ [.leaf .funcEnd [')']]) = [toNodes its] := by
      rw [toArgs_inside ih.2.1, toArgs_end]
      simp
    rw [e, List.filter_cons, toNodes_isEmpty ih.1]
    exact runsU_argVals _ rfl b ih (by simp [Node.runs, argVals])
  · intro its v rest v' vs _ _ ih ihr b
    have e : toArgs ((its ++ .leaf .funcParam [','] :: rest) ++ [.leaf .funcEnd [')']])
        = toNodes its :: toArgs (rest ++ [.leaf .funcEnd [')']]) := by
      rw [List.append_assoc, toArgs_inside ih.2.1, List.cons_append, toArgs]
      simp [isComma]
    rw [e, List.filter_cons, toNodes_isEmpty ih.1]
    exact runsU_argVals _ rfl b ih (ihr b)

theorem meansU_runs (hd : DoesU atomVal call getErr funcs s lit f g)
    {its : List Parse.Item} {v : V} (h : MeansU isUnit lit f g its v) :
    RunsU (shipped call isUnit mkErr getErr funcs) atomVal getErr s its v := by
  obtain ⟨hs, hr⟩ := h
  have ih := standsU_gives (mkErr := mkErr) hd hs
  have hne := phrase_ne hr
  have hsrc : Node.srcs (shipped call isUnit mkErr getErr funcs) atomVal (toNodes its) ≠ [] := by
    intro e
    have := ih.1
    rw [e] at this
    cases this
    exact hne rfl
  refine ⟨?_, standsU_inside hs, hsrc, execute_phrase (fun o ins v h => (hd.operators o ins v h).1)
    (le_refl 16) ih.1 hr,
    phrase_noErr (fun o ins v h => (hd.operators o ins v h).2) hr ih.2⟩
  rintro rfl
  apply hsrc
  rw [toNodes, Node.srcs]

variable (p : ℕ) (powF : ℚ → ℚ → Except Err ℚ) (word alpha : Char → Bool)

/-- **C79**: calculating a written expression with units gives one answer: what the expression means,
finalized.  Units next to each other are multiplied and units with `/` between them are divided first,
then a unit belongs to the value before it, then values next to each other are multiplied, and all of
this before `*` and `/`; the other operators, brackets and calls are as documented. -/
theorem C79_expression (hw : ∀ c, c.toNat < 128 → word c = Parse.asciiWord c)
    (ha : ∀ c, c.toNat < 128 → alpha c = Parse.isLetter c)
    (hd : DoesU atomVal call getErr funcs s lit f g)
    (names : List Text) (inc : List Parse.Item → Bool) (finalize : V → Act σ V)
    {n : ℕ} {t : Text} {its : List Parse.Item}
    (hx : Parse.Spec.Expression (fullLex p powF word alpha) names n t its)
    {v w : V} {s' : σ} (hm : MeansU isUnit lit f g its v) (hfin : finalize v s = (.ok w, s')) (m : Cache)
    (extra : ℕ) :
    calculateText (shippedCfg (fullLex p powF word alpha) names inc)
      (shipped call isUnit mkErr getErr funcs) atomVal finalize (n + extra + 1) t m s
      = some (.ran [⟨some w, s'⟩] .done, m, s') := by
  obtain ⟨h0, _, h1, h2, h3⟩ := meansU_runs (mkErr := mkErr) hd hm
  have ht : t ≠ [] := by
    rintro rfl
    exact h0 (C69_unambiguous hw ha names hx (k := n) Parse.Spec.Line.nil)
  rw [calculateText, if_neg ht, C69_read hw ha names inc hx extra {} rfl m]
  have hst : stmt (shipped call isUnit mkErr getErr funcs) atomVal finalize (toNodes its) s
      = (.ok (some w), s') := by
    rw [stmt]
    have h3' : (shipped call isUnit mkErr getErr funcs).getErr v = none := h3
    cases hs : Node.srcs (shipped call isUnit mkErr getErr funcs) atomVal (toNodes its) with
    | nil => exact absurd hs h1
    | cons a as =>
      simp only [executeNodes]
      rw [h2]
      simp only [h3', hfin]
  simp only [List.map_cons, List.map_nil, calculate, hst]

end

section
variable {V : Type} {isUnit : V → Bool} {f : String → List V → Except String V}

/-- **C79**: an expression with units has one reading. -/
theorem C79_unambiguous {k k' : ℕ} {b e b' e' : Bool} {toks : List (Tok V)} {v v' : V} (hk : k ≤ 16) (hk' : k' ≤ 16)
    (h : Phrase isUnit f k b e toks v) (h' : Phrase isUnit f k' b' e' toks v') : v = v' := by
  have hg : ∀ T : List (Tok V), Gives () (T.map asSrc) T := by
    intro T
    induction T with
    | nil => exact .nil
    | cons t T ih =>
      cases t with
      | op o => exact .op ih
      | val v => exact .operand rfl ih
  have hf : ∀ o ins v, f o ins = .ok v →
      (fun (o : String) ins (s : Unit) => ((f o ins).mapError (fun m => Raise.calc m), s)) o ins () = (.ok v, ()) := by
    intro o ins v h
    simp only [h]; rfl
  have h1 := execute_phrase (mkErr := fun _ => v) (getErr := fun _ => none) (funcs := fun _ => none) hf hk (hg toks) h
  have h2 := execute_phrase (mkErr := fun _ => v) (getErr := fun _ => none) (funcs := fun _ => none) hf hk' (hg toks) h'
  rw [h1] at h2
  simpa using h2

end

/-! ## Non-vacuity -/

/-- Expressions as they are bracketed. -/
inductive Shape where
  | word (k : Kind) (t : Text)
  | two (o : String) (a b : Shape)

/-- Units are words for units, and what they make together. -/
def Shape.isUnit : Shape → Bool
  | .word k _ => decide (k = .unit)
  | .two o _ _ => decide (o = "UNIT_MULTIPLY" ∨ o = "UNIT_DIVIDE")

/-- Operators put brackets. -/
def Shape.put : String → List Shape → Except String Shape
  | o, [a, b] => .ok (.two o a b)
  | _, _ => .error "no operator"

theorem isUnit_s : Parse.Spec.IsUnit asciiFull "s".toList :=
  isUnit_writes (fun _ _ => rfl) (fun _ _ => rfl) (.inl (by decide +kernel)) (by decide) (by decide)

theorem isUnit_h : Parse.Spec.IsUnit asciiFull "h".toList :=
  isUnit_writes (fun _ _ => rfl) (fun _ _ => rfl) (.inl (by decide +kernel)) (by decide) (by decide)

/-- The items of `5 km/s*2 h`. -/
def speedItems : List Parse.Item :=
  [.leaf .num ['5'], .leaf .space [' '], .leaf .unit "km".toList, .leaf .op ['/'], .leaf .unit "s".toList,
   .leaf .op ['*'], .leaf .num ['2'], .leaf .space [' '], .leaf .unit "h".toList]

theorem speed_written : Parse.Spec.Expression asciiFull [] 1 "5 km/s*2 h".toList speedItems := by
  refine Parse.Spec.Line.cons (t := ['5']) (rest := " km/s*2 h".toList)
    (.inl ⟨_, rfl, .num (demo_digit '5' (by decide)) ?_⟩) ?_
  · intro c hc
    cases hc
    decide
  refine Parse.Spec.Line.cons (t := [' ']) (rest := "km/s*2 h".toList)
    (.inl ⟨_, rfl, .space (by decide) (by decide)⟩) ?_
  refine Parse.Spec.Line.cons (t := "km".toList) (rest := "/s*2 h".toList)
    (.inl ⟨_, rfl, .unit isUnit_km (demo_ends '/' (by decide) (by decide)) ?_
      (demo_longer _ _ _ (by decide +kernel)) (demo_longer _ _ _ (by decide +kernel))⟩) ?_
  · intro c hc
    cases hc
    decide
  refine Parse.Spec.Line.cons (t := ['/']) (rest := "s*2 h".toList)
    (.inl ⟨_, rfl, demo_op ['/'] 's' (by decide +kernel) (by decide +kernel) (by decide) false⟩) ?_
  refine Parse.Spec.Line.cons (t := "s".toList) (rest := "*2 h".toList)
    (.inl ⟨_, rfl, .unit isUnit_s (demo_ends '*' (by decide) (by decide)) ?_
      (demo_longer _ _ _ (by decide +kernel)) (demo_longer _ _ _ (by decide +kernel))⟩) ?_
  · intro c hc
    cases hc
    decide
  refine Parse.Spec.Line.cons (t := ['*']) (rest := "2 h".toList)
    (.inl ⟨_, rfl, demo_op ['*'] '2' (by decide +kernel) (by decide +kernel) (by decide) false⟩) ?_
  refine Parse.Spec.Line.cons (t := ['2']) (rest := " h".toList)
    (.inl ⟨_, rfl, .num (demo_digit '2' (by decide)) ?_⟩) ?_
  · intro c hc
    cases hc
    decide
  refine Parse.Spec.Line.cons (t := [' ']) (rest := "h".toList)
    (.inl ⟨_, rfl, .space (by decide) (by decide)⟩) ?_
  refine Parse.Spec.Line.cons (t := "h".toList) (rest := []) (.inl ⟨_, rfl, .unit isUnit_h ?_ ?_ ?_ ?_⟩) .nil
  all_goals (intro c hc; cases hc)

/-- `5 km/s*2 h` is the product of `5 km/s` and `2 h`, and `km/s` in it is one unit. -/
def speedShape : Shape :=
  .two "*" (.two "UNIT_ASSIGNMENT" (.word .num ['5'])
      (.two "UNIT_DIVIDE" (.word .unit "km".toList) (.word .unit "s".toList)))
    (.two "UNIT_ASSIGNMENT" (.word .num ['2']) (.word .unit "h".toList))

theorem phrase_up {V : Type} {isUnit : V → Bool} {f : String → List V → Except String V} {j i : ℕ} {b e : Bool}
    {toks : List (Tok V)} {v : V} (n : ℕ) (h : PhraseFrom isUnit f j i b e toks v) :
    PhraseFrom isUnit f j (i + n) b e toks v := by
  induction n with
  | zero => exact h
  | succ n ih => exact .up ih

theorem phrase_word {V : Type} {isUnit : V → Bool} {f : String → List V → Except String V} {b : Bool} (n : ℕ) (v : V)
    (h : isUnit v = b) : PhraseFrom isUnit f 0 n b b [.val v] v := by
  subst h
  have := phrase_up (isUnit := isUnit) (f := f) (j := 0) n (.atom v)
  rwa [Nat.zero_add] at this

theorem speed_means : MeansU Shape.isUnit (fun k t v => v = .word k t) Shape.put (fun _ _ => .error "none")
    speedItems speedShape := by
  refine .phrase (b := false) (e := Shape.isUnit (.word .unit "h".toList)) (.word (by decide) rfl (.skip (by decide) (.word (by decide) rfl (.op (.word (by decide) rfl
    (.op (.word (by decide) rfl (.skip (by decide) (.word (by decide) rfl .nil))))))))) ?_
  refine phrase_up (isUnit := Shape.isUnit) (f := Shape.put) (j := 0) 9 (i := 7) (toks := ([.val (Shape.word .num ['5'])] ++ ([.val (Shape.word .unit "km".toList)]
    ++ .op "/" :: [.val (Shape.word .unit "s".toList)])) ++ .op "*" :: ([.val (Shape.word .num ['2'])]
    ++ [.val (Shape.word .unit "h".toList)])) ?_
  refine .left (k := 6) (o := "*") rfl (by decide) (phrase_up 2 (i := 5) (.of (phrase_word 4 _ rfl)
    (.per (phrase_word 4 _ rfl) (phrase_word 3 _ rfl) rfl rfl rfl) rfl rfl rfl rfl))
    (phrase_up 1 (i := 5) (.of (phrase_word 4 _ rfl) (phrase_word 4 _ rfl) rfl rfl rfl rfl))
    rfl (by decide) ?_
  intro _ h
  cases h

/-- Non-vacuity: `5 km/s*2 h` is answered with that by an engine that puts brackets. -/
example (m : Cache) : calculateText (shippedCfg asciiFull [] (fun _ => false))
    (shipped (fun o xs n => ((Shape.put o xs).mapError (fun e => .calc e), n)) Shape.isUnit
      (fun _ => .word .num []) (fun _ => none) (fun _ => none))
    (fun it (n : ℕ) => (match it with | .leaf k t => .ok (.word k t) | _ => .error (.calc "none"), n))
    (fun v n => (.ok v, n + 1)) 2 "5 km/s*2 h".toList m 7
    = some (.ran [⟨some speedShape, 8⟩] .done, m, 8) := by
  refine C79_expression 30 (fun _ _ => .ok 0) Parse.asciiWord Parse.isLetter (fun _ _ => rfl)
    (fun _ _ => rfl) ?_ [] _ _ speed_written speed_means rfl m 0
  refine ⟨fun k t v h => ?_, fun o ins v h => ?_, fun w vs v h => ?_⟩
  · subst h
    exact ⟨rfl, rfl⟩
  · rw [h]
    exact ⟨rfl, rfl⟩
  · cases h

end MC.Props
