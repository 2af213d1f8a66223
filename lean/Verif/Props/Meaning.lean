import Verif.Lemmas.EnginePure
import Verif.Model.Text
import Verif.Spec.Meaning
import Verif.Props.Written

/-! # C71: calculating an expression gives what the expression means -/

namespace MC.Props
open MC MC.Spec
open MC.Parse (Kind Text Cache shippedCfg)

section
variable {V σ : Type} (atomVal : Parse.Item → Act σ V)
  (call : String → List V → Act σ V) (isUnit : V → Bool) (mkErr : ExecErr → V)
  (getErr : V → Option Raise) (funcs : String → Option (FuncDef V σ))

/-- What operands, operators and functions mean (`lit`, `f`, `g`) is what they do in the state `s`, and
they leave that state alone.  The meanings are neither units nor errors. -/
structure Does (s : σ) (lit : Parse.Item → V → Prop) (f g : String → List V → Except String V) :
    Prop where
  words : ∀ it v, lit it v → atomVal it s = (.ok v, s) ∧ isUnit v = false ∧ getErr v = none
  operators : ∀ o ins v, f o ins = .ok v → call o ins s = (.ok v, s) ∧ getErr v = none
  noUnits : ∀ o ins v, (∀ x ∈ ins, isUnit x = false) → f o ins = .ok v → isUnit v = false
  functions : ∀ w vs v, g w vs = .ok v → ∃ fd, funcs w = some fd ∧ fd.call vs s = (.ok v, s) ∧
    isUnit v = false ∧ getErr v = none

variable {atomVal call isUnit mkErr getErr funcs}

theorem reads_ne {f : String → List V → Except String V} {k : ℕ} {toks : List (Tok V)} {v : V}
    (h : Reads documented f k toks v) : toks ≠ [] := by
  induction h with
  | atom => simp
  | up _ ih => exact ih
  | left => simp
  | pref => simp
  | tern => simp
  | next _ _ _ _ iht _ => simp [iht]

theorem reads_noErr {f : String → List V → Except String V}
    (hf : ∀ o ins v, f o ins = .ok v → getErr v = none) {k : ℕ} {toks : List (Tok V)} {v : V}
    (h : Reads documented f k toks v) (hu : ∀ x, Tok.val x ∈ toks → getErr x = none) :
    getErr v = none := by
  induction h with
  | atom v => exact hu v (by simp)
  | up _ ih => exact ih hu
  | left _ _ _ _ hx => exact hf _ _ _ hx
  | pref _ _ _ hx => exact hf _ _ _ hx
  | tern _ _ _ _ hx => exact hf _ _ _ hx
  | next _ _ _ hx => exact hf _ _ _ hx

/-- Items that are not parts of the writing of a call. -/
def Inside (its : List Parse.Item) : Prop := ∀ it ∈ its, isComma it = false ∧ isCallPart it = false

theorem toArgs_inside : ∀ {its : List Parse.Item} (_ : Inside its) (rest : List Parse.Item),
    toArgs (its ++ rest) = (match toArgs rest with
      | [] => if its = [] then [] else [toNodes its]
      | a :: as => (toNodes its ++ a) :: as)
  | [], _, rest => by
    cases h : toArgs rest <;> simp [toNodes, h]
  | it :: its, h, rest => by
    have h1 := h it (by simp)
    rw [List.cons_append, toArgs, h1.1, h1.2, toArgs_inside (fun x hx => h x (by simp [hx])) rest]
    cases hr : toArgs rest with
    | nil =>
      cases its with
      | nil => simp [toNodes]
      | cons a as => simp [toNodes]
    | cons a as => simp [toNodes]

theorem toNodes_append : ∀ (a b : List Parse.Item), toNodes (a ++ b) = toNodes a ++ toNodes b
  | [], _ => rfl
  | x :: a, b => by simp [toNodes, toNodes_append a b]

theorem srcs_append (cfg : Config V σ) : ∀ (a b : List (Node Parse.Item)),
    Node.srcs cfg atomVal (a ++ b) = Node.srcs cfg atomVal a ++ Node.srcs cfg atomVal b
  | [], _ => by simp [Node.srcs]
  | x :: a, b => by
    simp only [List.cons_append, Node.srcs]
    rw [srcs_append cfg a b]
    cases Node.src cfg atomVal x <;> simp

variable {s : σ} {lit : Parse.Item → V → Prop} {f g : String → List V → Except String V}

theorem operand_inside {it : Parse.Item} (h : isOperand it = true) :
    isComma it = false ∧ isCallPart it = false := by
  cases it with
  | leaf k t =>
    simp only [isOperand, valueKinds, List.mem_cons, List.not_mem_nil, or_false, decide_eq_true_eq] at h
    rcases h with rfl | rfl | rfl | rfl | rfl | rfl | rfl <;> exact ⟨rfl, rfl⟩
  | nest => exact ⟨rfl, rfl⟩

theorem operand_atom {it : Parse.Item} (h : isOperand it = true) : toNode it = .atom it := by
  cases it with
  | leaf k t =>
    simp only [isOperand, valueKinds, List.mem_cons, List.not_mem_nil, or_false, decide_eq_true_eq] at h
    rcases h with rfl | rfl | rfl | rfl | rfl | rfl | rfl <;> simp [toNode, Parse.Item.functional]
  | nest k t its =>
    simp only [isOperand, List.mem_cons, List.not_mem_nil, or_false, decide_eq_true_eq] at h
    rcases h with rfl | rfl | rfl <;> simp [toNode, Parse.Item.functional]

theorem stands_inside {its : List Parse.Item} {toks : List (Tok V)} (h : Stands lit f g its toks) :
    Inside its := by
  refine Stands.rec (motive_1 := fun its _ _ => Inside its) (motive_2 := fun _ _ _ => True)
    (motive_3 := fun _ _ _ => True) ?_ ?_ ?_ ?_ ?_ ?_ ?_ ?_ ?_ ?_ h
  · intro it hit
    cases hit
  · intro k t its toks hk _ ih it hit
    rcases List.mem_cons.1 hit with rfl | hit
    · simp only [emptyKinds, List.mem_cons, List.not_mem_nil, or_false] at hk
      rcases hk with rfl | rfl | rfl <;> exact ⟨rfl, rfl⟩
    · exact ih it hit
  · intro o its toks _ ih it hit
    rcases List.mem_cons.1 hit with rfl | hit
    · exact ⟨rfl, rfl⟩
    · exact ih it hit
  · intro it v its toks hk _ _ ih it' hit
    rcases List.mem_cons.1 hit with rfl | hit
    · exact operand_inside hk
    · exact ih it' hit
  · intro t inner v its toks _ _ _ ih it hit
    rcases List.mem_cons.1 hit with rfl | hit
    · exact ⟨rfl, rfl⟩
    · exact ih it hit
  · intro t w args vs v its toks _ _ _ _ ih it hit
    rcases List.mem_cons.1 hit with rfl | hit
    · exact ⟨rfl, rfl⟩
    · exact ih it hit
  all_goals intros; trivial

/-- What the items of a phrase are for the engine. -/
def Runs (cfg : Config V σ) (atomVal : Parse.Item → Act σ V) (isUnit : V → Bool)
    (getErr : V → Option Raise) (s : σ) (its : List Parse.Item) (v : V) : Prop :=
  its ≠ [] ∧ Inside its ∧ Node.srcs cfg atomVal (toNodes its) ≠ [] ∧
    execute cfg (Node.srcs cfg atomVal (toNodes its)) s = (.ok v, s) ∧ isUnit v = false ∧
    getErr v = none

theorem toNodes_isEmpty {its : List Parse.Item} (h : its ≠ []) : (toNodes its).isEmpty = false := by
  cases its with
  | nil => exact absurd rfl h
  | cons a as => rfl

theorem toArgs_end : toArgs [.leaf .funcEnd [')']] = [[]] := rfl

theorem runs_argVals (cfg : Config V σ) (hge : cfg.getErr = getErr) (b : Bool) {v : V} {its}
    (h : Runs cfg atomVal isUnit getErr s its v) {rest : List (List (Node Parse.Item))} {vs : List V}
    (hr : argVals cfg b (Node.runs cfg atomVal rest) s = (.ok vs, s)) :
    argVals cfg b (Node.runs cfg atomVal (toNodes its :: rest)) s = (.ok (v :: vs), s) := by
  obtain ⟨_, _, _, h1, _, h2⟩ := h
  rw [Node.runs, argVals, h1]
  have : (if b = true then none else cfg.getErr v) = none := by
    rw [hge, h2]
    simp
  simp only [this, hr]

/-- The engine finds in the items of an expression the operands and operators they stand for. -/
theorem stands_gives (hd : Does atomVal call isUnit getErr funcs s lit f g)
    {its : List Parse.Item} {toks : List (Tok V)} (h : Stands lit f g its toks) :
    Gives s (Node.srcs (shipped call isUnit mkErr getErr funcs) atomVal (toNodes its)) toks ∧
      (∀ x, Tok.val x ∈ toks → isUnit x = false ∧ getErr x = none) := by
  have hskip : ∀ (k : Kind) (t : Text) (its : List Parse.Item), (Parse.Item.leaf k t).functional = false →
      Node.srcs (shipped call isUnit mkErr getErr funcs) atomVal (toNodes (.leaf k t :: its))
        = Node.srcs (shipped call isUnit mkErr getErr funcs) atomVal (toNodes its) := by
    intro k t its hk
    have : toNode (.leaf k t) = .skip (String.ofList t) := by
      cases k <;> first
        | (simp [toNode, Parse.Item.functional, Parse.Item.text]; done)
        | (simp [Parse.Item.functional] at hk)
    rw [toNodes, this, Node.srcs, Node.src]
  refine Stands.rec
    (motive_1 := fun its toks _ =>
      Gives s (Node.srcs (shipped call isUnit mkErr getErr funcs) atomVal (toNodes its)) toks ∧
      (∀ x, Tok.val x ∈ toks → isUnit x = false ∧ getErr x = none))
    (motive_2 := fun its v _ =>
      Runs (shipped call isUnit mkErr getErr funcs) atomVal isUnit getErr s its v)
    (motive_3 := fun args vs _ => ∀ b : Bool,
      argVals (shipped call isUnit mkErr getErr funcs) b
        (Node.runs (shipped call isUnit mkErr getErr funcs) atomVal
          ((toArgs (args ++ [.leaf .funcEnd [')']])).filter (fun a => !a.isEmpty))) s = (.ok vs, s))
    ?_ ?_ ?_ ?_ ?_ ?_ ?_ ?_ ?_ ?_ h
  · exact ⟨by rw [toNodes, Node.srcs]; exact .nil, by simp⟩
  · intro k t its toks hk _ ih
    rw [hskip]
    · exact ih
    · simp only [emptyKinds, List.mem_cons, List.not_mem_nil, or_false] at hk
      rcases hk with rfl | rfl | rfl <;> rfl
  · intro o its toks _ ih
    refine ⟨?_, ?_⟩
    · rw [toNodes, toNode, Node.srcs, Node.src]
      exact .op ih.1
    · intro x hx
      rcases List.mem_cons.1 hx with hx | hx
      · cases hx
      · exact ih.2 x hx
  · intro it v its toks hk hl _ ih
    obtain ⟨h1, h2, h3⟩ := hd.words it v hl
    have := operand_atom hk
    refine ⟨?_, ?_⟩
    · rw [toNodes, this, Node.srcs, Node.src]
      exact .operand h1 ih.1
    · intro x hx
      rcases List.mem_cons.1 hx with hx | hx
      · cases hx
        exact ⟨h2, h3⟩
      · exact ih.2 x hx
  · intro t inner v its toks _ _ ihi ih
    obtain ⟨_, _, _, h1, h2, h3⟩ := ihi
    refine ⟨?_, ?_⟩
    · rw [toNodes, toNode, Node.srcs, Node.src]
      refine .operand ?_ ih.1
      rw [List.cons_append, hskip _ _ _ rfl, toNodes_append, srcs_append, hskip _ _ _ rfl]
      rw [show Node.srcs (shipped call isUnit mkErr getErr funcs) atomVal (toNodes []) = [] by
        rw [toNodes, Node.srcs]]
      rw [List.append_nil, innerVal, h1]
      have : (shipped call isUnit mkErr getErr funcs).getErr v = none := h3
      simp only [this]
    · intro x hx
      rcases List.mem_cons.1 hx with hx | hx
      · cases hx
        exact ⟨h2, h3⟩
      · exact ih.2 x hx
  · intro t w args vs v its toks _ hg _ iha ih
    obtain ⟨fd, h1, h2, h3, h4⟩ := hd.functions _ _ _ hg
    refine ⟨?_, ?_⟩
    · rw [toNodes, toNode, parsedFunc, Node.srcs, Node.src]
      refine .operand ?_ ih.1
      have e1 : callNameOf (.leaf .funcName w :: .leaf .funcStart ['('] :: args
          ++ [.leaf .funcEnd [')']]) = String.ofList w := rfl
      have e2 : toArgs (.leaf .funcName w :: .leaf .funcStart ['('] :: args
          ++ [.leaf .funcEnd [')']]) = toArgs (args ++ [.leaf .funcEnd [')']]) := by
        rw [List.cons_append, List.cons_append, toArgs, toArgs]
        simp [isComma, isCallPart]
      have e3 : (shipped call isUnit mkErr getErr funcs).funcs (String.ofList w) = some fd := h1
      rw [e1, e2, funcVal, e3]
      simp only [iha fd.canBeExc, h2]
    · intro x hx
      rcases List.mem_cons.1 hx with hx | hx
      · cases hx
        exact ⟨h3, h4⟩
      · exact ih.2 x hx
  · intro its toks v hs hr ih
    have hne := reads_ne hr
    have hex := execute_reads (call := call) (mkErr := mkErr) (getErr := getErr) (funcs := funcs)
      (fun o ins v h => (hd.operators o ins v h).1) hd.noUnits
      (fun x hx => (ih.2 x hx).1) ih.1 hr
    have hsrc : Node.srcs (shipped call isUnit mkErr getErr funcs) atomVal (toNodes its) ≠ [] := by
      intro e
      have := ih.1
      rw [e] at this
      cases this
      exact hne rfl
    refine ⟨?_, stands_inside hs, hsrc, hex, reads_notUnit hd.noUnits hr (fun x hx => (ih.2 x hx).1),
      reads_noErr (fun o ins v h => (hd.operators o ins v h).2) hr (fun x hx => (ih.2 x hx).2)⟩
    rintro rfl
    apply hsrc
    rw [toNodes, Node.srcs]
  · intro b
    rw [List.nil_append, toArgs_end]
    simp [Node.runs, argVals]
  · intro its v _ ih b
    have e : toArgs (its ++ [.leaf .funcEnd [')']]) = [toNodes its] := by
      rw [toArgs_inside ih.2.1, toArgs_end]
      simp
    rw [e, List.filter_cons, toNodes_isEmpty ih.1]
    exact runs_argVals _ rfl b ih (by simp [Node.runs, argVals])
  · intro its v rest v' vs _ _ ih ihr b
    have e : toArgs ((its ++ .leaf .funcParam [','] :: rest) ++ [.leaf .funcEnd [')']])
        = toNodes its :: toArgs (rest ++ [.leaf .funcEnd [')']]) := by
      rw [List.append_assoc, toArgs_inside ih.2.1, List.cons_append, toArgs]
      simp [isComma]
    rw [e, List.filter_cons, toNodes_isEmpty ih.1]
    exact runs_argVals _ rfl b ih (ihr b)

theorem means_runs (hd : Does atomVal call isUnit getErr funcs s lit f g)
    {its : List Parse.Item} {v : V} (h : Means lit f g its v) :
    Runs (shipped call isUnit mkErr getErr funcs) atomVal isUnit getErr s its v := by
  obtain ⟨hs, hr⟩ := h
  have ih := stands_gives (mkErr := mkErr) hd hs
  have hne := reads_ne hr
  have hsrc : Node.srcs (shipped call isUnit mkErr getErr funcs) atomVal (toNodes its) ≠ [] := by
    intro e
    have := ih.1
    rw [e] at this
    cases this
    exact hne rfl
  refine ⟨?_, stands_inside hs, hsrc, execute_reads (fun o ins v h => (hd.operators o ins v h).1)
    hd.noUnits (fun x hx => (ih.2 x hx).1) ih.1 hr,
    reads_notUnit hd.noUnits hr (fun x hx => (ih.2 x hx).1),
    reads_noErr (fun o ins v h => (hd.operators o ins v h).2) hr (fun x hx => (ih.2 x hx).2)⟩
  rintro rfl
  apply hsrc
  rw [toNodes, Node.srcs]

variable (p : ℕ) (powF : ℚ → ℚ → Except Err ℚ) (word alpha : Char → Bool)

/-- **C71**: calculating a written expression gives one answer: what the expression means, finalized.
A bracket means what is inside it, a call what the function gives for its arguments, and operands with
operators mean what the documented table of precedence makes of them, however long the expression is
and however deep it is nested. -/
theorem C71_expression (hw : ∀ c, c.toNat < 128 → word c = Parse.asciiWord c)
    (ha : ∀ c, c.toNat < 128 → alpha c = Parse.isLetter c)
    (hd : Does atomVal call isUnit getErr funcs s lit f g)
    (names : List Text) (inc : List Parse.Item → Bool) (finalize : V → Act σ V)
    {n : ℕ} {t : Text} {its : List Parse.Item}
    (hx : Parse.Spec.Expression (fullLex p powF word alpha) names n t its)
    {v w : V} {s' : σ} (hm : Means lit f g its v) (hfin : finalize v s = (.ok w, s')) (m : Cache)
    (extra : ℕ) :
    calculateText (shippedCfg (fullLex p powF word alpha) names inc)
      (shipped call isUnit mkErr getErr funcs) atomVal finalize (n + extra + 1) t m s
      = some (.ran [⟨some w, s'⟩] .done, m, s') := by
  obtain ⟨h0, _, h1, h2, _, h3⟩ := means_runs (mkErr := mkErr) hd hm
  have ht : t ≠ [] := by
    rintro rfl
    exact h0 (C69_unambiguous hw ha names hx (k := n) Parse.Spec.Line.nil)
  rw [calculateText, if_neg ht, C69_read hw ha names inc hx extra {} rfl m]
  have hst : stmt (shipped call isUnit mkErr getErr funcs) atomVal finalize (toNodes its) s
      = (.ok (some w), s') := by
    rw [stmt]
    have h3' : (shipped call isUnit mkErr getErr funcs).getErr v = none := h3
    cases hs : Node.srcs (shipped call isUnit mkErr getErr funcs) atomVal (toNodes its) with
    | nil => exact absurd hs h1
    | cons a as =>
      simp only [executeNodes]
      rw [h2]
      simp only [h3', hfin]
  simp only [List.map_cons, List.map_nil, calculate, hst]

end

/-! ## Non-vacuity -/

/-- What the words of the example mean: `width` is 3, and `km` is 1000. -/
def meaningOf : Kind → Text → Option ℤ
  | .num, ['1'] => some 1
  | .num, ['2'] => some 2
  | .var, t => if t = "width".toList then some 3 else none
  | .unit, t => if t = "km".toList then some 1000 else none
  | _, _ => none

/-- What the operators of the example do. -/
def actionOf : String → List ℤ → Except String ℤ
  | "*", [a, b] => .ok (a * b)
  | "IMPLICIT_MULTIPLY", [a, b] => .ok (a * b)
  | "-", [a, b] => .ok (a - b)
  | _, _ => .error "no operator"

/-- `2*(width -1) km` means 4000 there. -/
theorem demo_means : Means (onlyWords fun k t v => meaningOf k t = some v) actionOf (fun _ _ => .error "none")
    demoItems 4000 := by
  have lift : ∀ {toks : List (Tok ℤ)} {v : ℤ} (i j : ℕ),
      Reads documented actionOf i toks v → Reads documented actionOf (i + j) toks v := by
    intro toks v i j h
    induction j with
    | zero => exact h
    | succ j ih => exact .up ih
  have inner : Means (onlyWords fun k t v => meaningOf k t = some v) actionOf (fun _ _ => .error "none")
      [.leaf .var "width".toList, .leaf .space [' '], .leaf .op ['-'], .leaf .num ['1']] 2 := by
    refine .phrase (toks := [.val 3, .op "-", .val 1])
      (.word (by decide) rfl (.skip (by decide) (.op (.word (by decide) rfl .nil)))) ?_
    exact lift 8 8 (toks := [.val 3] ++ .op "-" :: [.val 1]) (.left (k := 7) (o := "-") rfl (by decide)
      (lift 0 8 (.atom 3)) (lift 0 7 (.atom 1)) rfl)
  refine .phrase (toks := [.val 2, .op "*", .val 2, .val 1000])
    (.word (by decide) rfl (.op (.bracket (inner := [.leaf .var "width".toList, .leaf .space [' '],
      .leaf .op ['-'], .leaf .num ['1']]) inner (.skip (by decide) (.word (by decide) rfl .nil))))) ?_
  exact lift 7 9 (toks := [.val 2] ++ .op "*" :: [.val 2, .val 1000]) (.left (k := 6) (o := "*") rfl
    (by decide) (lift 0 7 (.atom 2)) (.next (k := 5) (t := [.val 2]) (u := [.val 1000])
      (o := "IMPLICIT_MULTIPLY") rfl (lift 0 6 (.atom 2)) (lift 0 5 (.atom 1000)) rfl) rfl)

/-- Non-vacuity: `2*(width -1) km` is answered with 4000 by an engine that does that. -/
example (m : Cache) : calculateText (shippedCfg asciiFull [] (fun _ => false))
    (shipped (fun o xs n => (match actionOf o xs with | .ok v => .ok v | .error e => .error (.calc e), n))
      (fun _ => false) (fun _ => 0) (fun _ => none) (fun _ => none))
    (fun it (n : ℕ) => (match it with
      | .leaf k t => match meaningOf k t with | some v => .ok v | none => .error (.calc "none")
      | _ => .error (.calc "none"), n))
    (fun v n => (.ok v, n + 1)) 2 "2*(width -1) km".toList m 7
    = some (.ran [⟨some 4000, 8⟩] .done, m, 8) := by
  refine C71_expression 30 (fun _ _ => .ok 0) Parse.asciiWord Parse.isLetter (fun _ _ => rfl)
    (fun _ _ => rfl) ?_ [] _ _ demo_written demo_means rfl m 0
  refine ⟨fun it v h => ?_, fun o ins v h => ?_, fun _ _ _ _ _ => rfl, fun w vs v h => ?_⟩
  · obtain ⟨k, t⟩ | _ := it
    · have h : meaningOf k t = some v := h
      simp only [h]
      exact ⟨trivial, trivial, trivial⟩
    · cases h
  · simp only [h]
    exact ⟨trivial, trivial⟩
  · cases h

end MC.Props
