import Verif.Lemmas.Refine
import Verif.Props.UnitMeaning

/-!
# Two engines side by side, on texts

`Verif/Lemmas/Refine.lean` for items with brackets and calls in them, and for the statements they make.
-/

namespace MC.Props
open MC MC.Spec
open MC.Parse (Kind Text Cache shippedCfg)

section
variable {V W σ : Type} (R : V → W → Prop) (atomVal : Parse.Item → Act σ V)
  (getErr : V → Option Raise) (funcs : String → Option (FuncDef V σ))

/-- Words and functions come to what they mean (`lit`, `g`), or fail. -/
structure DoesR (lit : Kind → Text → W → Prop) (g : String → List W → Except String W) : Prop where
  words : ∀ k t w, lit k t w → ∀ s, Comes R getErr s w (atomVal (.leaf k t) s)
  functions : ∀ n ws w, g n ws = .ok w → ∃ fd, funcs n = some fd ∧ fd.canBeExc = false ∧
    ∀ vs, List.Forall₂ R vs ws → ∀ s, Comes R getErr s w (fd.call vs s)
  fine : ∀ v w, R v w → getErr v = none

variable {R atomVal getErr funcs} {call : String → List V → Act σ V} {isUnit : V → Bool}
  {mkErr : ExecErr → V} {f : String → List W → Except String W} {isUnitW : W → Bool}
  {lit : Kind → Text → W → Prop} {g : String → List W → Except String W}

/-- What the items of a phrase are for the engine. -/
def RunsR (R : V → W → Prop) (cfg : Config V σ) (atomVal : Parse.Item → Act σ V)
    (getErr : V → Option Raise) (its : List Parse.Item) (w : W) : Prop :=
  its ≠ [] ∧ Inside its ∧ Node.srcs cfg atomVal (toNodes its) ≠ [] ∧
    ∀ s, Comes R getErr s w (execute cfg (Node.srcs cfg atomVal (toNodes its)) s)

/-- The arguments of a call come to what they mean, or there is an error. -/
def ArgsR (R : V → W → Prop) (cfg : Config V σ) (runs : List (Act σ V)) (ws : List W) : Prop :=
  ∀ s, (∃ vs, argVals cfg false runs s = (.ok vs, s) ∧ List.Forall₂ R vs ws) ∨
    ∃ e s', argVals cfg false runs s = (.error e, s')

theorem runsR_argVals (cfg : Config V σ) (hge : cfg.getErr = getErr)
    (hfine : ∀ v w, R v w → getErr v = none) {w : W} {its}
    (h : RunsR R cfg atomVal getErr its w) {rest : List (List (Node Parse.Item))} {ws : List W}
    (hr : ArgsR R cfg (Node.runs cfg atomVal rest) ws) :
    ArgsR R cfg (Node.runs cfg atomVal (toNodes its :: rest)) (w :: ws) := by
  obtain ⟨_, _, _, h1⟩ := h
  intro s
  rw [Node.runs, argVals]
  rcases h1 s with ⟨v, h2, h3⟩ | hf
  · rw [h2]
    have : (if false = true then none else cfg.getErr v) = none := by
      rw [hge, hfine _ _ h3]
      simp
    simp only [this]
    rcases hr s with ⟨vs, h4, h5⟩ | ⟨e, s', h4⟩
    · rw [h4]
      exact .inl ⟨_, rfl, .cons h3 h5⟩
    · rw [h4]
      exact .inr ⟨e, s', rfl⟩
  · refine .inr ?_
    cases hx : execute cfg (Node.srcs cfg atomVal (toNodes its)) s with
    | mk r s' =>
      rw [hx] at hf
      cases r with
      | error e => exact ⟨_, _, rfl⟩
      | ok v =>
        have h3 := hf v rfl
        cases hg : getErr v with
        | none => exact absurd hg h3
        | some e =>
          have : (if false = true then none else cfg.getErr v) = some e := by
            rw [hge, hg]
            simp
          simp only [this]
          cases e <;> exact ⟨_, _, rfl⟩

/-- The engine finds in the items of an expression operands that come to what they stand for. -/
theorem standsU_givesR {P : String → Prop} (hP : PassOn P call mkErr getErr) (hF : Follows R P call f)
    (hU : ∀ v w, R v w → isUnit v = isUnitW w) (hd : DoesR R atomVal getErr funcs lit g)
    {its : List Parse.Item} {toks : List (Tok W)} (h : StandsU isUnitW lit f g its toks) :
    GivesR R getErr (Node.srcs (shipped call isUnit mkErr getErr funcs) atomVal (toNodes its)) toks := by
  have hskip : ∀ (k : Kind) (t : Text) (its : List Parse.Item), (Parse.Item.leaf k t).functional = false →
      Node.srcs (shipped call isUnit mkErr getErr funcs) atomVal (toNodes (.leaf k t :: its))
        = Node.srcs (shipped call isUnit mkErr getErr funcs) atomVal (toNodes its) := by
    intro k t its hk
    have : toNode (.leaf k t) = .skip (String.ofList t) := by
      cases k <;> first
        | (simp [toNode, Parse.Item.functional, Parse.Item.text]; done)
        | (simp [Parse.Item.functional] at hk)
    rw [toNodes, this, Node.srcs, Node.src]
  refine StandsU.rec
    (motive_1 := fun its toks _ =>
      GivesR R getErr (Node.srcs (shipped call isUnit mkErr getErr funcs) atomVal (toNodes its)) toks)
    (motive_2 := fun its w _ =>
      RunsR R (shipped call isUnit mkErr getErr funcs) atomVal getErr its w)
    (motive_3 := fun args ws _ =>
      ArgsR R (shipped call isUnit mkErr getErr funcs)
        (Node.runs (shipped call isUnit mkErr getErr funcs) atomVal
          ((toArgs (args ++ [.leaf .funcEnd [')']])).filter (fun a => !a.isEmpty))) ws)
    ?_ ?_ ?_ ?_ ?_ ?_ ?_ ?_ ?_ ?_ h
  · rw [toNodes, Node.srcs]; exact .nil
  · intro k t its toks hk _ ih
    rw [hskip]
    · exact ih
    · simp only [emptyKinds, List.mem_cons, List.not_mem_nil, or_false] at hk
      rcases hk with rfl | rfl | rfl <;> rfl
  · intro o its toks _ ih
    rw [toNodes, toNode, Node.srcs, Node.src]
    exact .op ih
  · intro k t w its toks hk hl _ ih
    have : toNode (.leaf k t) = .atom (.leaf k t) := by
      simp only [valueKinds, List.mem_cons, List.not_mem_nil, or_false] at hk
      rcases hk with rfl | rfl | rfl | rfl | rfl | rfl | rfl <;>
        simp [toNode, Parse.Item.functional]
    rw [toNodes, this, Node.srcs, Node.src]
    exact .operand (hd.words k t w hl) ih
  · intro t inner w its toks _ _ ihi ih
    obtain ⟨_, _, _, h1⟩ := ihi
    rw [toNodes, toNode, Node.srcs, Node.src]
    refine .operand ?_ ih
    rw [List.cons_append, hskip _ _ _ rfl, toNodes_append, srcs_append, hskip _ _ _ rfl]
    rw [show Node.srcs (shipped call isUnit mkErr getErr funcs) atomVal (toNodes []) = [] by
      rw [toNodes, Node.srcs]]
    rw [List.append_nil]
    intro s
    rw [innerVal]
    rcases h1 s with ⟨v, h2, h3⟩ | hf
    · rw [h2]
      have : (shipped call isUnit mkErr getErr funcs).getErr v = none := hd.fine _ _ h3
      simp only [this]
      exact .inl ⟨v, rfl, h3⟩
    · refine .inr ?_
      cases hx : execute (shipped call isUnit mkErr getErr funcs)
          (Node.srcs (shipped call isUnit mkErr getErr funcs) atomVal (toNodes inner)) s with
      | mk r s' =>
        rw [hx] at hf
        cases r with
        | error e => intro v hv; cases hv
        | ok v =>
          cases hg : getErr v with
          | none => exact absurd hg (hf v rfl)
          | some e =>
            have : (shipped call isUnit mkErr getErr funcs).getErr v = some e := hg
            simp only [this]
            intro v hv; cases hv
  · intro t n args ws w its toks _ hg _ iha ih
    obtain ⟨fd, h1, h2, h3⟩ := hd.functions _ _ _ hg
    rw [toNodes, toNode, parsedFunc, Node.srcs, Node.src]
    refine .operand ?_ ih
    have e1 : callNameOf (.leaf .funcName n :: .leaf .funcStart ['('] :: args
        ++ [.leaf .funcEnd [')']]) = String.ofList n := rfl
    have e2 : toArgs (.leaf .funcName n :: .leaf .funcStart ['('] :: args
        ++ [.leaf .funcEnd [')']]) = toArgs (args ++ [.leaf .funcEnd [')']]) := by
      rw [List.cons_append, List.cons_append, toArgs, toArgs]
      simp [isComma, isCallPart]
    have e3 : (shipped call isUnit mkErr getErr funcs).funcs (String.ofList n) = some fd := h1
    intro s
    rw [e1, e2, funcVal, e3]
    simp only [h2]
    rcases iha s with ⟨vs, h4, h5⟩ | ⟨e, s', h4⟩
    · rw [h4]
      exact h3 vs h5 s
    · rw [h4]
      exact .inr (by intro v hv; cases hv)
  · intro its toks w b e hs hr ih
    have hne := phrase_ne hr
    have hsrc : Node.srcs (shipped call isUnit mkErr getErr funcs) atomVal (toNodes its) ≠ [] := by
      intro e
      rw [e] at ih
      cases ih
      exact hne rfl
    refine ⟨?_, standsU_inside hs, hsrc, execute_rel hP hF hU (le_refl 16) ih hr⟩
    rintro rfl
    apply hsrc
    rw [toNodes, Node.srcs]
  · intro s
    rw [List.nil_append, toArgs_end]
    exact .inl ⟨[], by simp [Node.runs, argVals], .nil⟩
  · intro its w _ ih
    have e : toArgs (its ++ [.leaf .funcEnd [')']]) = [toNodes its] := by
      rw [toArgs_inside ih.2.1, toArgs_end]
      simp
    rw [e, List.filter_cons, toNodes_isEmpty ih.1]
    exact runsR_argVals _ rfl hd.fine ih (fun s => .inl ⟨[], by simp [Node.runs, argVals], .nil⟩)
  · intro its w rest w' ws _ _ ih ihr
    have e : toArgs ((its ++ .leaf .funcParam [','] :: rest) ++ [.leaf .funcEnd [')']])
        = toNodes its :: toArgs (rest ++ [.leaf .funcEnd [')']]) := by
      rw [List.append_assoc, toArgs_inside ih.2.1, List.cons_append, toArgs]
      simp [isComma]
    rw [e, List.filter_cons, toNodes_isEmpty ih.1]
    exact runsR_argVals _ rfl hd.fine ih ihr

theorem meansU_runsR {P : String → Prop} (hP : PassOn P call mkErr getErr) (hF : Follows R P call f)
    (hU : ∀ v w, R v w → isUnit v = isUnitW w) (hd : DoesR R atomVal getErr funcs lit g)
    {its : List Parse.Item} {w : W} (h : MeansU isUnitW lit f g its w) :
    RunsR R (shipped call isUnit mkErr getErr funcs) atomVal getErr its w := by
  obtain ⟨hs, hr⟩ := h
  have ih := standsU_givesR hP hF hU hd hs
  have hne := phrase_ne hr
  have hsrc : Node.srcs (shipped call isUnit mkErr getErr funcs) atomVal (toNodes its) ≠ [] := by
    intro e
    rw [e] at ih
    cases ih
    exact hne rfl
  refine ⟨?_, standsU_inside hs, hsrc, execute_rel hP hF hU (le_refl 16) ih hr⟩
  rintro rfl
  apply hsrc
  rw [toNodes, Node.srcs]

variable (p : ℕ) (powF : ℚ → ℚ → Except Err ℚ) (word alpha : Char → Bool)

/-- If calculating an expression gives answers, there is one, and it is a value related to what the
expression means, finalized. -/
theorem expressionR (hw : ∀ c, c.toNat < 128 → word c = Parse.asciiWord c)
    (ha : ∀ c, c.toNat < 128 → alpha c = Parse.isLetter c) {P : String → Prop}
    (hP : PassOn P call mkErr getErr) (hF : Follows R P call f)
    (hU : ∀ v w, R v w → isUnit v = isUnitW w) (hd : DoesR R atomVal getErr funcs lit g)
    (names : List Text) (inc : List Parse.Item → Bool) (finalize : V → Act σ V)
    {n : ℕ} {t : Text} {its : List Parse.Item}
    (hx : Parse.Spec.Expression (fullLex p powF word alpha) names n t its)
    {w : W} (hm : MeansU isUnitW lit f g its w) (m : Cache) (extra : ℕ) (s : σ) :
    ∃ rs out s2, calculateText (shippedCfg (fullLex p powF word alpha) names inc)
        (shipped call isUnit mkErr getErr funcs) atomVal finalize (n + extra + 1) t m s
        = some (.ran rs out, m, s2) ∧
      ((∃ v y s', R v w ∧ finalize v s = (.ok y, s') ∧ rs = [⟨some y, s'⟩] ∧ out = .done ∧ s2 = s') ∨
        (rs = [] ∧ out ≠ .done)) := by
  obtain ⟨h0, _, h1, h2⟩ := meansU_runsR (mkErr := mkErr) hP hF hU hd hm
  have ht : t ≠ [] := by
    rintro rfl
    exact h0 (C69_unambiguous hw ha names hx (k := n) Parse.Spec.Line.nil)
  refine ⟨_, _, _, by rw [calculateText, if_neg ht, C69_read hw ha names inc hx extra {} rfl m], ?_⟩
  simp only [List.map_cons, List.map_nil, calculate]
  have hst : (∃ v y s', R v w ∧ finalize v s = (.ok y, s') ∧
      stmt (shipped call isUnit mkErr getErr funcs) atomVal finalize (toNodes its) s = (.ok (some y), s')) ∨
      ∃ e s', stmt (shipped call isUnit mkErr getErr funcs) atomVal finalize (toNodes its) s = (.error e, s') := by
    rw [stmt]
    cases hs : Node.srcs (shipped call isUnit mkErr getErr funcs) atomVal (toNodes its) with
    | nil => exact absurd hs h1
    | cons a as =>
      simp only [executeNodes]
      rcases h2 s with ⟨v, h3, h4⟩ | hf
      · rw [h3]
        have h3' : (shipped call isUnit mkErr getErr funcs).getErr v = none := hd.fine _ _ h4
        simp only [h3']
        cases hfin : finalize v s with
        | mk r s' =>
          cases r with
          | ok y => exact .inl ⟨v, y, s', h4, hfin, rfl⟩
          | error e => exact .inr ⟨e, s', rfl⟩
      · refine .inr ?_
        cases hx : execute (shipped call isUnit mkErr getErr funcs)
            (Node.srcs (shipped call isUnit mkErr getErr funcs) atomVal (toNodes its)) s with
        | mk r s' =>
          rw [hx] at hf
          cases r with
          | error e => exact ⟨e, s', rfl⟩
          | ok v =>
            cases hg : getErr v with
            | none => exact absurd hg (hf v rfl)
            | some e =>
              have : (shipped call isUnit mkErr getErr funcs).getErr v = some e := hg
              simp only [this]
              exact ⟨_, _, rfl⟩
  rcases hst with ⟨v, y, s', h3, h4, h5⟩ | ⟨e, s', h5⟩
  · rw [h5]
    exact .inl ⟨v, y, s', h3, h4, rfl, rfl, rfl⟩
  · rw [h5]
    right
    cases e with
    | exec e => exact ⟨rfl, by simp⟩
    | «calc» m wr => exact ⟨rfl, by simp⟩
    | py m => exact ⟨rfl, by simp⟩

end
end MC.Props
