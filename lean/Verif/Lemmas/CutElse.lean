import Verif.Lemmas.Cut

/-!
# An expression that ends before `else`

The fake execution of an expression that is cut off before an `else` goes like that of the whole
expression up to the `then` that misses its `else`.
-/

namespace MC.Props
open MC MC.Spec
open MC.Parse (Kind Text fakeCfg fakeSrc incomplete)

section
variable {V σ : Type} {cfg : Config V σ}

/-- No operator applies inside `tail`, whatever it stands after. -/
def StillNone (cfg : Config V σ) (tail : List (Item V)) : Prop :=
  ∀ prec ∈ cfg.ops, ∀ prev, scanL cfg prec prev tail = none ∧ scanR cfg prec prev tail = none

theorem still_else (hu : ∀ v, cfg.isUnit v = false) (he : ∀ prec ∈ cfg.ops, prec.has "else" = false)
    {tail : List (Item V)} (hq : QuietTail cfg tail) (j : ℕ) : StillNone cfg (⟨.op "else", j⟩ :: tail) := by
  intro prec hp prev
  obtain ⟨h1, h2⟩ := hq prec hp "else"
  constructor
  · rw [scanL, rule_else hu (he prec hp)]
    simp only
    rw [h1]
    rfl
  · rw [scanR, h2, rule_else hu (he prec hp)]
    rfl

theorem findRedex_still (hu : ∀ v, cfg.isUnit v = false) {tail : List (Item V)} (hq : StillNone cfg tail)
    (T : List (Item V)) : findRedex cfg (T ++ tail) = findRedex cfg T := by
  have hl : ∀ prec ∈ cfg.ops, ∀ (T : List (Item V)) (prev : Option (Tok V)),
      scanL cfg prec prev (T ++ tail) = scanL cfg prec prev T ∧
      scanR cfg prec prev (T ++ tail) = scanR cfg prec prev T := by
    intro prec hp T
    induction T with
    | nil => intro prev; exact hq prec hp prev
    | cons it T ih =>
      intro prev
      rw [List.cons_append, scanL, scanL, scanR, scanR, (ih _).1, (ih _).2,
        ruleAt_next hu prec prev it.tok _ (T.head?.map Item.tok)]
      exact ⟨rfl, rfl⟩
  have key : ∀ l : List (Level V σ), (∀ prec ∈ l, prec ∈ cfg.ops) →
      l.findSome? (fun prec => scanLevel cfg prec (T ++ tail)) = l.findSome? (fun prec => scanLevel cfg prec T) := by
    intro l
    induction l with
    | nil => intro _; rfl
    | cons prec l ih =>
      intro hp
      have e : scanLevel cfg prec (T ++ tail) = scanLevel cfg prec T := by
        unfold scanLevel
        rw [(hl prec (hp prec (by simp)) T none).1, (hl prec (hp prec (by simp)) T none).2]
      rw [List.findSome?_cons, List.findSome?_cons, e, ih (fun q hq => hp q (by simp [hq]))]
  exact key _ (fun _ h => h)

theorem finish_op {o : String} {j : ℕ} (T tail : List (Item V)) (s : σ) (v : V) (s' : σ) :
    ¬ some (finish (T ++ ⟨.op o, j⟩ :: tail), s) = some (Except.ok v, s') := by
  have := finish_cut (o := o) (j := j) T tail s v s'
  simpa using this

/-- If the engine gets through `T ++ else ...`, it stops at an operator without right operand on `T`. -/
theorem cut_else (hu : ∀ v, cfg.isUnit v = false) {tail : List (Item V)} {j : ℕ}
    (hq : StillNone cfg (⟨.op "else", j⟩ :: tail)) :
    ∀ (fuel : ℕ) (T : List (Item V)) (s : σ) (v : V) (s' : σ),
    loop cfg fuel (T ++ ⟨.op "else", j⟩ :: tail) s = some (.ok v, s') →
    ∃ sym n s'', loop cfg fuel T s = some (.error (.exec ⟨missing sym, n, false⟩), s'') := by
  intro fuel
  induction fuel with
  | zero =>
    intro T s v s' h
    rw [loop] at h
    cases hs : step cfg (T ++ ⟨.op "else", j⟩ :: tail) with
    | none =>
      rw [hs] at h
      exact absurd h (finish_op T tail s v s')
    | some act => rw [hs] at h; cases h
  | succ fuel ih =>
    intro T s v s' h
    rw [loop] at h
    cases hs : step cfg (T ++ ⟨.op "else", j⟩ :: tail) with
    | none =>
      rw [hs] at h
      exact absurd h (finish_op T tail s v s')
    | some act =>
      rw [hs] at h
      simp only at h
      unfold step at hs
      rw [findRedex_still hu hq] at hs
      cases hr : findRedex cfg T with
      | none => rw [hr] at hs; cases hs
      | some x =>
        obtain ⟨i, sym, w⟩ := x
        obtain ⟨it, prec, prev', next', hit, hrule⟩ := redex_rule hr
        have hi : i < T.length := (List.getElem?_eq_some_iff.1 hit).1
        rw [hr] at hs
        simp only [List.getElem?_append_left (l₂ := ⟨.op "else", j⟩ :: tail) hi, hit, Option.some.injEq] at hs
        rw [loop]
        have hst : step cfg T = some (execOp cfg sym T i it w) := by
          unfold step
          rw [hr]
          simp only [hit]
        rw [hst]
        simp only
        subst hs
        generalize hE : (⟨.op "else", j⟩ :: tail : List (Item V)) = E at h ih
        unfold execOp at h ⊢
        cases hd : opsList cfg sym with
        | none => simp [hd] at h
        | some d =>
          simp only [hd] at h ⊢
          by_cases hl : i < d.linputs.length
          · simp [hl] at h
          · rw [if_neg hl] at h ⊢
            by_cases hlen : T.length < i + d.rinputs.length + w
            · rw [if_pos hlen]
              exact ⟨sym, _, _, rfl⟩
            · rw [if_neg hlen]
              rw [if_neg (by simp at hlen ⊢; omega)] at h
              have e1 : ((T ++ E).drop (i - d.linputs.length)).take d.linputs.length
                  = (T.drop (i - d.linputs.length)).take d.linputs.length := by
                rw [List.drop_append_of_le_length (by omega), List.take_append_of_le_length (by simp; omega)]
              have e2 : ((T ++ E).drop (i + w)).take d.rinputs.length
                  = (T.drop (i + w)).take d.rinputs.length := by
                rw [List.drop_append_of_le_length (by omega), List.take_append_of_le_length (by simp; omega)]
              rw [e1, e2] at h
              cases hg : gather sym it.index ((T.drop (i - d.linputs.length)).take d.linputs.length
                  ++ (T.drop (i + w)).take d.rinputs.length) (d.linputs ++ d.rinputs) with
              | error e => simp [hg] at h
              | ok inputs =>
                have e5 : ∀ y : Item V, (T ++ E).take (i - d.linputs.length)
                    ++ y :: (T ++ E).drop (i + d.rinputs.length + w)
                    = (T.take (i - d.linputs.length) ++ y :: T.drop (i + d.rinputs.length + w)) ++ E := by
                  intro y
                  rw [List.take_append_of_le_length (by omega), List.drop_append_of_le_length (by omega)]
                  simp
                rw [hg] at h
                simp only [e5] at h ⊢
                cases hc : d.call inputs s with
                | mk r s1 =>
                  rw [hc] at h
                  cases r with
                  | ok y => exact ih _ _ _ _ h
                  | error e =>
                    cases e with
                    | py m => simp at h
                    | exec e => exact ih _ _ _ _ h
                    | «calc» m b => exact ih _ _ _ _ h

end

theorem loop_nil {V σ : Type} {cfg : Config V σ} (fuel : ℕ) (s : σ) :
    loop cfg fuel [] s = some (.error (.py "Ended up with no items"), s) := by
  have hr : findRedex cfg [] = none := by
    unfold findRedex
    rw [List.findSome?_eq_none_iff]
    intro prec _
    unfold scanLevel
    simp only [scanL, scanR, ite_self]
    cases opsList cfg prec.head.1 <;> rfl
  have hs : step cfg [] = none := by
    unfold step
    rw [hr]
  cases fuel with
  | zero => rw [loop, hs]; rfl
  | succ n => rw [loop, hs]; rfl

/-- The fake execution of what is cut off before an `else`. -/
theorem execute_else {pre tail : List (Src Unit Unit)} {tp tt : List (Tok Unit)}
    (hp : Gives () pre tp) (ht : Gives () tail tt) (htail : ElseTail tt)
    (h : execute fakeEngine (pre ++ .op "else" :: tail) () = (.ok (), ())) :
    ∃ sym n, (execute fakeEngine pre ()).1 = .error (.exec ⟨missing sym, n, false⟩) := by
  obtain ⟨ia, ib, h1, h2, h3, h4⟩ := gives_both (cfg := fakeEngine) hp (.op (o := "else") ht) 0
  have hc : Consumes fakeEngine := shipped_consumes _ _ _ _ _
  have e1 := C27_finishes hc (pre ++ Src.op "else" :: tail) () _ (le_refl _)
  have e2 := C27_finishes hc pre () (pre ++ Src.op "else" :: tail).length (by simp)
  rw [h] at e1
  generalize (pre ++ Src.op "else" :: tail).length = fuel at e1 e2
  unfold executeF at e1 e2
  cases hp1 : pre with
  | nil =>
    rw [hp1] at e1 h1 h3
    simp only [List.nil_append] at e1 h3
    cases h1
    rw [h3] at e1
    simp only at e1
    obtain ⟨⟨_, j⟩, t2, rfl, hx, h4'⟩ := List.map_eq_cons_iff.1 h4
    cases hx
    obtain ⟨sym, n, s'', e3⟩ := cut_else (cfg := fakeEngine) (fun _ => rfl)
      (still_else (fun _ => rfl) fake_else (quiet_tail (fun _ => rfl) fake_else htail h4') j) fuel [] () () () e1
    rw [loop_nil] at e3
    cases e3
  | cons a as =>
    rw [hp1] at e1 e2 h1 h3
    simp only [List.cons_append] at e1 h3
    rw [h3] at e1
    rw [h1] at e2
    simp only at e1 e2
    obtain ⟨⟨_, j⟩, t2, rfl, hx, h4'⟩ := List.map_eq_cons_iff.1 h4
    cases hx
    obtain ⟨sym, n, s'', e3⟩ := cut_else (cfg := fakeEngine) (fun _ => rfl)
      (still_else (fun _ => rfl) fake_else (quiet_tail (fun _ => rfl) fake_else htail h4') j) fuel ia () () () e1
    rw [e3, Option.some.injEq] at e2
    exact ⟨sym, n, by rw [← e2]⟩

section
variable {V σ : Type} (call : String → List V → Act σ V) (isUnit : V → Bool)
    (mkErr : ExecErr → V) (getErr : V → Option Raise) (funcs : String → Option (FuncDef V σ))

/-- An expression cut off before an `else` is incomplete. -/
theorem expression_else {W : Type} {lit : Parse.Item → W → Prop} {f g : String → List W → Except String W}
    {its : List Parse.Item} {v : W} (h : Means lit f g its v) {pre post : List Parse.Item}
    (e : its.filter Parse.Item.functional = pre ++ .leaf .op "else".toList :: post) :
    incomplete (shipped call isUnit mkErr getErr funcs) pre = true := by
  obtain ⟨hs, hr⟩ := h
  have hg := stands_fake hs
  have e' : fakeSrcs its = pre.map fakeSrc ++ .op "else" :: post.map fakeSrc := by
    unfold fakeSrcs
    rw [e]
    simp [fakeSrc, Parse.Item.isOp, Parse.Item.text]
  obtain ⟨tp, tq, htoks, hp⟩ := gives_split hg e'
  obtain ⟨tail, h1, h2⟩ := reads_cut (fake_reads hr (reads_ne hr)) htoks
  obtain ⟨srcs, h3⟩ := gives_fake tail
  have hid : tp.map fakeTok = tp := by
    rw [List.map_id'' (fun t => by cases t <;> rfl)]
  rw [hid] at h2
  have hall : Gives () (pre.map fakeSrc ++ .op "else" :: srcs) (tp ++ .op "else" :: tail) :=
    gives_append hp (.op h3)
  obtain ⟨sym, n, h4⟩ := execute_else hp h3 h1 (execute_reads (f := fakeF) fake_does
    (fun _ _ _ _ _ => rfl) (fun _ _ => rfl) hall h2)
  exact incomplete_of call isUnit mkErr getErr funcs (sym := sym) (n := n) h4

/-- A line cut off before an `else` is incomplete. -/
theorem line_else {W : Type} {lit : Store W → Parse.Item → W → Prop} {f g f' : String → List W → Except String W}
    {one : W} {env env' : Store W} {its : List Parse.Item} {a : Option W}
    (h : LineOf (fun env => Means (lit env) f g) f' one env its a env') {pre post : List Parse.Item}
    (e : its.filter Parse.Item.functional = pre ++ .leaf .op "else".toList :: post) :
    incomplete (shipped call isUnit mkErr getErr funcs) pre = true := by
  have assigned : ∀ {x o' : String} {rest : List Parse.Item} {v : W}, Change its x o' rest →
      o' ∈ assigning → Means (lit env) f g rest v →
      incomplete (shipped call isUnit mkErr getErr funcs) pre = true := by
    intro x o' rest v hc ho' hm
    obtain ⟨x', o'', rfl, hf⟩ := change_functional hc
    rw [e] at hf
    match pre, hf with
    | [], hf => simp at hf
    | [y], hf =>
      simp only [List.cons_append, List.nil_append, List.cons.injEq, Parse.Item.leaf.injEq, true_and] at hf
      obtain ⟨rfl, rfl, _⟩ := hf
      exact absurd ho' (by decide)
    | y :: z :: pre', hf =>
      simp only [List.cons_append, List.cons.injEq] at hf
      obtain ⟨rfl, rfl, hf⟩ := hf
      obtain ⟨hs, hr⟩ := hm
      have hg := stands_fake hs
      have e' : fakeSrcs rest = pre'.map fakeSrc ++ .op "else" :: post.map fakeSrc := by
        unfold fakeSrcs
        rw [← hf]
        simp [fake_op]
      obtain ⟨tp, tq, htoks, hp⟩ := gives_split hg e'
      obtain ⟨tail, h1, h2⟩ := reads_cut (fake_reads hr (reads_ne hr)) htoks
      obtain ⟨srcs, h3⟩ := gives_fake tail
      have hid : tp.map fakeTok = tp := by
        rw [List.map_id'' (fun t => by cases t <;> rfl)]
      rw [hid] at h2
      have hpre : Gives () (fakeSrc (.leaf .var x') :: fakeSrc (.leaf .op o'') :: pre'.map fakeSrc)
          (.val () :: .op (String.ofList o'') :: tp) := by
        rw [fake_op]
        exact .operand (act := fun s => (.ok (), s)) rfl (.op hp)
      obtain ⟨sym, n, h4⟩ := execute_else hpre h3 h1 (by
        rw [fake_op]
        exact execute_assign (f := fakeF) (s := ()) (x := ()) fake_does (fun _ _ _ _ _ => rfl) (fun _ _ => rfl) rfl ho'
          (gives_append hp (.op h3)) h2 rfl)
      exact incomplete_of call isUnit mkErr getErr funcs (sym := sym) (n := n) h4
  cases h with
  | blank hb =>
    exfalso
    have : Parse.Item.leaf .op "else".toList ∈ its.filter Parse.Item.functional := by rw [e]; simp
    obtain ⟨k, hk, t, h⟩ := hb _ (List.mem_filter.1 this).1
    cases h
    simp [emptyKinds] at hk
  | value hm => exact expression_else call isUnit mkErr getErr funcs hm e
  | assign hc hm => exact assigned hc (by decide) hm
  | keep hc hm _ => exact assigned hc (by decide) hm
  | update ho hc hm _ _ =>
    refine assigned hc ?_ hm
    simp only [List.mem_cons, List.not_mem_nil, or_false] at ho
    rcases ho with rfl | rfl | rfl | rfl | rfl | rfl | rfl <;> decide
  | @step x b' o1 u w ho1 hc hb _ _ =>
    exfalso
    obtain ⟨x', o'', heq, hf⟩ := change_functional hc
    rw [e] at hf
    have hrest : b'.filter Parse.Item.functional = [] := by
      rw [List.filter_eq_nil_iff]
      intro it hit
      obtain ⟨k, hk, t, rfl⟩ := hb it hit
      simp only [emptyKinds, List.mem_cons, List.not_mem_nil, or_false] at hk
      rcases hk with rfl | rfl | rfl <;> simp [Parse.Item.functional]
    rw [hrest] at hf
    have hmem : Parse.Item.leaf .op "else".toList ∈ [Parse.Item.leaf .var x', .leaf .op o''] := by rw [← hf]; simp
    simp only [List.mem_cons, List.not_mem_nil, or_false, Parse.Item.leaf.injEq, reduceCtorEq, false_and, true_and,
      false_or] at hmem
    subst hmem
    simp only [List.mem_cons, List.not_mem_nil, or_false] at ho1
    rcases ho1 with rfl | rfl <;> exact absurd heq (by decide)

end
end MC.Props
