import Verif.Spec.Share
import Verif.Props.To

/-! # C57: what showing an answer does to arrays that are held elsewhere -/

namespace MC.Props
open MC.Share MC.Spec MC.Unit MC.Unit.To MC.Unit.Spec
set_option linter.unusedSectionVars false

section
variable {S V : Type} {ti : Tidy S V} {Q : S × Option V → S × Option V → Prop}

/-- One object, before and after. -/
def Became (Q : S × Option V → S × Option V → Prop) (x y : Obj S V) : Prop :=
  match x with
  | .list els => y = .list els
  | .one v u => ∃ v' u', y = .one v' u' ∧ Q (v, u) (v', u')

theorem became_refl (hq : ∀ x, Q x x) (x : Obj S V) : Became Q x x := by
  cases x with
  | list => rfl
  | one v u => exact ⟨v, u, rfl, hq _⟩

theorem became_trans (ht : ∀ x y z, Q x y → Q y z → Q x z) {x y z : Obj S V} (h1 : Became Q x y) (h2 : Became Q y z) :
    Became Q x z := by
  cases x with
  | list els =>
    have h1 : y = .list els := h1
    subst h1
    exact h2
  | one v u =>
    obtain ⟨v', u', rfl, k1⟩ := h1
    obtain ⟨v'', u'', rfl, k2⟩ := h2
    exact ⟨v'', u'', rfl, ht _ _ _ k1 k2⟩

theorem each_became (hq : ∀ x, Q x x) (ht : ∀ x y z, Q x y → Q y z → Q x z)
    {f : ℕ → Objs S V → Except Raise Unit × Objs S V} (hf : ∀ a h b, Became Q (h b) ((f a h).2 b)) :
    ∀ (as : List ℕ) h b, Became Q (h b) ((each f as h).2 b) := by
  intro as
  induction as with
  | nil => intro h b; exact became_refl hq _
  | cons a as ih =>
    intro h b
    unfold each
    have := hf a h b
    rcases hr : f a h with ⟨_ | _, h'⟩
    · rw [hr] at this; exact this
    · rw [hr] at this
      exact became_trans ht this (ih h' b)

theorem finalizeAt_became (hq : ∀ x, Q x x) (ht : ∀ x y z, Q x y → Q y z → Q x z) {on : Bool}
    (hs : ∀ v u r, tidy ti on v u = .ok r → Q (v, u) r) (n : ℕ) :
    ∀ a h b, Became Q (h b) ((finalizeAt ti on n a h).2 b) := by
  induction n with
  | zero => intro a h b; exact became_refl hq _
  | succ n ih =>
    intro a h b
    unfold finalizeAt
    cases ha : h a with
    | list els => exact each_became hq ht ih els h b
    | one v u =>
      dsimp only
      cases hr : tidy ti on v u with
      | error e => exact became_refl hq _
      | ok r =>
        obtain ⟨v', u'⟩ := r
        dsimp only [put]
        split
        · next e => subst e; rw [ha]; exact ⟨_, _, rfl, hs _ _ _ hr⟩
        · exact became_refl hq _

theorem finalizeAnswer_became (hq : ∀ x, Q x x) (ht : ∀ x y z, Q x y → Q y z → Q x z) {on : Bool}
    (hs : ∀ v u r, tidy ti on v u = .ok r → Q (v, u) r) (n : ℕ) (x : Obj S V) (h : Objs S V) (b : ℕ) :
    Became Q (h b) ((finalizeAnswer ti on n x h).2 b) := by
  unfold finalizeAnswer
  cases x with
  | list els =>
    have := each_became hq ht (finalizeAt_became hq ht hs n) els h b
    dsimp only
    rcases hr : each (finalizeAt ti on n) els h with ⟨_ | _, h'⟩ <;> rw [hr] at this <;> exact this
  | one v u =>
    simp only
    cases tidy ti on v u with
    | error e => exact became_refl hq _
    | ok r => exact became_refl hq _

theorem turn_next (n : ℕ) (t : Stmt S V) (s : St S V) : (turn ti n t s).next = s.next + t.made.length := by
  unfold turn
  simp only
  rcases finalizeAnswer ti t.on n t.answer (make s.objs s.next t.made) with ⟨_ | _, h⟩ <;> rfl

theorem turn_vars (n : ℕ) (t : Stmt S V) (s : St S V) {x : String} (hx : t.target ≠ some x) :
    (turn ti n t s).vars x = s.vars x := by
  have : (match t.target with
    | none => s.vars
    | some x => fun y => if y = x then some t.answer else s.vars y) x = s.vars x := by
    cases ht : t.target with
    | none => rfl
    | some y =>
      simp only
      rw [if_neg]
      rintro rfl
      exact hx ht
  unfold turn
  simp only
  rcases finalizeAnswer ti t.on n t.answer (make s.objs s.next t.made) with ⟨_ | _, h⟩ <;> exact this

theorem turn_answers (n : ℕ) (t : Stmt S V) (s : St S V) : s.answers <+: (turn ti n t s).answers := by
  unfold turn
  simp only
  rcases finalizeAnswer ti t.on n t.answer (make s.objs s.next t.made) with ⟨_ | _, h⟩
  · exact List.prefix_refl _
  · exact List.prefix_append _ _

theorem turn_became (hq : ∀ x, Q x x) (ht : ∀ x y z, Q x y → Q y z → Q x z) {t : Stmt S V}
    (hs : ∀ v u r, tidy ti t.on v u = .ok r → Q (v, u) r) (n : ℕ) (s : St S V) {a : ℕ} (ha : a < s.next) :
    Became Q (s.objs a) ((turn ti n t s).objs a) := by
  have := finalizeAnswer_became hq ht hs n t.answer (make s.objs s.next t.made) a
  have e : make s.objs s.next t.made a = s.objs a := by simp [make, ha]
  rw [e] at this
  unfold turn
  simp only
  rcases hr : finalizeAnswer ti t.on n t.answer (make s.objs s.next t.made) with ⟨_ | _, h⟩ <;>
    rw [hr] at this <;> exact this

theorem session_became (hq : ∀ x, Q x x) (ht : ∀ x y z, Q x y → Q y z → Q x z) (n : ℕ) (ts : List (Stmt S V))
    (hs : ∀ t ∈ ts, ∀ v u r, tidy ti t.on v u = .ok r → Q (v, u) r) :
    ∀ (s : St S V) {a : ℕ}, a < s.next → Became Q (s.objs a) ((session ti n ts s).objs a) := by
  induction ts with
  | nil => intro s a _; exact became_refl hq _
  | cons t ts ih =>
    intro s a ha
    refine became_trans ht (turn_became hq ht (hs t List.mem_cons_self) n s ha) ?_
    exact ih (fun t h => hs t (List.mem_cons_of_mem _ h)) (turn ti n t s) (by rw [turn_next]; omega)

theorem session_vars (n : ℕ) (ts : List (Stmt S V)) {x : String} (hx : ∀ t ∈ ts, t.target ≠ some x) :
    ∀ s : St S V, (session ti n ts s).vars x = s.vars x := by
  induction ts with
  | nil => intro s; rfl
  | cons t ts ih =>
    intro s
    exact (ih (fun t h => hx t (List.mem_cons_of_mem _ h)) (turn ti n t s)).trans (turn_vars n t s (hx t List.mem_cons_self))

theorem session_answers (n : ℕ) (ts : List (Stmt S V)) : ∀ s : St S V, s.answers <+: (session ti n ts s).answers := by
  induction ts with
  | nil => intro s; exact List.prefix_refl _
  | cons t ts ih => intro s; exact (turn_answers n t s).trans (ih (turn ti n t s))

theorem part_became {h h' : Objs S V} {next : ℕ} (hc : ∀ a < next, ∀ els, h a = .list els → ∀ b ∈ els, b < next)
    (hb : ∀ a < next, Became Q (h a) (h' a)) (p : List ℕ) :
    ∀ (x y : Obj S V), Became Q x y → (∀ els, x = .list els → ∀ b ∈ els, b < next) → Option.Rel Q (part h x p) (part h' y p) := by
  induction p with
  | nil =>
    intro x y hxy _
    cases x with
    | list els => have hxy : y = _ := hxy; subst hxy; exact .none
    | one v u => obtain ⟨v', u', rfl, k⟩ := hxy; exact .some k
  | cons i p ih =>
    intro x y hxy hx
    cases x with
    | one v u => obtain ⟨v', u', rfl, k⟩ := hxy; exact .none
    | list els =>
      have hxy : y = _ := hxy
      subst hxy
      simp only [part]
      cases hi : els[i]? with
      | none => exact .none
      | some a =>
        have ha := hx els rfl a (List.mem_of_getElem? hi)
        exact ih (h a) (h' a) (hb a ha) (fun els' e => hc a ha els' e)

/-- The statements of a session, with any settings, leave the variables they do not assign, and the answers given before,
as they are, up to what simplifying units does. -/
theorem session_keeps (hq : ∀ x, Q x x) (ht : ∀ x y z, Q x y → Q y z → Q x z) (n : ℕ) (ts : List (Stmt S V))
    (hs : ∀ t ∈ ts, ∀ v u r, tidy ti t.on v u = .ok r → Q (v, u) r) (s : St S V) (hu : InUse s) :
    (∀ x, (∀ t ∈ ts, t.target ≠ some x) → (session ti n ts s).vars x = s.vars x ∧
      ∀ o, s.vars x = some o → ∀ p, Option.Rel Q (part s.objs o p) (part (session ti n ts s).objs o p)) ∧
    s.answers <+: (session ti n ts s).answers ∧
      ∀ o ∈ s.answers, ∀ p, Option.Rel Q (part s.objs o p) (part (session ti n ts s).objs o p) := by
  have hb := fun a ha => session_became (ti := ti) hq ht n ts hs s (a := a) ha
  refine ⟨fun x hx => ⟨session_vars n ts hx s, fun o ho p => ?_⟩, session_answers n ts s, fun o ho p => ?_⟩
  · exact part_became hu.1 hb p o o (became_refl hq o) (fun els e => hu.2.1 x o els ho e)
  · exact part_became hu.1 hb p o o (became_refl hq o) (fun els e => hu.2.2 o ho els e)

theorem rel_eq {α : Type} {x y : Option α} (h : Option.Rel Eq x y) : y = x := by
  cases h with
  | none => rfl
  | some e => rw [e]

/-- **C57**: with `unit_simplification` off, the statements of a session change nothing in the variables they do not
assign and in the answers given before: every element of every array is the same number with the same unit. -/
theorem C57_shown (n : ℕ) (ts : List (Stmt S V)) (hoff : ∀ t ∈ ts, t.on = false) (s : St S V) (hu : InUse s) :
    (∀ x, (∀ t ∈ ts, t.target ≠ some x) → (session ti n ts s).vars x = s.vars x ∧
      ∀ o, s.vars x = some o → ∀ p, part (session ti n ts s).objs o p = part s.objs o p) ∧
    s.answers <+: (session ti n ts s).answers ∧
      ∀ o ∈ s.answers, ∀ p, part (session ti n ts s).objs o p = part s.objs o p := by
  have := session_keeps (ti := ti) (Q := Eq) (fun _ => rfl) (fun _ _ _ => Eq.trans) n ts (fun t h v u r hr => by
    rw [hoff t h] at hr
    cases u <;> cases hr <;> rfl) s hu
  exact ⟨fun x hx => ⟨(this.1 x hx).1, fun o ho p => rel_eq ((this.1 x hx).2 o ho p)⟩, this.2.1,
    fun o ho p => rel_eq (this.2.2 o ho p)⟩

end

section
variable {U D K : Type} [DecidableEq U] [DecidableEq D] [Field K] [DecidableEq K] {pw : K → ℚ → K} {N : Norm U D K} {t : D}

theorem keptQuantity_refl (x : K × Option (UnitObj U)) : KeptQuantity pw N t x x := by
  obtain ⟨v, _ | o⟩ := x
  · rfl
  · unfold KeptQuantity
    simp only
    split
    · trivial
    · intro h; exact ⟨rfl, by simpa using h⟩

theorem keptQuantity_trans {x y z : K × Option (UnitObj U)} (h1 : KeptQuantity pw N t x y) (h2 : KeptQuantity pw N t y z) :
    KeptQuantity pw N t x z := by
  obtain ⟨v, _ | o⟩ := x
  · have : y = (v, none) := h1
    subst this
    exact h2
  · unfold KeptQuantity at h1 ⊢
    simp only at h1 ⊢
    split
    · next hk => rw [if_pos hk] at h1; subst h1; unfold KeptQuantity at h2; simpa [hk] using h2
    · next hk =>
      rw [if_neg hk] at h1
      intro hw
      obtain ⟨e, w⟩ := h1 hw
      obtain ⟨v', _ | o'⟩ := y
      · have : z = (v', none) := h2
        subst this
        exact ⟨e, w⟩
      · unfold KeptQuantity at h2
        simp only at h2
        split at h2
        · subst h2; exact ⟨e, w⟩
        · obtain ⟨e', w'⟩ := h2 (w o' rfl)
          exact ⟨e'.trans e, w'⟩

theorem unitTidy_kept (hL : Lawful pw N) (hC : Coherent N) (hT : Thermal N t) {fuel : ℕ} {on : Bool} {v : K}
    {u : Option (UnitObj U)} {r : K × Option (UnitObj U)} (h : tidy (unitTidy pw N fuel) on v u = .ok r) :
    KeptQuantity pw N t (v, u) r := by
  cases u with
  | none => cases h; rfl
  | some o =>
    unfold tidy at h
    dsimp only at h
    by_cases hc : (on && !(unitTidy pw N fuel).keeps o) = true
    · rw [if_pos hc] at h
      have hk : o.keep = false := by simpa [unitTidy] using (Bool.and_eq_true_iff.1 hc).2
      unfold KeptQuantity
      simp only [hk, Bool.false_eq_true, if_false]
      intro hw
      simp only [unitTidy] at h
      cases hq : simplifyUnits pw N fuel v o.list with
      | none => rw [hq] at h; exact absurd h (by simp)
      | some res =>
        rw [hq] at h
        cases res with
        | error e => exact absurd h (by simp)
        | ok p =>
          obtain ⟨y, l⟩ := p
          cases h
          have e := C45_simplify_partial hL hC hT hw hq
          obtain ⟨s, hks, hd, _⟩ := simplify_cases hL hC hT hw hq
          have w := (dedupe_value hL (without_prop hT) hks.all hd).2
          refine ⟨?_, ?_⟩
          · rw [← e]; cases l <;> rfl
          · cases l with
            | none => simp
            | some l => intro o' ho'; cases ho'; exact w
    · rw [if_neg hc] at h
      cases h
      exact keptQuantity_refl _

/-- **C57**: whatever the settings, the statements of a session leave every element of every array that is held in a
variable they do not assign, or in an answer given before, the same quantity, and values that are not arrays as they
are.  Missing: it may be written with other units (`C57_shown_violation`), and temperatures. -/
theorem C57_shown_partial (hL : Lawful pw N) (hC : Coherent N) (hT : Thermal N t) (fuel n : ℕ)
    (ts : List (Stmt K (UnitObj U))) (s : St K (UnitObj U)) (hu : InUse s) :
    (∀ x, (∀ t ∈ ts, t.target ≠ some x) → (session (unitTidy pw N fuel) n ts s).vars x = s.vars x ∧
      ∀ o, s.vars x = some o → ∀ p,
        Option.Rel (KeptQuantity pw N t) (part s.objs o p) (part (session (unitTidy pw N fuel) n ts s).objs o p)) ∧
    s.answers <+: (session (unitTidy pw N fuel) n ts s).answers ∧
      ∀ o ∈ s.answers, ∀ p,
        Option.Rel (KeptQuantity pw N t) (part s.objs o p) (part (session (unitTidy pw N fuel) n ts s).objs o p) :=
  session_keeps keptQuantity_refl (fun _ _ _ => keptQuantity_trans) n ts
    (fun _ _ _ _ _ h => unitTidy_kept hL hC hT h) s hu

end

/-! ### Examples -/

open MC.Unit.Table MC.Unit.Format

/-- Nothing is held yet. -/
def nothingHeld : St ℚ (UnitObj Shipped) := ⟨fun _ => .list [], 0, fun _ => none, []⟩

/-- `x = [5 seconds^-1, 7]`, with `unit_simplification` off. -/
def assignBoth : Stmt ℚ (UnitObj Shipped) :=
  ⟨false, [.one 5 (some (twoUnits 1)), .one 7 none], .list [0, 1], some "x"⟩

/-- `x`, with the setting given. -/
def showBoth (on : Bool) : Stmt ℚ (UnitObj Shipped) := ⟨on, [], .list [0, 1], none⟩

/-- An element, with the names of its units. -/
def shownPart (r : Option (ℚ × Option (UnitObj Shipped))) : Option (ℚ × List (String × ℚ)) :=
  r.map (fun p => (p.1, match p.2 with
    | none => []
    | some o => o.list.map (fun o => (String.ofList (face.plural o.1), o.2))))

/-- After `x = [5 seconds^-1, 7]`. -/
def afterBoth : St ℚ (UnitObj Shipped) := session (unitTidy intPow plainNorm 9) 5 [assignBoth] nothingHeld

/-- After the line `x` as well. -/
def afterShown (on : Bool) : St ℚ (UnitObj Shipped) := session (unitTidy intPow plainNorm 9) 5 [showBoth on] afterBoth

/-- **C57** is false of how an array is written: after `x = [5 seconds^-1, 7]`, with units simplified from then on, the line
`x`, which assigns nothing, makes the first element of `x` 5 hertz, in the variable and in the answer given before. -/
theorem C57_shown_violation :
    (afterBoth.vars "x" = some (.list [0, 1]) ∧ afterBoth.answers = [.list [0, 1]] ∧
      shownPart (part afterBoth.objs (.list [0, 1]) [0]) = some (5, [("seconds", -1)])) ∧
    (afterShown true).vars "x" = some (.list [0, 1]) ∧ (afterShown true).answers = [.list [0, 1], .list [0, 1]] ∧
      shownPart (part (afterShown true).objs (.list [0, 1]) [0]) = some (5, [("hertz", 1)]) ∧
      shownPart (part (afterShown true).objs (.list [0, 1]) [1]) = some (7, []) := by
  refine ⟨⟨rfl, rfl, by decide +kernel⟩, by decide +kernel, ?_, by decide +kernel, by decide +kernel⟩
  decide +kernel

/-- The hypothesis of `C57_shown` and `C57_shown_partial` holds of what that statement leaves. -/
example : InUse afterBoth := by
  refine ⟨?_, ?_, ?_⟩
  · intro a ha els h
    have ha : a < 2 := ha
    have h0 : afterBoth.objs 0 = .one 5 (some (twoUnits 1)) := rfl
    have h1 : afterBoth.objs 1 = .one 7 none := rfl
    interval_cases a
    · rw [h0] at h; cases h
    · rw [h1] at h; cases h
  · intro x o els h ho b hb
    change (if x = "x" then some (.list [0, 1]) else none) = some o at h
    change b < 2
    split at h
    · cases h
      cases ho
      simp at hb
      omega
    · cases h
  · intro o h els ho b hb
    change o ∈ [Obj.list [0, 1]] at h
    change b < 2
    rw [List.mem_singleton.1 h] at ho
    cases ho
    simp at hb
    omega

/-- With the setting off, the line `x` changes nothing. -/
example : shownPart (part (afterShown false).objs (.list [0, 1]) [0]) = some (5, [("seconds", -1)]) := by
  decide +kernel

/-- The hypotheses of `C57_shown_partial` hold of the shipped units. -/
example {closer : ℝ → ℝ → Except Raise Bool} {simpler : ℝ → ℝ → Bool} (fuel n : ℕ) (ts : List (Stmt ℝ (UnitObj Shipped)))
    (s : St ℝ (UnitObj Shipped)) (hu : InUse s) :=
  C57_shown_partial (C74_registry (closer := closer) (simpler := simpler) powers_real).1
    (C74_registry powers_real).2.1 (C74_registry powers_real).2.2 fuel n ts s hu

end MC.Props
