import Verif.Spec.Meaning
import Mathlib.Data.List.Forall2

/-! # Meanings that correspond -/

namespace MC.Props
open MC MC.Spec
open MC.Parse (Kind Text)

variable {V W : Type} (R : V → W → Prop)

/-- Corresponding operands, and the same operators. -/
inductive TokRel : Tok V → Tok W → Prop
  | op (o : String) : TokRel (.op o) (.op o)
  | val {v w} : R v w → TokRel (.val v) (.val w)

theorem forall₂_split {A B : Type} {P : A → B → Prop} : ∀ {u v : List B} {l : List A},
    List.Forall₂ P l (u ++ v) → ∃ a b, List.Forall₂ P a u ∧ List.Forall₂ P b v ∧ l = a ++ b
  | [], v, l, h => ⟨[], l, .nil, h, rfl⟩
  | x :: u, v, _, .cons h t => by
    obtain ⟨a, b, h1, h2, rfl⟩ := forall₂_split t
    exact ⟨_ :: a, b, .cons h h1, h2, rfl⟩

variable {R} {f : String → List V → Except String V} {f' : String → List W → Except String W}

theorem reads_map
    (hf : ∀ o ws w vs, f' o ws = .ok w → List.Forall₂ R vs ws → ∃ v, f o vs = .ok v ∧ R v w)
    {rows : List RowKind} {k : ℕ} {toks' : List (Tok W)} {w : W} (h : Reads rows f' k toks' w) :
    ∀ {toks : List (Tok V)}, List.Forall₂ (TokRel R) toks toks' → ∃ v, Reads rows f k toks v ∧ R v w := by
  induction h with
  | atom w =>
    intro toks ht
    cases ht with
    | cons a b =>
      cases b
      cases a with
      | val hr => exact ⟨_, .atom _, hr⟩
  | up _ ih =>
    intro toks ht
    obtain ⟨v, h1, h2⟩ := ih ht
    exact ⟨v, .up h1, h2⟩
  | left hr ho _ _ hx iht ihu =>
    intro toks ht
    obtain ⟨a, b, ha, hb, rfl⟩ := forall₂_split ht
    cases hb with
    | cons h1 h2 =>
      cases h1
      obtain ⟨v, p1, q1⟩ := iht ha
      obtain ⟨w, p2, q2⟩ := ihu h2
      obtain ⟨x, p3, q3⟩ := hf _ _ _ [v, w] hx (.cons q1 (.cons q2 .nil))
      exact ⟨x, .left hr ho p1 p2 p3, q3⟩
  | pref hr ho _ hx ih =>
    intro toks ht
    cases ht with
    | cons h1 h2 =>
      cases h1
      obtain ⟨v, p1, q1⟩ := ih h2
      obtain ⟨x, p3, q3⟩ := hf _ _ _ [v] hx (.cons q1 .nil)
      exact ⟨x, .pref hr ho p1 p3, q3⟩
  | tern hr _ _ _ hx iht ihu ihr =>
    intro toks ht
    obtain ⟨a, b, ha, hb, rfl⟩ := forall₂_split ht
    cases hb with
    | cons h1 h2 =>
      cases h1
      obtain ⟨d, e, hd, he, rfl⟩ := forall₂_split h2
      cases he with
      | cons h3 h4 =>
        cases h3
        obtain ⟨v, p1, q1⟩ := iht ha
        obtain ⟨w, p2, q2⟩ := ihu hd
        obtain ⟨y, p3, q3⟩ := ihr h4
        obtain ⟨x, p4, q4⟩ := hf _ _ _ [v, w, y] hx (.cons q1 (.cons q2 (.cons q3 .nil)))
        exact ⟨x, .tern hr p1 p2 p3 p4, q4⟩
  | next hr _ _ hx iht ihu =>
    intro toks ht
    obtain ⟨a, b, ha, hb, rfl⟩ := forall₂_split ht
    obtain ⟨v, p1, q1⟩ := iht ha
    obtain ⟨w, p2, q2⟩ := ihu hb
    obtain ⟨x, p3, q3⟩ := hf _ _ _ [v, w] hx (.cons q1 (.cons q2 .nil))
    exact ⟨x, .next hr p1 p2 p3, q3⟩

variable {g : String → List V → Except String V} {g' : String → List W → Except String W}
  {lit : Parse.Item → V → Prop} {lit' : Parse.Item → W → Prop}

/-- If words, operators and functions correspond, so do the meanings of expressions. -/
theorem means_map
    (hl : ∀ it w, lit' it w → ∃ v, lit it v ∧ R v w)
    (hf : ∀ o ws w vs, f' o ws = .ok w → List.Forall₂ R vs ws → ∃ v, f o vs = .ok v ∧ R v w)
    (hg : ∀ o ws w vs, g' o ws = .ok w → List.Forall₂ R vs ws → ∃ v, g o vs = .ok v ∧ R v w)
    {its : List Parse.Item} {w : W} (h : Means lit' f' g' its w) :
    ∃ v, Means lit f g its v ∧ R v w := by
  refine Means.rec
    (motive_1 := fun its toks' _ => ∃ toks, Stands lit f g its toks ∧ List.Forall₂ (TokRel R) toks toks')
    (motive_2 := fun its w _ => ∃ v, Means lit f g its v ∧ R v w)
    (motive_3 := fun its ws _ => ∃ vs, ArgsMean lit f g its vs ∧ List.Forall₂ R vs ws)
    ?_ ?_ ?_ ?_ ?_ ?_ ?_ ?_ ?_ ?_ h
  · exact ⟨[], .nil, .nil⟩
  · rintro k t its toks hk _ ⟨toks', h1, h2⟩
    exact ⟨toks', .skip hk h1, h2⟩
  · rintro o its toks _ ⟨toks', h1, h2⟩
    exact ⟨_, .op h1, .cons (.op _) h2⟩
  · rintro it w its toks hk hlit _ ⟨toks', h1, h2⟩
    obtain ⟨v, h3, h4⟩ := hl it w hlit
    exact ⟨_, .word hk h3 h1, .cons (.val h4) h2⟩
  · rintro t inner w its toks _ _ ⟨v, h3, h4⟩ ⟨toks', h1, h2⟩
    exact ⟨_, .bracket h3 h1, .cons (.val h4) h2⟩
  · rintro t name args ws w its toks _ hgw _ ⟨vs, h3, h4⟩ ⟨toks', h1, h2⟩
    obtain ⟨v, h5, h6⟩ := hg _ _ _ vs hgw h4
    exact ⟨_, .call h3 h5 h1, .cons (.val h6) h2⟩
  · rintro its toks w _ hr ⟨toks', h1, h2⟩
    obtain ⟨v, h3, h4⟩ := reads_map hf hr h2
    exact ⟨v, .phrase h1 h3, h4⟩
  · exact ⟨[], .none, .nil⟩
  · rintro its w _ ⟨v, h1, h2⟩
    exact ⟨[v], .last h1, .cons h2 .nil⟩
  · rintro its w rest w' ws _ _ ⟨v, h1, h2⟩ ⟨vs, h3, h4⟩
    cases h4 with
    | cons h5 h6 => exact ⟨_, .more h1 h3, .cons h2 (.cons h5 h6)⟩

end MC.Props
