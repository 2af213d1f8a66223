import Verif.Lemmas.UnitLex

/-!
# The shipped tables meet what reading the name of a unit needs
-/

namespace MC.Unit.Table
open MC.Parse MC.Parse.Spec

/-- The texts that end where a separator follows inside a name, with the separator. -/
def stemsOf : Text → List (Text × Char)
  | [] => []
  | a :: t => (if sep a then [([], a)] else []) ++ (stemsOf t).map (fun s => (a :: s.1, s.2))

theorem mem_stemsOf {c : Char} (hc : sep c = true) : ∀ {s m : Text}, (s ++ [c]) <+: m →
    (s, c) ∈ stemsOf m
  | [], m, h => by
    obtain ⟨t, rfl⟩ := h
    simp [stemsOf, hc]
  | a :: s, m, h => by
    cases m with
    | nil => simp at h
    | cons b m =>
      rw [List.cons_append, List.cons_prefix_cons] at h
      obtain ⟨rfl, h⟩ := h
      have := mem_stemsOf hc h
      unfold stemsOf
      exact List.mem_append_right _ (List.mem_map.2 ⟨_, this, rfl⟩)

/-- No operator can be read at the start of the text. -/
def noOpAt (low : Text → Text) (n : Text) : Bool :=
  (opsSymbols shippedOps).all fun op =>
    !(low op).isPrefixOf n ||
      (op.all isLetter && !op.isEmpty && (n.drop op.length).head?.any asciiWord)

/-- What is checked of each lowered name (`low = lowerText`) and symbol (`low = id`). -/
def checked (low : Text → Text) (n : Text) : Bool :=
  n.head?.any plain && noOpAt low n &&
  !("true".toList).isPrefixOf (lowerText n) && !("false".toList).isPrefixOf (lowerText n) &&
  !(constantNames.map low).contains (n.takeWhile isLetter) && !n.contains '(' && n.length ≤ 27

/-- The two symbols that are not read as units. -/
def unread : List Text := ["as".toList, "GΩ".toList]

set_option maxRecDepth 100000 in
theorem names_checked : unitNames.all (checked lowerText) = true := by decide +kernel

set_option maxRecDepth 100000 in
theorem symbols_checked :
    unitSymbols.all (fun n => unread.contains n || checked id n) = true := by decide +kernel

set_option maxRecDepth 100000 in
theorem maxLength_eq : maxLength = 27 := by decide +kernel

/-- The stems of the lowered names. -/
def stems : List (Text × Char) := unitNames.flatMap stemsOf

set_option maxRecDepth 100000 in
theorem stems_checked : stems.all (fun s => !unitNames.contains s.1 &&
    unitSymbols.all (fun y => lowerText y != s.1 || (y == "deg".toList && s.2 == ' '))) = true := by
  decide +kernel

set_option maxRecDepth 100000 in
theorem symbols_nosep : unitSymbols.all (fun y => y.all (fun c => !sep c)) = true := by
  decide +kernel

theorem ops_checked : (opsSymbols shippedOps).all (fun op =>
    op.isEmpty || op.head?.any (fun a => !plain a) || op.all (fun c => !sep c)) = true := by
  decide +kernel

attribute [local irreducible] unitNames unitSymbols maxLength stems

theorem tableOk {p : ℕ} {powF : ℚ → ℚ → Except Err ℚ} {word alpha : Char → Bool}
    {systems numTypes : List Text} (hw : ∀ c, c.toNat < 128 → word c = asciiWord c)
    (ha : ∀ c, c.toNat < 128 → alpha c = isLetter c) :
    TableOk (unitLex p powF word alpha systems numTypes) where
  alpha := ha
  word := hw
  strSym := rfl
  commentSym := rfl
  symbols := rfl
  opChars := by
    intro op hop
    have h := List.all_eq_true.1 ops_checked op hop
    simp only [Bool.or_eq_true, List.isEmpty_iff, List.all_eq_true, Bool.not_eq_true'] at h
    rcases h with (h | h) | h
    · exact .inl h
    · cases op with
      | nil => exact .inl rfl
      | cons a t =>
        simp only [List.head?_cons, Option.any_some, Bool.not_eq_true'] at h
        exact .inr (.inl ⟨a, t, rfl, h⟩)
    · exact .inr (.inr h)

theorem head_lower {n : Text} (k : ℕ) :
    ((lowerText n).drop k).head? = ((n.drop k).head?).map Char.toLower := by
  unfold lowerText
  rw [← List.map_drop, List.head?_map]

theorem takeWhile_lower (n : Text) :
    (lowerText n).takeWhile isLetter = lowerText (n.takeWhile isLetter) := by
  induction n with
  | nil => rfl
  | cons a t ih =>
    simp only [lowerText, List.map_cons, List.takeWhile_cons, isLetter_lower] at *
    by_cases h : isLetter a = true
    · simp [h, ih]
    · simp [h]

theorem lowerText_lowerText (n : Text) : lowerText (lowerText n) = lowerText n := by
  simp [lowerText, lower_lower]

section
variable {p : ℕ} {powF : ℚ → ℚ → Except Err ℚ} {word alpha : Char → Bool}
    {systems numTypes : List Text}

theorem reads_name {n : Text} (h : lowerText n ∈ unitNames) :
    Reads (unitLex p powF word alpha systems numTypes) n := by
  have hc := List.all_eq_true.1 names_checked _ h
  unfold checked at hc
  simp only [Bool.and_eq_true, Bool.not_eq_true', decide_eq_true_eq] at hc
  obtain ⟨⟨⟨⟨⟨⟨h1, h2⟩, h3⟩, h4⟩, h5⟩, h6⟩, h7⟩ := hc
  have hlen : (lowerText n).length = n.length := by simp [lowerText]
  refine ⟨?_, ?_, ?_, ?_, ?_, .inl h, ?_⟩
  · cases n with
    | nil => simp [lowerText] at h1
    | cons a t =>
      simp only [lowerText, List.map_cons, List.head?_cons, Option.any_some, plain_lower] at h1
      exact ⟨a, t, rfl, h1⟩
  · intro op hop hpre
    have hl : lowerText op <+: lowerText n := hpre.map _
    have := List.all_eq_true.1 h2 op hop
    rw [List.isPrefixOf_iff_prefix.2 hl] at this
    simp only [Bool.not_true, Bool.false_or, Bool.and_eq_true, Bool.not_eq_true'] at this
    obtain ⟨⟨q1, q2⟩, q3⟩ := this
    refine ⟨q1, by rintro rfl; simp at q2, ?_⟩
    rw [head_lower] at q3
    cases hd : (n.drop op.length).head? with
    | none => rw [hd] at q3; simp at q3
    | some c =>
      rw [hd] at q3
      simp only [Option.map_some, Option.any_some, asciiWord_lower] at q3
      exact ⟨c, rfl, q3⟩
  · rw [lowerText_lowerText] at h3 h4
    constructor
    · intro hh; rw [List.isPrefixOf_iff_prefix.2 hh] at h3; cases h3
    · intro hh; rw [List.isPrefixOf_iff_prefix.2 hh] at h4; cases h4
  · intro hh
    rw [takeWhile_lower] at h5
    have : lowerText (n.takeWhile isLetter) ∈ constantNames.map lowerText :=
      List.mem_map.2 ⟨_, hh, rfl⟩
    rw [List.contains_eq_mem, decide_eq_false_iff_not] at h5
    exact h5 this
  · intro hh
    rw [List.contains_eq_mem, decide_eq_false_iff_not] at h6
    exact h6 (List.mem_map.2 ⟨'(', hh, by decide⟩)
  · show n.length ≤ maxLength
    rw [maxLength_eq, ← hlen]
    exact h7

theorem reads_symbol {n : Text} (h : n ∈ unitSymbols) (hu : n ∉ unread) :
    Reads (unitLex p powF word alpha systems numTypes) n := by
  have hc := List.all_eq_true.1 symbols_checked _ h
  rw [Bool.or_eq_true, List.contains_iff_mem] at hc
  replace hc := hc.resolve_left hu
  unfold checked at hc
  simp only [Bool.and_eq_true, Bool.not_eq_true', decide_eq_true_eq] at hc
  obtain ⟨⟨⟨⟨⟨⟨h1, h2⟩, h3⟩, h4⟩, h5⟩, h6⟩, h7⟩ := hc
  refine ⟨?_, ?_, ?_, ?_, ?_, .inr h, ?_⟩
  · cases n with
    | nil => simp at h1
    | cons a t =>
      simp only [List.head?_cons, Option.any_some] at h1
      exact ⟨a, t, rfl, h1⟩
  · intro op hop hpre
    have := List.all_eq_true.1 h2 op hop
    rw [id, List.isPrefixOf_iff_prefix.2 hpre] at this
    simp only [Bool.not_true, Bool.false_or, Bool.and_eq_true, Bool.not_eq_true'] at this
    obtain ⟨⟨q1, q2⟩, q3⟩ := this
    refine ⟨q1, by rintro rfl; simp at q2, ?_⟩
    cases hd : (n.drop op.length).head? with
    | none => rw [hd] at q3; simp at q3
    | some c =>
      rw [hd] at q3
      exact ⟨c, rfl, q3⟩
  · constructor
    · intro hh; rw [List.isPrefixOf_iff_prefix.2 hh] at h3; cases h3
    · intro hh; rw [List.isPrefixOf_iff_prefix.2 hh] at h4; cases h4
  · intro hh
    rw [List.map_id, List.contains_eq_mem, decide_eq_false_iff_not] at h5
    exact h5 hh
  · intro hh
    rw [List.contains_eq_mem, decide_eq_false_iff_not] at h6
    exact h6 hh
  · show n.length ≤ maxLength
    rw [maxLength_eq]
    exact h7

theorem not_longer {n : Text} (h : lowerText n ∈ unitNames ∨ n ∈ unitSymbols) {c : Char}
    (hc : sep c = true) (hd : ¬ (n = "deg".toList ∧ c = ' ')) :
    (∀ m ∈ unitNames, ¬ (lowerText n ++ [c]) <+: m) ∧ ∀ m ∈ unitSymbols, ¬ (n ++ [c]) <+: m := by
  constructor
  · intro m hm hp
    have hs : (lowerText n, c) ∈ stems := by
      unfold stems
      exact List.mem_flatMap.2 ⟨m, hm, mem_stemsOf hc hp⟩
    have := List.all_eq_true.1 stems_checked _ hs
    simp only [Bool.and_eq_true, Bool.not_eq_true', List.contains_eq_mem,
      decide_eq_false_iff_not] at this
    rcases h with h | h
    · exact this.1 h
    · have := List.all_eq_true.1 this.2 n h
      simp only [bne_self_eq_false, Bool.false_or, Bool.and_eq_true, beq_iff_eq] at this
      exact hd this
  · intro m hm ⟨t, ht⟩
    have := List.all_eq_true.1 (List.all_eq_true.1 symbols_nosep m hm) c (by rw [← ht]; simp)
    rw [hc] at this
    cases this

end

end MC.Unit.Table
