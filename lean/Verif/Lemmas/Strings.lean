import Verif.Model.Strings
import Verif.Spec.Strings
import Verif.Lemmas.Arrays
import Mathlib.Data.List.Infix

/-! The string functions of `Model/Strings.lean` against `Spec/Strings.lean`, and calling them. -/

set_option linter.unusedSectionVars false

namespace MC.Strings
open MC.Spec Boolean Arrays

/-! ## Finding -/

theorem occursAt_zero {sub s : List Char} : OccursAt sub s 0 ↔ sub.isPrefixOf s = true := by
  rw [List.isPrefixOf_iff_prefix]
  constructor
  · rintro ⟨a, b, rfl, ha⟩
    rw [List.length_eq_zero_iff] at ha
    subst ha
    exact ⟨b, by simp⟩
  · rintro ⟨b, rfl⟩
    exact ⟨[], b, by simp, rfl⟩

theorem occursAt_succ {sub s : List Char} {c : Char} {k : ℕ} :
    OccursAt sub (c :: s) (k + 1) ↔ OccursAt sub s k := by
  constructor
  · rintro ⟨a, b, h, ha⟩
    cases a with
    | nil => simp at ha
    | cons d a =>
      simp only [List.cons_append, List.cons.injEq] at h
      exact ⟨a, b, h.2, by simpa using ha⟩
  · rintro ⟨a, b, rfl, rfl⟩
    exact ⟨c :: a, b, by simp, rfl⟩

theorem occursAt_nil {sub : List Char} {k : ℕ} (h : OccursAt sub [] k) : k = 0 := by
  obtain ⟨a, b, h, rfl⟩ := h
  have := congrArg List.length h
  simp only [List.length_nil, List.length_append] at this
  omega

theorem find_some {sub s : List Char} {k : ℕ} : find sub s = some k ↔ FirstAt sub s k := by
  induction s generalizing k with
  | nil =>
    unfold find
    constructor
    · intro h
      split at h
      · cases h
        exact ⟨occursAt_zero.mpr (by assumption), fun _ _ => Nat.zero_le _⟩
      · cases h
    · rintro ⟨h, -⟩
      obtain rfl := occursAt_nil h
      rw [if_pos (occursAt_zero.mp h)]
  | cons c cs ih =>
    unfold find
    by_cases hp : sub.isPrefixOf (c :: cs) = true
    · rw [if_pos hp]
      constructor
      · intro h
        cases h
        exact ⟨occursAt_zero.mpr hp, fun _ _ => Nat.zero_le _⟩
      · rintro ⟨-, h⟩
        have := h 0 (occursAt_zero.mpr hp)
        simp at this
        rw [this]
    · rw [if_neg hp]
      constructor
      · intro h
        rw [Option.map_eq_some_iff] at h
        obtain ⟨j, hj, rfl⟩ := h
        obtain ⟨h1, h2⟩ := ih.mp hj
        refine ⟨occursAt_succ.mpr h1, fun i hi => ?_⟩
        cases i with
        | zero => exact absurd (occursAt_zero.mp hi) hp
        | succ i => exact Nat.succ_le_succ (h2 i (occursAt_succ.mp hi))
      · rintro ⟨h1, h2⟩
        cases k with
        | zero => exact absurd (occursAt_zero.mp h1) hp
        | succ k =>
          have : FirstAt sub cs k := ⟨occursAt_succ.mp h1, fun j hj => by
            have := h2 (j + 1) (occursAt_succ.mpr hj)
            omega⟩
          rw [ih.mpr this]
          rfl

theorem find_none {sub s : List Char} : find sub s = none ↔ ¬ Contains sub s := by
  constructor
  · rintro h ⟨k, hk⟩
    classical
    have hex : ∃ k, OccursAt sub s k := ⟨k, hk⟩
    have : FirstAt sub s (Nat.find hex) := ⟨Nat.find_spec hex, fun j hj => Nat.find_min' hex hj⟩
    rw [find_some.mpr this] at h
    cases h
  · intro h
    cases hf : find sub s with
    | none => rfl
    | some k => exact absurd ⟨k, (find_some.mp hf).1⟩ h

theorem occursAt_eq {sub s : List Char} {k : ℕ} (h : OccursAt sub s k) :
    s = s.take k ++ sub ++ s.drop (k + sub.length) := by
  obtain ⟨a, b, rfl, rfl⟩ := h
  simp [List.append_assoc]

theorem occursAt_len {sub s : List Char} {k : ℕ} (h : OccursAt sub s k) :
    k + sub.length ≤ s.length := by
  obtain ⟨a, b, rfl, rfl⟩ := h
  simp only [List.length_append]
  omega

/-! ## Splitting and joining -/

theorem splitF_pieces {sep : List Char} (hsep : sep ≠ []) :
    ∀ (fuel : ℕ) (s : List Char), s.length ≤ fuel → Pieces sep s (splitF sep fuel s) := by
  intro fuel
  have hpos : 0 < sep.length := List.length_pos_iff.mpr hsep
  induction fuel with
  | zero =>
    intro s hs
    unfold splitF
    refine .whole ?_
    rintro ⟨k, hk⟩
    have := occursAt_len hk
    omega
  | succ fuel ih =>
    intro s hs
    unfold splitF
    cases hf : find sep s with
    | none => exact .whole (find_none.mp hf)
    | some k =>
      have hfirst := find_some.mp hf
      have heq := occursAt_eq hfirst.1
      have hlen := occursAt_len hfirst.1
      have hk : (s.take k).length = k := by simp; omega
      dsimp only
      have := Pieces.cut (sep := sep) (p := s.take k) (rest := s.drop (k + sep.length))
        (ps := splitF sep fuel (s.drop (k + sep.length)))
        (by rw [← heq, hk]; exact hfirst) (ih _ (by simp; omega))
      rwa [← heq] at this

theorem Pieces.ne_nil {sep s : List Char} {ps : List (List Char)} (h : Pieces sep s ps) : ps ≠ [] := by
  cases h <;> simp

theorem join_eq_glue (sep : List Char) (ps : List (List Char)) : join sep ps = glue sep ps := by
  induction ps with
  | nil => rfl
  | cons p ps ih =>
    cases ps with
    | nil => rfl
    | cons q ps => rw [join, glue, ih]; simp

theorem glue_cons {sep p : List Char} {ps : List (List Char)} (h : ps ≠ []) :
    glue sep (p :: ps) = p ++ sep ++ glue sep ps := by
  cases ps with
  | nil => exact absurd rfl h
  | cons q ps => rfl

theorem Pieces.glue {sep s : List Char} {ps : List (List Char)} (h : Pieces sep s ps) :
    glue sep ps = s := by
  induction h with
  | whole _ => rfl
  | cut _ h ih => rw [glue_cons (Pieces.ne_nil h), ih]

theorem Pieces.clean {sep s : List Char} {ps : List (List Char)} (hsep : sep ≠ [])
    (h : Pieces sep s ps) : ∀ q ∈ ps, ¬ Contains sep q := by
  induction h with
  | whole h => simpa using h
  | @cut p rest ps hf _ ih =>
    intro q hq
    rcases List.mem_cons.mp hq with rfl | hq
    · rintro ⟨k, a, b, heq, hk⟩
      have := hf.2 k ⟨a, b ++ sep ++ rest, by rw [heq]; simp [List.append_assoc], hk⟩
      have hl := congrArg List.length heq
      have := List.length_pos_iff.mpr hsep
      simp at hl
      omega
    · exact ih q hq

/-- The pieces are determined by the text and the separator. -/
theorem Pieces.unique {sep s : List Char} {ps qs : List (List Char)} (h : Pieces sep s ps)
    (h' : Pieces sep s qs) : ps = qs := by
  induction h generalizing qs with
  | whole h =>
    cases h' with
    | whole _ => rfl
    | cut hf _ => exact absurd ⟨_, hf.1⟩ h
  | @cut p rest ps hf _ ih =>
    generalize hs : p ++ sep ++ rest = s at h'
    cases h' with
    | whole h => subst hs; exact absurd ⟨_, hf.1⟩ h
    | @cut p' rest' ps' hf' hr' =>
      have e : p.length = p'.length := by
        apply le_antisymm
        · exact hf.2 _ (hs ▸ hf'.1)
        · exact hf'.2 _ (hs ▸ hf.1)
      rw [List.append_assoc, List.append_assoc] at hs
      obtain ⟨rfl, h2⟩ := List.append_inj hs e
      have h3 := List.append_cancel_left h2
      subst h3
      rw [ih hr']

/-- Replacing is gluing the pieces with the new text. -/
theorem replaceF_glue {old new : List Char} :
    ∀ (fuel : ℕ) (s : List Char), replaceF old new fuel s = glue new (splitF old fuel s) := by
  intro fuel
  induction fuel with
  | zero => intro s; rfl
  | succ fuel ih =>
    intro s
    unfold replaceF splitF
    cases find old s with
    | none => rfl
    | some k =>
      dsimp only
      rw [glue_cons, ih]
      cases fuel with
      | zero => simp [splitF]
      | succ f =>
        unfold splitF
        cases find old (s.drop (k + old.length)) <;> simp

/-! ## Order -/

theorem before_nil {a : List Char} : ¬ Precedes a [] := by
  rintro (⟨c, r, h⟩ | ⟨pre, c, d, r, r', -, h, -⟩) <;> simp at h

theorem nil_before {c : Char} {r : List Char} : Precedes [] (c :: r) := Or.inl ⟨c, r, rfl⟩

theorem before_cons {a b : Char} {as bs : List Char} :
    Precedes (a :: as) (b :: bs) ↔ a.toNat < b.toNat ∨ a = b ∧ Precedes as bs := by
  constructor
  · rintro (⟨c, r, h⟩ | ⟨pre, c, d, r, r', h, h', hcd⟩)
    · simp only [List.cons_append, List.cons.injEq] at h
      exact Or.inr ⟨h.1.symm, Or.inl ⟨c, r, h.2⟩⟩
    · cases pre with
      | nil =>
        simp only [List.nil_append, List.cons.injEq] at h h'
        rw [h.1, h'.1]
        exact Or.inl hcd
      | cons x pre =>
        simp only [List.cons_append, List.cons.injEq] at h h'
        exact Or.inr ⟨h.1.trans h'.1.symm, Or.inr ⟨pre, c, d, r, r', h.2, h'.2, hcd⟩⟩
  · rintro (h | ⟨rfl, ⟨c, r, rfl⟩ | ⟨pre, c, d, r, r', rfl, rfl, hcd⟩⟩)
    · exact Or.inr ⟨[], a, b, as, bs, rfl, rfl, h⟩
    · exact Or.inl ⟨c, r, rfl⟩
    · exact Or.inr ⟨a :: pre, c, d, r, r', rfl, rfl, hcd⟩

theorem less_iff {a b : List Char} : less a b = true ↔ Precedes a b := by
  induction a generalizing b with
  | nil =>
    cases b with
    | nil => simp [less, before_nil]
    | cons c r => simp [less, nil_before]
  | cons x a ih =>
    cases b with
    | nil => simp [less, before_nil]
    | cons y b =>
      rw [before_cons, less]
      by_cases h : x = y
      · subst h
        rw [if_pos rfl, ih]
        simp
      · rw [if_neg h]
        simp [h]

theorem char_toNat_inj {a b : Char} (h : a.toNat = b.toNat) : a = b := by
  apply Char.ext
  apply UInt32.toNat_inj.mp
  exact h

theorem before_trichotomy (a b : List Char) : Precedes a b ∨ a = b ∨ Precedes b a := by
  induction a generalizing b with
  | nil =>
    cases b with
    | nil => simp
    | cons c r => exact Or.inl nil_before
  | cons x a ih =>
    cases b with
    | nil => exact Or.inr (Or.inr nil_before)
    | cons y b =>
      rw [before_cons, before_cons]
      rcases lt_trichotomy x.toNat y.toNat with h | h | h
      · exact Or.inl (Or.inl h)
      · obtain rfl := char_toNat_inj h
        rcases ih b with h | rfl | h <;> simp [*]
      · exact Or.inr (Or.inr (Or.inl h))

theorem before_irrefl (a : List Char) : ¬ Precedes a a := by
  induction a with
  | nil => exact before_nil
  | cons x a ih => rw [before_cons]; simpa using ih

theorem before_trans {a b d : List Char} (h : Precedes a b) (h' : Precedes b d) : Precedes a d := by
  induction a generalizing b d with
  | nil =>
    cases d with
    | nil => exact absurd h' before_nil
    | cons c r => exact nil_before
  | cons x a ih =>
    cases b with
    | nil => exact absurd h before_nil
    | cons y b =>
      cases d with
      | nil => exact absurd h' before_nil
      | cons z d =>
        rw [before_cons] at h h' ⊢
        rcases h with h | ⟨rfl, h⟩ <;> rcases h' with h' | ⟨rfl, h'⟩
        · exact Or.inl (h.trans h')
        · exact Or.inl h
        · exact Or.inl h'
        · exact Or.inr ⟨rfl, ih h h'⟩

/-! ## Stripping -/

theorem dropWhile_spec {q : Char → Bool} (s : List Char) :
    ∃ pre, s = pre ++ s.dropWhile q ∧ (∀ c ∈ pre, q c = true) ∧
      ∀ c, (s.dropWhile q).head? = some c → q c = false := by
  refine ⟨s.takeWhile q, (List.takeWhile_append_dropWhile).symm, fun c hc => ?_, fun c hc => ?_⟩
  · exact List.all_eq_true.mp (List.all_takeWhile (l := s) (p := q)) c hc
  · have := List.head?_dropWhile_not q s
    rw [hc] at this
    simpa using this

theorem lstrip_spec (chars s : List Char) : StrippedLeft chars s (lstrip chars s) := by
  obtain ⟨pre, h1, h2, h3⟩ := dropWhile_spec (q := (chars.contains ·)) s
  exact ⟨pre, h1, fun c hc => by simpa using h2 c hc, fun c hc => by simpa using h3 c hc⟩

theorem rstrip_spec (chars s : List Char) : StrippedRight chars s (rstrip chars s) := by
  obtain ⟨pre, h1, h2, h3⟩ := dropWhile_spec (q := (chars.contains ·)) s.reverse
  refine ⟨pre.reverse, ?_, fun c hc => by simpa using h2 c (by simpa using hc), fun c hc => ?_⟩
  · have := congrArg List.reverse h1
    simpa [rstrip] using this
  · have := h3 c (by simpa [rstrip] using hc)
    simpa using this

/-! ## Calling -/

section calling
variable {S U R K σ : Type} {c : Calc S U R K} {op : Operation S U R σ} {T : Texts S U R}

/-- A value that is neither an array nor an exception. -/
def IsScalar (x : Opd S U R) : Prop := ∃ v, x.value = .sc v

theorem convertFrom_scalar {xs : List (Opd S U R)} (h : ∀ x ∈ xs, IsScalar x) (i : ℕ) :
    ∀ y ∈ convertFrom c op i xs, IsScalar y := by
  induction xs generalizing i with
  | nil => simp [convertFrom]
  | cons x xs ih =>
    intro y hy
    unfold convertFrom at hy
    rcases List.mem_cons.mp hy with rfl | hy
    · split
      · exact ⟨_, rfl⟩
      · exact h x (by simp)
    · exact ih (fun x hx => h x (by simp [hx])) _ y hy

theorem normaliseArrays_scalar {xs : List (Opd S U R)} (h : ∀ x ∈ xs, IsScalar x) (i : ℕ)
    (ru : Option U) (k : Option K) : normaliseArrays c op i ru k xs = .ok (xs, ru, k) := by
  induction xs generalizing i with
  | nil => rfl
  | cons x xs ih =>
    obtain ⟨v, hv⟩ := h x (by simp)
    unfold normaliseArrays
    rw [hv]
    dsimp only
    rw [ih (fun x hx => h x (by simp [hx]))]

theorem spreads_scalar {xs : List (Opd S U R)} (h : ∀ x ∈ xs, IsScalar x) (i : ℕ) :
    spreads op i xs = [] := by
  induction xs generalizing i with
  | nil => rfl
  | cons x xs ih =>
    obtain ⟨v, hv⟩ := h x (by simp)
    unfold spreads spread
    rw [hv]
    exact ih (fun x hx => h x (by simp [hx])) _

/-- A call with scalars that are not all numbers. -/
theorem call_mixed {xs : List (Opd S U R)} (hsc : ∀ x ∈ xs, IsScalar x)
    (hmust : op.mustBe 0 "array" none = false) (hno : op.canBeExc = false)
    (hval : validate c op xs = .ok ()) (hci : op.convertIn = true)
    (hnum : numbersFrom c op 0 (convertFrom c op 0 xs) = none) (s : σ) :
    call c op xs s = match op.ref (convertFrom c op 0 xs) s with
      | (.error e, s') => (.error (wrap c op xs e), s')
      | (.ok res, s') => let r := finishResult c op none (castOf c op xs) res
        (.ok r, op.after (convertFrom c op 0 xs) r s') := by
  rw [call_direct (spreads_scalar hsc 0) (by simp [hmust]) hno
    (by intro x hx; obtain ⟨v, hv⟩ := hsc x hx; rw [hv]; rfl)]
  have hprep : prepare c op xs = .ok (convertFrom c op 0 xs, none, castOf c op xs) := by
    unfold prepare
    simp only [hci, if_true, hnum]
    exact normaliseArrays_scalar (convertFrom_scalar hsc 0) _ _ _
  simp only [attempt, hval, hprep]
  cases op.ref (convertFrom c op 0 xs) s with
  | mk r s' => cases r <;> rfl

/-- The calculator has the strings of `T` among its values. -/
structure HasStrings (c : Calc S U R K) (T : Texts S U R) : Prop where
  string : c.validator "string" = some (validateString T)
  number : c.validator "number" = some (validateNumber c)
  array : c.validator "array" = some (validateArray c)
  /-- A string is read back as it was made. -/
  back : ∀ t, T.text? (T.ofText t) = some t
  /-- Strings are not numbers. -/
  notNumber : ∀ t, c.isNumber (T.ofText t) = false

/-- The operand `x` reads as the text `t`: it is the string `t`, or something that is shown
as `t`. -/
def ReadsAs (T : Texts S U R) (x : Opd S U R) (t : List Char) : Prop :=
  IsScalar x ∧ string T x.value = .ok t

/-- The operand `x` is a string, with text `t`. -/
def IsString (T : Texts S U R) (x : Opd S U R) (t : List Char) : Prop :=
  ∃ v, x.value = .sc v ∧ T.text? v = some t

theorem IsString.raw {x : Opd S U R} {t : List Char} (h : IsString T x t) :
    rawText T x.value = some t := by
  obtain ⟨v, hv, ht⟩ := h
  rw [hv]
  exact ht

theorem IsString.reads {x : Opd S U R} {t : List Char} (h : IsString T x t) : ReadsAs T x t :=
  ⟨h.imp fun _ h => h.1, by simp [string, h.raw]⟩

/-- The operand `x` is, or can be converted to, the integer `z`. -/
def IsInt (c : Calc S U R K) (T : Texts S U R) (p : ℕ) (x : Opd S U R) (z : ℤ) : Prop :=
  ∃ v w n, x.value = .sc v ∧ c.number v = some w ∧ T.num? w = some n ∧ n.toInt p = z

theorem validString {x : Opd S U R} {t : List Char} (hc : HasStrings c T) (h : ReadsAs T x t) :
    validateInput c (.ty "string") x = .ok true := by
  simp [validateInput, hc.string, validateString, h.2]

theorem validNumber {x : Opd S U R} {z : ℤ} {p : ℕ} (hc : HasStrings c T) (h : IsInt c T p x z) :
    validateInput c (.ty "number") x = .ok true := by
  obtain ⟨v, w, n, hv, hw, -, -⟩ := h
  simp [validateInput, hc.number, validateNumber, asNumber, hv, hw]

theorem texts_convert {name : String} {n : ℕ} {ref : List (Opd S U R) → Act σ (OpResult S U R)}
    (xs : List (Opd S U R)) (i : ℕ) : convertFrom c (textsOp name n ref) i xs = xs := by
  induction xs generalizing i with
  | nil => rfl
  | cons x xs ih =>
    unfold convertFrom
    rw [ih]
    simp [convertible, textsOp]

theorem texts_check {name : String} {n : ℕ} {ref : List (Opd S U R) → Act σ (OpResult S U R)}
    (hc : HasStrings c T) {xs : List (Opd S U R)} (h : ∀ x ∈ xs, ∃ t, ReadsAs T x t) (i : ℕ) :
    checkFrom c (textsOp name n ref) ⟨0, none, [.ty "string"]⟩ i xs = .ok () := by
  induction xs generalizing i with
  | nil => rfl
  | cons x xs ih =>
    obtain ⟨t, ht⟩ := h x (by simp)
    unfold checkFrom
    simp only [Operation.applies, Nat.zero_le, decide_true, Bool.and_self, if_true, anyType,
      validString hc ht]
    exact ih (fun x hx => h x (by simp [hx])) _

/-- A call of an operation of strings. -/
theorem call_texts {name : String} {n : ℕ} {ref : List (Opd S U R) → Act σ (OpResult S U R)}
    (hc : HasStrings c T) {xs : List (Opd S U R)} (hn : xs.length = n) (h0 : 0 < n)
    (h : ∀ x ∈ xs, ∃ t, ReadsAs T x t) (s : σ) :
    call c (textsOp name n ref) xs s = match ref xs s with
      | (.error e, s') => (.error (wrap c (textsOp name n ref) xs e), s')
      | (.ok res, s') => (.ok (finishResult c (textsOp name n ref) none none res), s') := by
  have hval : validate c (textsOp name n ref) xs = .ok () := by
    unfold validate
    have := texts_check (name := name) (n := n) (ref := ref) hc h 0
    simp [textsOp, hn, checkValues, checkUnits] at this ⊢
    rw [this]
  rw [call_mixed (fun x hx => (h x hx).choose_spec.1)
    (by simp [textsOp, Operation.mustBe, Operation.onlyType, Operation.applies, ObjType.main]) rfl hval rfl
    (by
      rw [texts_convert]
      cases xs with
      | nil => simp at hn; omega
      | cons x xs =>
        obtain ⟨v, hv⟩ := (h x (by simp)).choose_spec.1
        simp [numbersFrom, hv, textsOp, Operation.canBe, Operation.applies, ObjType.main])]
  rw [texts_convert]
  have : castOf c (textsOp name n ref) xs = none := by simp [castOf, textsOp]
  rw [this]
  rfl

theorem finish_text {k : Option K} {t : List Char} (hc : HasStrings c T) :
    finishResult c op none k { value := .sc (T.ofText t) } = Opd.pure (.sc (T.ofText t)) := by
  unfold finishResult
  cases k <;> simp [hc.notNumber, Opd.pure]

end calling

end MC.Strings
