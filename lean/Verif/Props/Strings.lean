import Verif.Lemmas.Strings
import Verif.Props.Arrays

/-! # C54, C55: strings; C62: regular expressions -/

set_option linter.unusedSectionVars false

namespace MC.Props
open MC.Spec MC.Strings MC.Arrays MC.Boolean

section
variable {S U R K σ : Type} {c : Calc S U R K} {T : Texts S U R} {p : ℕ}

/-- The string `t` as a result: no unit, no reference. -/
def strV (T : Texts S U R) (t : List Char) : Opd S U R := Opd.pure (.sc (T.ofText t))

theorem strV_string (hc : HasStrings c T) (t : List Char) : IsString T (strV T t) t :=
  ⟨_, rfl, hc.back t⟩

/-- A list of operands reads as a list of texts. -/
def ReadAll (T : Texts S U R) (xs : List (Opd S U R)) (ts : List (List Char)) : Prop :=
  List.Forall₂ (ReadsAs T) xs ts

/-! ## C54 -/

theorem call_split (hc : HasStrings c T) {x y : Opd S U R} {t sep : List Char}
    (hx : ReadsAs T x t) (hy : ReadsAs T y sep) (hsep : sep ≠ []) (s : σ) :
    call c (opSplit T) [x, y] s = (.ok (arrayOf ((splitF sep t.length t).map (strV T))), s) := by
  rw [opSplit, call_texts hc (by rfl) (by norm_num)
    (by intro z hz; simp at hz; rcases hz with rfl | rfl; exacts [⟨_, hx⟩, ⟨_, hy⟩])]
  simp [two, hx.2, hy.2, bind, Except.bind, split, hsep, pure, Except.pure, finishResult, arrayOf,
    restore, Opd.pure, strV]

/-- **C54**: `split` gives the pieces of the text between the occurrences of the separator,
found from the left, as strings. -/
theorem C54_split (hc : HasStrings c T) {x y : Opd S U R} {t sep : List Char}
    (hx : ReadsAs T x t) (hy : ReadsAs T y sep) (hsep : sep ≠ []) (s : σ) :
    ∃ parts, call c (opSplit T) [x, y] s = (.ok (arrayOf (parts.map (strV T))), s) ∧
      Pieces sep t parts ∧ (∀ q ∈ parts, ¬ Contains sep q) ∧ glue sep parts = t :=
  have h := splitF_pieces hsep t.length t le_rfl
  ⟨_, call_split hc hx hy hsep s, h, Pieces.clean hsep h, Pieces.glue h⟩

/-- **C54**: an empty separator is an error. -/
theorem C54_split_empty (hc : HasStrings c T) {x y : Opd S U R} {t : List Char}
    (hx : ReadsAs T x t) (hy : ReadsAs T y []) (s : σ) :
    ∃ e, call c (opSplit T) [x, y] s = (.error e, s) := by
  rw [opSplit, call_texts hc (by rfl) (by norm_num)
    (by intro z hz; simp at hz; rcases hz with rfl | rfl; exacts [⟨_, hx⟩, ⟨_, hy⟩])]
  simp [two, hx.2, hy.2, bind, Except.bind, split]

theorem validStrings (hc : HasStrings c T) {els : List (Opd S U R)} {ts : List (List Char)}
    (h : ReadAll T els ts) {x : Opd S U R} (hx : x.value = .arr els) :
    validateArray c x (some "string") = .ok true := by
  unfold validateArray
  rw [hx]
  dsimp only
  clear hx
  induction h with
  | nil => rfl
  | cons h _ ih =>
    unfold validateArray.go
    rw [hc.string]
    simp only [validateString, h.2]
    exact ih

theorem strings_read {els : List (Opd S U R)} {ts : List (List Char)} (h : ReadAll T els ts) :
    strings T els = .ok ts := by
  induction h with
  | nil => rfl
  | cons h _ ih => simp [strings, h.2, ih, bind, Except.bind, pure, Except.pure]

/-- A call of `join`. -/
theorem call_join (hc : HasStrings c T) {x : Opd S U R} {ys els : List (Opd S U R)}
    {ts : List (List Char)} (hx : x.value = .arr els) (h : ReadAll T els ts)
    (hl : ys.length ≤ 1) (hy : ∀ y ∈ ys, ∃ t, ReadsAs T y t) (s : σ) :
    call c (opJoin T) (x :: ys) s = match (opJoin T).ref (x :: ys) s with
      | (.error e, s') => (.error (wrap c (opJoin (σ := σ) T) (x :: ys) e), s')
      | (.ok res, s') => (.ok (finishResult c (opJoin (σ := σ) T) none none res), s') := by
  have hcan : (opJoin (σ := σ) T).canBe 0 "array" = true := by
    simp [opJoin, Operation.canBe, Operation.applies, ObjType.main]
  have hys : ∀ y ∈ ys, IsScalar y := fun y h => (hy y h).choose_spec.1
  rw [call_direct (by simp [spreads, spread_array hcan, spreads_scalar hys])
    (by simp [opJoin]) rfl
    (by
      intro z hz
      rcases List.mem_cons.mp hz with rfl | hz
      · rw [hx]; rfl
      · obtain ⟨v, hv⟩ := hys z hz
        rw [hv]; rfl)]
  have hval : validate c (opJoin (σ := σ) T) (x :: ys) = .ok () := by
    have h7 := validStrings hc h hx
    unfold validate
    match ys, hl with
    | [], _ =>
      simp [opJoin, checkValues, checkFrom, Operation.applies, anyType, validateInput, hc.array,
        h7, checkUnits]
    | [y], _ =>
      obtain ⟨t, ht⟩ := hy y (by simp)
      have := validString hc ht
      simp only [validateInput, hc.string] at this
      simp [opJoin, checkValues, checkFrom, Operation.applies, anyType, validateInput, hc.array,
        h7, checkUnits, hc.string, this]
  have hconv : convertFrom c (opJoin (σ := σ) T) 0 (x :: ys) = x :: ys := by
    have : ∀ i, convertible (opJoin (σ := σ) T) i = false := by simp [convertible, opJoin]
    have h2 : ∀ (l : List (Opd S U R)) (i : ℕ), convertFrom c (opJoin (σ := σ) T) i l = l := by
      intro l
      induction l with
      | nil => intro i; rfl
      | cons a l ih => intro i; simp [convertFrom, this, ih]
    exact h2 _ _
  have hcast : castOf c (opJoin (σ := σ) T) (x :: ys) = none := by
    simp [castOf, opJoin]
  have hnum : numbersFrom c (opJoin (σ := σ) T) 0 (x :: ys) = none := by
    simp [numbersFrom, hx]
  have hmust : (opJoin (σ := σ) T).mustBe 0 "array" (some "number") = false := by
    simp [opJoin, Operation.mustBe, Operation.applies, Operation.onlyType, ObjType.main,
      ObjType.subType]
  have hprep : prepare c (opJoin (σ := σ) T) (x :: ys) = .ok (x :: ys, none, none) := by
    unfold prepare
    simp only [hconv, hcast, ite_self, hnum]
    simp [normaliseArrays, hx, hmust, normaliseArrays_scalar hys]
  simp only [attempt, hval, hprep]
  cases (opJoin (σ := σ) T).ref (x :: ys) s with
  | mk r s' => cases r <;> rfl

/-- **C54**: `join` of an array with a string as delimiter is the texts of the elements with
the delimiter between them. -/
theorem C54_join (hc : HasStrings c T) {x y : Opd S U R} {els : List (Opd S U R)}
    {ts : List (List Char)} {d : List Char} (hx : x.value = .arr els) (h : ReadAll T els ts)
    (hy : IsString T y d) (s : σ) :
    call c (opJoin T) [x, y] s = (.ok (strV T (glue d ts)), s) := by
  rw [call_join hc hx h (by simp) (by intro z hz; simp at hz; subst hz; exact ⟨_, hy.reads⟩)]
  simp [opJoin, arrayAt, hx, strings_read h, bind, Except.bind, hy.raw, textResult,
    join_eq_glue, finish_text hc, strV]

/-- **C54**: without delimiter the texts are put together directly. -/
theorem C54_join_plain (hc : HasStrings c T) {x : Opd S U R} {els : List (Opd S U R)}
    {ts : List (List Char)} (hx : x.value = .arr els) (h : ReadAll T els ts) (s : σ) :
    call c (opJoin T) [x] s = (.ok (strV T ts.flatten), s) := by
  rw [call_join hc hx h (by simp) (by simp)]
  have : ∀ ts : List (List Char), glue [] ts = ts.flatten := by
    intro ts
    induction ts with
    | nil => rfl
    | cons t ts ih =>
      cases ts with
      | nil => simp [glue]
      | cons u ts => rw [glue, ih]; simp
  simp [opJoin, arrayAt, hx, strings_read h, bind, Except.bind, textResult,
    join_eq_glue, finish_text hc, strV, this]

theorem readAll_strV (hc : HasStrings c T) (ts : List (List Char)) :
    ReadAll T (ts.map (strV T)) ts := by
  induction ts with
  | nil => exact .nil
  | cons t ts ih => exact .cons (strV_string hc t).reads ih

/-- **C54**: joining what a split by a non-empty string gave, with the same string, gives the
text back. -/
theorem C54_split_join (hc : HasStrings c T) {x y : Opd S U R} {t sep : List Char}
    (hx : ReadsAs T x t) (hy : IsString T y sep) (hsep : sep ≠ []) (s : σ) :
    ∃ r, call c (opSplit T) [x, y] s = (.ok r, s) ∧
      call c (opJoin T) [r, y] s = (.ok (strV T t), s) := by
  refine ⟨_, call_split hc hx hy.reads hsep s, ?_⟩
  rw [C54_join hc rfl (readAll_strV hc _) hy, Pieces.glue (splitF_pieces hsep _ _ le_rfl)]

theorem pieces_glue_char {d : Char} {ts : List (List Char)} (hne : ts ≠ [])
    (h : ∀ q ∈ ts, d ∉ q) : Pieces [d] (glue [d] ts) ts := by
  have hnot : ∀ {q : List Char}, d ∉ q → ¬ Contains [d] q := by
    rintro q hq ⟨k, a, b, rfl, -⟩
    simp at hq
  induction ts with
  | nil => exact absurd rfl hne
  | cons q ts ih =>
    have hq := h q (by simp)
    by_cases hts : ts = []
    · subst hts
      exact .whole (hnot hq)
    · rw [glue_cons hts]
      refine .cut ⟨⟨q, glue [d] ts, rfl, rfl⟩, ?_⟩ (ih hts (fun r hr => h r (by simp [hr])))
      rintro j ⟨a, b, heq, rfl⟩
      by_contra hlt
      apply hq
      have h1 := congrArg (fun l => l[a.length]?) heq
      simp only [List.append_assoc] at h1
      rw [List.getElem?_append_left (by omega), List.getElem?_append_right le_rfl] at h1
      simp at h1
      exact List.mem_of_getElem? h1

/-- **C54**, the other direction for a one-character separator: splitting what was joined gives
the parts back, if there is at least one and none contains the separator. -/
theorem C54_join_split (hc : HasStrings c T) {x y : Opd S U R} {els : List (Opd S U R)}
    {ts : List (List Char)} {d : Char} (hx : x.value = .arr els) (h : ReadAll T els ts)
    (hne : ts ≠ []) (hd : ∀ q ∈ ts, d ∉ q) (hy : IsString T y [d]) (s : σ) :
    ∃ r, call c (opJoin T) [x, y] s = (.ok r, s) ∧
      call c (opSplit T) [r, y] s = (.ok (arrayOf (ts.map (strV T))), s) := by
  refine ⟨_, C54_join hc hx h hy s, ?_⟩
  rw [call_split hc (strV_string hc _).reads hy.reads (by simp)]
  rw [Pieces.unique (splitF_pieces (by simp) _ _ le_rfl) (pieces_glue_char hne hd)]

/-- **C54, exception**: the separator may be something else than a string for `split`, which
takes the text it is shown as, but not for `join`, which raises. -/
theorem C54_number_separator_violation (hc : HasStrings c T) {x y : Opd S U R} {t sep : List Char}
    (hx : ReadsAs T x t) (hy : ReadsAs T y sep) (hsep : sep ≠ []) (hraw : rawText T y.value = none)
    (s : σ) :
    ∃ r e, call c (opSplit T) [x, y] s = (.ok r, s) ∧ call c (opJoin T) [r, y] s = (.error e, s) := by
  refine ⟨_, wrap c (opJoin (σ := σ) T) [arrayOf ((splitF sep t.length t).map (strV T)), y]
    (.py "AttributeError"), call_split hc hx hy hsep s, ?_⟩
  rw [call_join hc rfl (readAll_strV hc _) (by simp)
    (by intro z hz; simp at hz; subst hz; exact ⟨_, hy⟩)]
  simp [opJoin, arrayAt, arrayOf, strings_read (readAll_strV hc _), bind, Except.bind, hraw]

/-! ## C55: concatenation, repetition, length -/

/-- **C55**: `a +$ b` is the text of `a` followed by that of `b`. -/
theorem C55_append (hc : HasStrings c T) {x y : Opd S U R} {a b : List Char}
    (hx : ReadsAs T x a) (hy : ReadsAs T y b) (s : σ) :
    call c (opAppend T) [x, y] s = (.ok (strV T (a ++ b)), s) := by
  rw [opAppend, call_texts hc (by rfl) (by norm_num)
    (by intro z hz; simp at hz; rcases hz with rfl | rfl; exacts [⟨_, hx⟩, ⟨_, hy⟩])]
  simp [two, hx.2, hy.2, bind, Except.bind, textResult, finish_text hc, strV]

/-- **C55**: `length(a)` is the number of characters. -/
theorem C55_length (hc : HasStrings c T) (hp : 1 ≤ p) {x : Opd S U R} {a : List Char}
    (hx : ReadsAs T x a) (s : σ) :
    call c (opLength T p) [x] s = (.ok (Opd.pure (.sc (T.ofNum ⟨a.length, 1⟩))), s) := by
  rw [opLength, call_texts hc (by rfl) (by norm_num)
    (by intro z hz; simp at hz; subst hz; exact ⟨_, hx⟩)]
  have := Number.ofInt_eq hp (a.length : ℤ)
  simp [one, hx.2, bind, Except.bind, intResult, this, liftErr, pure, Except.pure, finishResult, Opd.pure]

/-- **C55**: the length of `a +$ b` is the sum of the lengths. -/
theorem C55_length_append (hc : HasStrings c T) (hp : 1 ≤ p) {x y : Opd S U R} {a b : List Char}
    (hx : ReadsAs T x a) (hy : ReadsAs T y b) (s : σ) :
    ∃ r, call c (opAppend T) [x, y] s = (.ok r, s) ∧
      call c (opLength T p) [r] s = (.ok (Opd.pure (.sc (T.ofNum ⟨a.length + b.length, 1⟩))), s) := by
  refine ⟨_, C55_append hc hx hy s, ?_⟩
  rw [C55_length hc hp (strV_string hc _).reads]
  simp

/-- The operand `z` is `y` with its value converted to a number. -/
def Converted (c : Calc S U R K) (y z : Opd S U R) : Prop :=
  ∃ v w, y.value = .sc v ∧ c.number v = some w ∧ z = { y with value := .sc w }

theorem converted_one {y : Opd S U R} {zs : List (Opd S U R)}
    (h : List.Forall₂ (Converted c) [y] zs) : ∃ z, zs = [z] ∧ Converted c y z := by
  cases h with
  | cons h t => cases t; exact ⟨_, rfl, h⟩

theorem converted_two {y y' : Opd S U R} {zs : List (Opd S U R)}
    (h : List.Forall₂ (Converted c) [y, y'] zs) :
    ∃ z z', zs = [z, z'] ∧ Converted c y z ∧ Converted c y' z' := by
  cases h with
  | cons h t =>
    obtain ⟨z, rfl, h'⟩ := converted_one t
    exact ⟨_, _, rfl, h, h'⟩

theorem call_number2 (hc : HasStrings c T) {name : String}
    {ref : List (Opd S U R) → Act σ (OpResult S U R)} {last : ℕ} {maxp : ℕ} {x : Opd S U R}
    {ys : List (Opd S U R)} {a : List Char} (hx : ReadsAs T x a) (hne : ys ≠ [])
    (hlast : 1 ≤ last) (hl : ys.length ≤ last) (hmax : 1 + ys.length ≤ maxp)
    (hy : ∀ y ∈ ys, ∃ z, IsInt c T p y z) (s : σ) :
    ∃ (k : Option K) (zs : List (Opd S U R)),
      List.Forall₂ (Converted c) ys zs ∧
      call c (⟨name, some 2, some maxp,
        [⟨0, some 0, [.ty "string"]⟩, ⟨1, some last, [.ty "number"]⟩], [], false, false, true, false,
        true, true, ref, fun _ _ s => s⟩ : Operation S U R σ) (x :: ys) s =
      match ref (x :: zs) s with
      | (.error e, s') => (.error (wrap c (⟨name, some 2, some maxp,
        [⟨0, some 0, [.ty "string"]⟩, ⟨1, some last, [.ty "number"]⟩], [], false, false, true, false,
        true, true, ref, fun _ _ s => s⟩ : Operation S U R σ) (x :: ys) e), s')
      | (.ok res, s') => (.ok (finishResult c (⟨name, some 2, some maxp,
        [⟨0, some 0, [.ty "string"]⟩, ⟨1, some last, [.ty "number"]⟩], [], false, false, true, false,
        true, true, ref, fun _ _ s => s⟩ : Operation S U R σ) none k res), s') := by
  set op : Operation S U R σ := ⟨name, some 2, some maxp,
        [⟨0, some 0, [.ty "string"]⟩, ⟨1, some last, [.ty "number"]⟩], [], false, false, true, false,
        true, true, ref, fun _ _ s => s⟩ with hop
  have hsc : ∀ z ∈ x :: ys, IsScalar z := by
    intro z hz
    rcases List.mem_cons.mp hz with rfl | hz
    · exact hx.1
    · obtain ⟨_, v, _, _, hv, -⟩ := hy z hz
      exact ⟨v, hv⟩
  have hcheck : ∀ (l : List (Opd S U R)) (i : ℕ), 1 ≤ i → (∀ y ∈ l, ∃ z, IsInt c T p y z) →
      checkFrom c op ⟨1, some last, [.ty "number"]⟩ i l = .ok () ∧
      checkFrom c op ⟨0, some 0, [.ty "string"]⟩ i l = .ok () := by
    intro l
    induction l with
    | nil => intros; exact ⟨rfl, rfl⟩
    | cons y l ih =>
      intro i hi h
      obtain ⟨z, hz⟩ := h y (by simp)
      obtain ⟨h1, h2⟩ := ih (i + 1) (by omega) (fun y hy => h y (by simp [hy]))
      constructor
      · unfold checkFrom
        rw [h1]
        simp only [anyType, validNumber hc hz]
        split <;> rfl
      · unfold checkFrom
        have : ¬ i ≤ 0 := by omega
        simp [Operation.applies, this, h2]
  have hval : validate c op (x :: ys) = .ok () := by
    obtain ⟨h1, h2⟩ := hcheck ys 1 le_rfl hy
    have hpos : 0 < ys.length := List.length_pos_iff.mpr hne
    unfold validate
    have e1 : ¬ (x :: ys).length < 2 := by simp; omega
    have e2 : ¬ maxp < (x :: ys).length := by simp; omega
    simp only [hop, Option.any_some, e1, e2, decide_false, Bool.false_eq_true, if_false]
    simp only [← hop, checkValues]
    have e3 : checkFrom c op ⟨0, some 0, [.ty "string"]⟩ 0 (x :: ys) = .ok () := by
      unfold checkFrom
      simp [Operation.applies, anyType, validString hc hx, h2]
    have e4 : checkFrom c op ⟨1, some last, [.ty "number"]⟩ 0 (x :: ys) = .ok () := by
      unfold checkFrom
      simp [Operation.applies, h1]
    rw [e3, e4]
    rfl
  have hconv : ∀ (l : List (Opd S U R)) (i : ℕ), 1 ≤ i → i + l.length ≤ last + 1 →
      (∀ y ∈ l, ∃ z, IsInt c T p y z) →
      List.Forall₂ (Converted c) l (convertFrom c op i l) := by
    intro l
    induction l with
    | nil => intros; exact .nil
    | cons y l ih =>
      intro i hi hl h
      obtain ⟨z, v, w, n, hv, hw, -, -⟩ := h y (by simp)
      unfold convertFrom
      simp only [List.length_cons] at hl
      refine .cons ⟨v, w, hv, hw, ?_⟩ (ih (i + 1) (by omega) (by omega) (fun y hy => h y (by simp [hy])))
      have : convertible op i = true := by
        have : i ≤ last := by omega
        simp [convertible, hop, Operation.applies, hi, this]
      simp [this, asNumber, hv, hw]
  have hconv0 : convertFrom c op 0 (x :: ys) = x :: convertFrom c op 1 ys := by
    have : convertible op 0 = false := by simp [convertible, hop, Operation.applies]
    simp [convertFrom, this]
  refine ⟨castOf c op (x :: ys), convertFrom c op 1 ys, hconv ys 1 le_rfl (by omega) hy, ?_⟩
  obtain ⟨v, hv⟩ := hx.1
  rw [call_mixed hsc (by simp [hop, Operation.mustBe, Operation.applies, Operation.onlyType, ObjType.main])
    rfl hval rfl
    (by
      rw [hconv0]
      simp [numbersFrom, hv, hop, Operation.canBe, Operation.applies, ObjType.main]), hconv0]
  rfl

theorem numberOf_converted {y z : Opd S U R} {i : ℤ} (hi : IsInt c T p y i)
    (h : Converted c y z) :
    ∃ n, numberOf T.num? z = .ok n ∧ n.toInt p = i := by
  obtain ⟨v, w, n, hv, hw, hn, hz⟩ := hi
  obtain ⟨v', w', hv', hw', rfl⟩ := h
  rw [hv] at hv'
  cases hv'
  rw [hw] at hw'
  cases hw'
  exact ⟨n, by simp [numberOf, hn], hz⟩

/-- **C55**: `a *$ n` is `n` copies of the text of `a`, none if `n` is negative. -/
theorem C55_repeat (hc : HasStrings c T) {x y : Opd S U R} {a : List Char} {n : ℤ}
    (hx : ReadsAs T x a) (hy : IsInt c T p y n) (s : σ) :
    call c (opRepeat T p) [x, y] s = (.ok (strV T (List.replicate n.toNat a).flatten), s) := by
  obtain ⟨k, zs, hzs, hcall⟩ := call_number2 (p := p) (name := "operator *$") (last := 1) (maxp := 2)
    (ref := (opRepeat (σ := σ) T p).ref) hc hx (ys := [y]) (by simp) le_rfl (by simp) (by simp)
    (by intro z hz; simp at hz; subst hz; exact ⟨_, hy⟩) s
  obtain ⟨z, rfl, hz⟩ := converted_one hzs
  obtain ⟨m, hm, hmn⟩ := numberOf_converted hy hz
  refine (hcall : call c (opRepeat T p) [x, y] s = _).trans ?_
  simp [opRepeat, two, hx.2, hm, bind, Except.bind, textResult, finish_text hc, strV, repeated, hmn]

/-- **C55**: the length of `a *$ n` is `n` times the length of `a`, for `n` at least 0. -/
theorem C55_length_repeat (hc : HasStrings c T) (hp : 1 ≤ p) {x y : Opd S U R} {a : List Char} {n : ℕ}
    (hx : ReadsAs T x a) (hy : IsInt c T p y n) (s : σ) :
    ∃ r, call c (opRepeat T p) [x, y] s = (.ok r, s) ∧
      call c (opLength T p) [r] s = (.ok (Opd.pure (.sc (T.ofNum ⟨n * a.length, 1⟩))), s) := by
  refine ⟨_, C55_repeat hc hx hy s, ?_⟩
  rw [C55_length hc hp (strV_string hc _).reads]
  simp [List.length_flatten]

/-! ## C55: comparison -/

/-- The operation answers `true` exactly if `P`. -/
def Answers (c : Calc S U R K) (T : Texts S U R) (op : Operation S U R σ) (x y : Opd S U R)
    (P : Prop) : Prop :=
  ∀ s, ∃ b, call c op [x, y] s = (.ok (Opd.pure (.sc (T.ofBool b))), s) ∧ (b = true ↔ P)

theorem compare_answers (hc : HasStrings c T) {name : String} {f : List Char → List Char}
    {test : List Char → List Char → Bool} {P : Prop} {x y : Opd S U R} {a b : List Char}
    (hx : ReadsAs T x a) (hy : ReadsAs T y b) (hP : test (f a) (f b) = true ↔ P) :
    Answers c T (compareOp (σ := σ) T name f test) x y P := by
  intro s
  refine ⟨test (f a) (f b), ?_, hP⟩
  rw [compareOp, call_texts hc (by rfl) (by norm_num)
    (by intro z hz; simp at hz; rcases hz with rfl | rfl; exacts [⟨_, hx⟩, ⟨_, hy⟩])]
  simp [two, hx.2, hy.2, bind, Except.bind, boolResult, finishResult, Opd.pure]

theorem not_less_iff {a b : List Char} : (!less b a) = true ↔ Precedes a b ∨ a = b := by
  rw [Bool.not_eq_true', ← Bool.not_eq_true, less_iff]
  constructor
  · intro h
    rcases before_trichotomy a b with h' | h' | h'
    · exact .inl h'
    · exact .inr h'
    · exact absurd h' h
  · rintro (h | rfl) h'
    · exact before_irrefl _ (before_trans h h')
    · exact before_irrefl _ h'

/-- **C55**: the comparisons with `$` compare in dictionary order by code points. -/
theorem C55_compare (hc : HasStrings c T) {x y : Opd S U R} {a b : List Char}
    (hx : ReadsAs T x a) (hy : ReadsAs T y b) :
    Answers c T (opLess (σ := σ) T) x y (Precedes a b) ∧
    Answers c T (opMore (σ := σ) T) x y (Precedes b a) ∧
    Answers c T (opLessEq (σ := σ) T) x y (Precedes a b ∨ a = b) ∧
    Answers c T (opMoreEq (σ := σ) T) x y (Precedes b a ∨ a = b) ∧
    Answers c T (opEqual (σ := σ) T) x y (a = b) ∧
    Answers c T (opUnequal (σ := σ) T) x y (a ≠ b) :=
  ⟨compare_answers hc hx hy less_iff, compare_answers hc hx hy less_iff,
    compare_answers hc hx hy not_less_iff,
    compare_answers hc hx hy (not_less_iff.trans (or_congr Iff.rfl eq_comm)),
    compare_answers hc hx hy (by simp), compare_answers hc hx hy (by simp)⟩

/-- **C55**: the comparisons with `~` do the same on the texts in lower case. -/
theorem C55_compare_caseless (hc : HasStrings c T) {x y : Opd S U R} {a b : List Char}
    (hx : ReadsAs T x a) (hy : ReadsAs T y b) :
    Answers c T (opLessNc (σ := σ) T) x y (Precedes (T.lower a) (T.lower b)) ∧
    Answers c T (opMoreNc (σ := σ) T) x y (Precedes (T.lower b) (T.lower a)) ∧
    Answers c T (opLessEqNc (σ := σ) T) x y (Precedes (T.lower a) (T.lower b) ∨ T.lower a = T.lower b) ∧
    Answers c T (opMoreEqNc (σ := σ) T) x y (Precedes (T.lower b) (T.lower a) ∨ T.lower a = T.lower b) ∧
    Answers c T (opEqualNc (σ := σ) T) x y (T.lower a = T.lower b) ∧
    Answers c T (opUnequalNc (σ := σ) T) x y (T.lower a ≠ T.lower b) :=
  ⟨compare_answers hc hx hy less_iff, compare_answers hc hx hy less_iff,
    compare_answers hc hx hy not_less_iff,
    compare_answers hc hx hy (not_less_iff.trans (or_congr Iff.rfl eq_comm)),
    compare_answers hc hx hy (by simp), compare_answers hc hx hy (by simp)⟩

/-- **C55**: dictionary order is a total order of all texts. -/
theorem C55_total_order (a b d : List Char) :
    (Precedes a b ∨ a = b ∨ Precedes b a) ∧ ¬ Precedes a a ∧ (Precedes a b → ¬ Precedes b a) ∧
      (Precedes a b → Precedes b d → Precedes a d) :=
  ⟨before_trichotomy a b, before_irrefl a, fun h h' => before_irrefl a (before_trans h h'),
    before_trans⟩

/-! ## C55: finding, replacing, stripping -/

/-- **C55**: `find` gives the position of the first occurrence, counted from 0. -/
theorem C55_find (hc : HasStrings c T) (hp : 1 ≤ p) {x y : Opd S U R} {a b : List Char} {k : ℕ}
    (hx : ReadsAs T x a) (hy : ReadsAs T y b) (hk : FirstAt b a k) (s : σ) :
    call c (opFind T p) [x, y] s = (.ok (Opd.pure (.sc (T.ofNum ⟨k, 1⟩))), s) := by
  rw [opFind, call_texts hc (by rfl) (by norm_num)
    (by intro z hz; simp at hz; rcases hz with rfl | rfl; exacts [⟨_, hx⟩, ⟨_, hy⟩])]
  have := Number.ofInt_eq hp (k : ℤ)
  simp [two, hx.2, hy.2, bind, Except.bind, intResult, this, liftErr, pure, Except.pure, finishResult,
    Opd.pure, find_some.mpr hk]

/-- **C55**: `find` gives -1 if there is no occurrence. -/
theorem C55_find_absent (hc : HasStrings c T) (hp : 1 ≤ p) {x y : Opd S U R} {a b : List Char}
    (hx : ReadsAs T x a) (hy : ReadsAs T y b) (hk : ¬ Contains b a) (s : σ) :
    call c (opFind T p) [x, y] s = (.ok (Opd.pure (.sc (T.ofNum ⟨-1, 1⟩))), s) := by
  rw [opFind, call_texts hc (by rfl) (by norm_num)
    (by intro z hz; simp at hz; rcases hz with rfl | rfl; exacts [⟨_, hx⟩, ⟨_, hy⟩])]
  have := Number.ofInt_eq hp (-1)
  simp [two, hx.2, hy.2, bind, Except.bind, intResult, this, liftErr, pure, Except.pure, finishResult,
    Opd.pure, find_none.mpr hk]

/-- **C55**: `replace` puts the new text in place of every occurrence found from the left. -/
theorem C55_replace (hc : HasStrings c T) {x y z : Opd S U R} {a old new : List Char}
    {parts : List (List Char)} (hx : ReadsAs T x a) (hy : ReadsAs T y old) (hz : ReadsAs T z new)
    (hold : old ≠ []) (hparts : Pieces old a parts) (s : σ) :
    call c (opReplace T) [x, y, z] s = (.ok (strV T (glue new parts)), s) := by
  rw [opReplace, call_texts hc (by rfl) (by norm_num)
    (by intro w hw; simp at hw; rcases hw with rfl | rfl | rfl; exacts [⟨_, hx⟩, ⟨_, hy⟩, ⟨_, hz⟩])]
  have e := Pieces.unique (splitF_pieces hold a.length a le_rfl) hparts
  simp [three, hx.2, hy.2, hz.2, bind, Except.bind, textResult, finish_text hc, strV, replace, hold,
    replaceF_glue, e]

/-- **C55**: `replace` is `join` of `split`. -/
theorem C55_replace_split_join (hc : HasStrings c T) {x y z : Opd S U R} {a old new : List Char}
    (hx : ReadsAs T x a) (hy : ReadsAs T y old) (hz : IsString T z new) (hold : old ≠ []) (s : σ) :
    ∃ r, call c (opSplit T) [x, y] s = (.ok r, s) ∧
      call c (opJoin T) [r, z] s = call c (opReplace T) [x, y, z] s := by
  refine ⟨_, call_split hc hx hy hold s, ?_⟩
  rw [C54_join hc rfl (readAll_strV hc _) hz,
    C55_replace hc hx hy hz.reads hold (splitF_pieces hold _ _ le_rfl)]

/-- **C55**: replacing the empty text puts the new text before every character and at the
end. -/
theorem C55_replace_empty (hc : HasStrings c T) {x y z : Opd S U R} {a new : List Char}
    (hx : ReadsAs T x a) (hy : ReadsAs T y []) (hz : ReadsAs T z new) (s : σ) :
    call c (opReplace T) [x, y, z] s =
      (.ok (strV T ((a.map (fun ch => new ++ [ch])).flatten ++ new)), s) := by
  rw [opReplace, call_texts hc (by rfl) (by norm_num)
    (by intro w hw; simp at hw; rcases hw with rfl | rfl | rfl; exacts [⟨_, hx⟩, ⟨_, hy⟩, ⟨_, hz⟩])]
  have : ∀ a : List Char, interleave new a = (a.map (fun ch => new ++ [ch])).flatten ++ new := by
    intro a
    induction a with
    | nil => rfl
    | cons ch a ih => simp [interleave, ih]
  simp [three, hx.2, hy.2, hz.2, bind, Except.bind, textResult, finish_text hc, strV, replace, this]

/-- **C55**: `lstrip`, with a string of characters, removes them from the left end. -/
theorem C55_lstrip_partial (hc : HasStrings c T) {x y : Opd S U R} {a b : List Char}
    (hx : ReadsAs T x a) (hy : IsString T y b) (s : σ) :
    ∃ r, call c (opLstrip T) [x, y] s = (.ok (strV T r), s) ∧ StrippedLeft b a r := by
  refine ⟨_, ?_, lstrip_spec b a⟩
  rw [opLstrip, call_texts hc (by rfl) (by norm_num)
    (by intro z hz; simp at hz; rcases hz with rfl | rfl; exacts [⟨_, hx⟩, ⟨_, hy.reads⟩])]
  simp [two, hx.2, hy.raw, bind, Except.bind, textResult, finish_text hc, strV]

/-- **C55, exception**: `lstrip` raises if the characters are not given as a string; `rstrip`
and `strip` take the text of whatever they are given. -/
theorem C55_lstrip_violation (hc : HasStrings c T) {x y : Opd S U R} {a b : List Char}
    (hx : ReadsAs T x a) (hy : ReadsAs T y b) (hraw : rawText T y.value = none) (s : σ) :
    (∃ e, call c (opLstrip T) [x, y] s = (.error e, s)) ∧
      ∃ r, call c (opRstrip T) [x, y] s = (.ok r, s) := by
  constructor
  · rw [opLstrip, call_texts hc (by rfl) (by norm_num)
      (by intro z hz; simp at hz; rcases hz with rfl | rfl; exacts [⟨_, hx⟩, ⟨_, hy⟩])]
    simp [two, hx.2, hraw, bind, Except.bind]
  · rw [opRstrip, call_texts hc (by rfl) (by norm_num)
      (by intro z hz; simp at hz; rcases hz with rfl | rfl; exacts [⟨_, hx⟩, ⟨_, hy⟩])]
    simp [two, hx.2, hy.2, bind, Except.bind, textResult]

/-- **C55**: `rstrip` removes the given characters from the right end. -/
theorem C55_rstrip (hc : HasStrings c T) {x y : Opd S U R} {a b : List Char}
    (hx : ReadsAs T x a) (hy : ReadsAs T y b) (s : σ) :
    ∃ r, call c (opRstrip T) [x, y] s = (.ok (strV T r), s) ∧ StrippedRight b a r := by
  refine ⟨_, ?_, rstrip_spec b a⟩
  rw [opRstrip, call_texts hc (by rfl) (by norm_num)
    (by intro z hz; simp at hz; rcases hz with rfl | rfl; exacts [⟨_, hx⟩, ⟨_, hy⟩])]
  simp [two, hx.2, hy.2, bind, Except.bind, textResult, finish_text hc, strV]

/-- **C55**: `strip` removes the given characters from both ends. -/
theorem C55_strip (hc : HasStrings c T) {x y : Opd S U R} {a b : List Char}
    (hx : ReadsAs T x a) (hy : ReadsAs T y b) (s : σ) :
    ∃ r l, call c (opStrip T) [x, y] s = (.ok (strV T r), s) ∧ StrippedLeft b a l ∧
      StrippedRight b l r := by
  refine ⟨_, _, ?_, lstrip_spec b a, rstrip_spec b _⟩
  rw [opStrip, call_texts hc (by rfl) (by norm_num)
    (by intro z hz; simp at hz; rcases hz with rfl | rfl; exacts [⟨_, hx⟩, ⟨_, hy⟩])]
  simp [two, hx.2, hy.2, bind, Except.bind, textResult, finish_text hc, strV, strip]

/-! ## C55: `substr` -/

/-- The position a number means: from the left, counted from 0, or if negative from the
right, where -1 is the last character. -/
def position (a : List Char) (i : ℤ) : ℤ := if i < 0 then i + a.length else i

/-- `r` consists of the characters of `a` at the positions from `i` to `j`, both included. -/
def FromTo (a : List Char) (i j : ℤ) (r : List Char) : Prop :=
  ∀ k : ℕ, r[k]? = if max i 0 + k ≤ j then a[(max i 0).toNat + k]? else none

theorem clamp_nonneg {n : ℕ} {i : ℤ} : (clamp n i : ℤ) = min (max (if i < 0 then i + n else i) 0) n := by
  unfold clamp
  rw [Nat.cast_min]
  congr 1
  omega

theorem slice_fromTo {a : List Char} {i j : ℤ} (hj : 0 ≤ j) :
    FromTo a (position a i) (j - 1) (slice a i j) := by
  intro k
  have h1 := clamp_nonneg (n := a.length) (i := i)
  have h2 := clamp_nonneg (n := a.length) (i := j)
  rw [if_neg (by omega)] at h2
  unfold slice position
  generalize clamp a.length i = ci at *
  generalize clamp a.length j = cj at *
  set q : ℤ := if i < 0 then i + a.length else i
  rw [List.getElem?_drop]
  by_cases h : max q 0 + k ≤ j - 1
  · rw [if_pos h]
    by_cases hq : max q 0 + k < a.length
    · rw [List.getElem?_take, if_pos (by omega)]
      congr 1
      omega
    · rw [List.getElem?_eq_none (by simp; omega), List.getElem?_eq_none (by omega)]
  · rw [if_neg h]
    apply List.getElem?_eq_none
    simp
    omega

theorem sliceFrom_fromTo {a : List Char} {i : ℤ} :
    FromTo a (position a i) a.length (sliceFrom a i) := by
  intro k
  have h1 := clamp_nonneg (n := a.length) (i := i)
  unfold sliceFrom position
  generalize clamp a.length i = ci at *
  set q : ℤ := if i < 0 then i + a.length else i
  rw [List.getElem?_drop]
  by_cases hq : max q 0 + k < a.length
  · rw [if_pos (by omega)]
    congr 1
    omega
  · rw [List.getElem?_eq_none (by omega)]
    split
    · rw [List.getElem?_eq_none (by omega)]
    · rfl

/-- **C55**: `substr` with two arguments gives the characters from the start to the end. -/
theorem C55_substr_rest (hc : HasStrings c T) {x y : Opd S U R} {a : List Char} {i : ℤ}
    (hx : ReadsAs T x a) (hy : IsInt c T p y i) (s : σ) :
    ∃ r, call c (opSubstr T p) [x, y] s = (.ok (strV T r), s) ∧
      FromTo a (position a i) a.length r := by
  obtain ⟨k, zs, hzs, hcall⟩ := call_number2 (p := p) (name := "substr") (last := 2) (maxp := 3)
    (ref := (opSubstr (σ := σ) T p).ref) hc hx (ys := [y]) (by simp) (by omega) (by simp) (by simp)
    (by intro z hz; simp at hz; subst hz; exact ⟨_, hy⟩) s
  obtain ⟨z, rfl, hz⟩ := converted_one hzs
  obtain ⟨m, hm, hmn⟩ := numberOf_converted hy hz
  refine ⟨sliceFrom a i, (hcall : call c (opSubstr T p) [x, y] s = _).trans ?_, sliceFrom_fromTo⟩
  simp [opSubstr, hx.2, hm, bind, Except.bind, textResult, finish_text hc, strV, hmn]

theorem call_substr3 (hc : HasStrings c T) {x y z : Opd S U R} {a : List Char} {i j : ℤ}
    (hx : ReadsAs T x a) (hy : IsInt c T p y i) (hz : IsInt c T p z j) (s : σ) :
    (0 ≤ j → call c (opSubstr T p) [x, y, z] s = (.ok (strV T (slice a i (j + 1))), s)) ∧
    (j < 0 → IsString T x a →
      call c (opSubstr T p) [x, y, z] s = (.ok (strV T (slice a i (j + 1 + a.length))), s)) ∧
    (j < 0 → rawText T x.value = none →
      ∃ e, call c (opSubstr T p) [x, y, z] s = (.error e, s)) := by
  obtain ⟨k, zs, hzs, hcall⟩ := call_number2 (p := p) (name := "substr") (last := 2) (maxp := 3)
    (ref := (opSubstr (σ := σ) T p).ref) hc hx (ys := [y, z]) (by simp) (by omega) (by simp) (by simp)
    (by intro w hw; simp at hw; rcases hw with rfl | rfl; exacts [⟨_, hy⟩, ⟨_, hz⟩]) s
  obtain ⟨y', z', rfl, hy', hz'⟩ := converted_two hzs
  obtain ⟨m, hm, hmn⟩ := numberOf_converted hy hy'
  obtain ⟨n, hn, hnn⟩ := numberOf_converted hz hz'
  replace hcall : call c (opSubstr T p) [x, y, z] s = _ := hcall
  refine ⟨fun h => hcall.trans ?_, fun h h' => hcall.trans ?_, fun h h' => ?_⟩
  · have : ¬ j + 1 ≤ 0 := by omega
    simp [opSubstr, hx.2, hm, hn, bind, Except.bind, textResult, finish_text hc, strV, hmn, hnn, this]
  · have : j + 1 ≤ 0 := by omega
    simp [opSubstr, hx.2, hm, hn, bind, Except.bind, textResult, finish_text hc, strV, hmn, hnn, this,
      h'.raw]
  · have : j + 1 ≤ 0 := by omega
    rw [hcall]
    simp [opSubstr, hm, hn, bind, Except.bind, hnn, this, h']

/-- **C55**: `substr` with three arguments gives the characters from the first position to the
second, if the second is not negative, or if the value is a string and the second position is at
most one before its first character. -/
theorem C55_substr_partial (hc : HasStrings c T) {x y z : Opd S U R} {a : List Char} {i j : ℤ}
    (hx : ReadsAs T x a) (hy : IsInt c T p y i) (hz : IsInt c T p z j)
    (hj : 0 ≤ j ∨ IsString T x a ∧ -1 ≤ j + a.length) (s : σ) :
    ∃ r, call c (opSubstr T p) [x, y, z] s = (.ok (strV T r), s) ∧
      FromTo a (position a i) (position a j) r := by
  obtain ⟨h1, h2, -⟩ := call_substr3 hc hx hy hz s
  by_cases h0 : 0 ≤ j
  · refine ⟨_, h1 h0, ?_⟩
    have := slice_fromTo (a := a) (i := i) (j := j + 1) (by omega)
    have e : position a j = j + 1 - 1 := by unfold position; rw [if_neg (by omega)]; omega
    rwa [e]
  · obtain ⟨hs, hj⟩ := hj.resolve_left h0
    refine ⟨_, h2 (by omega) hs, ?_⟩
    have := slice_fromTo (a := a) (i := i) (j := j + 1 + a.length) (by omega)
    have e : position a j = j + 1 + a.length - 1 := by unfold position; rw [if_pos (by omega)]; omega
    rwa [e]

/-- **C55, exception**: if the second position is further before the text, it counts from the
end of the text once more: the result holds the characters up to position
`j + 2 * length`, instead of none. -/
theorem C55_substr_violation (hc : HasStrings c T) {x y z : Opd S U R} {a : List Char} {i j : ℤ}
    (hx : IsString T x a) (hy : IsInt c T p y i) (hz : IsInt c T p z j)
    (hi : position a i = 0) (hj : j + a.length < -1) (hj' : 0 ≤ j + 2 * a.length) (s : σ) :
    ∃ r, call c (opSubstr T p) [x, y, z] s = (.ok (strV T r), s) ∧ r ≠ [] ∧
      FromTo a 0 (j + 2 * a.length) r := by
  obtain ⟨-, h2, -⟩ := call_substr3 hc hx.reads hy hz s
  refine ⟨_, h2 (by omega) hx, ?_⟩
  have e : slice a i (j + 1 + a.length) = slice a i (j + 1 + 2 * a.length) := by
    unfold slice
    congr 2
    have h3 := clamp_nonneg (n := a.length) (i := j + 1 + a.length)
    have h4 := clamp_nonneg (n := a.length) (i := j + 1 + 2 * a.length)
    rw [if_pos (by omega)] at h3
    rw [if_neg (by omega)] at h4
    omega
  have := slice_fromTo (a := a) (i := i) (j := j + 1 + 2 * a.length) (by omega)
  rw [hi, show j + 1 + 2 * (a.length : ℤ) - 1 = j + 2 * a.length by ring] at this
  rw [e]
  refine ⟨?_, this⟩
  intro h0
  have h5 := this 0
  rw [h0, if_pos (by simpa using hj')] at h5
  have : 0 < a.length := by omega
  simp only [max_self, Int.toNat_zero, zero_add, List.getElem?_nil] at h5
  rw [List.getElem?_eq_getElem this] at h5
  cases h5

/-- **C55, exception**: a negative second position raises if the first argument is not a string,
although a position that is not negative works. -/
theorem C55_substr_number_violation (hc : HasStrings c T) {x y z : Opd S U R} {a : List Char} {i j : ℤ}
    (hx : ReadsAs T x a) (hraw : rawText T x.value = none) (hy : IsInt c T p y i)
    (hz : IsInt c T p z j) (hj : j < 0) (s : σ) :
    ∃ e, call c (opSubstr T p) [x, y, z] s = (.error e, s) :=
  (call_substr3 hc hx hy hz s).2.2 hj hraw

/-! ## C62: regular expressions -/

/-- **C62**: `=~` answers whether the pattern is found, `!~` the opposite; both fail if the
pattern is not valid. -/
theorem C62_match (hc : HasStrings c T) {re : Regex S} {x y : Opd S U R} {a pat : List Char}
    (hx : ReadsAs T x a) (hy : ReadsAs T y pat) (s : σ) :
    (∀ b, re.search pat a = .ok b →
      call c (opRegex T re) [x, y] s = (.ok (Opd.pure (.sc (T.ofBool b))), s) ∧
      call c (opRegexNot T re) [x, y] s = (.ok (Opd.pure (.sc (T.ofBool (!b)))), s)) ∧
    (∀ e, re.search pat a = .error e →
      (∃ e', call c (opRegex T re) [x, y] s = (.error e', s)) ∧
      ∃ e', call c (opRegexNot T re) [x, y] s = (.error e', s)) := by
  have hall : ∀ z ∈ [x, y], ∃ t, ReadsAs T z t := by
    intro z hz; simp at hz; rcases hz with rfl | rfl; exacts [⟨_, hx⟩, ⟨_, hy⟩]
  rw [opRegex, opRegexNot, call_texts hc (by rfl) (by norm_num) hall, call_texts hc (by rfl) (by norm_num) hall]
  constructor
  · intro b hb
    simp [two, hx.2, hy.2, bind, Except.bind, hb, boolResult, finishResult, Opd.pure]
  · intro e he
    simp [two, hx.2, hy.2, bind, Except.bind, he]

theorem call_regexGet (hc : HasStrings c T) {re : Regex S} {x y : Opd S U R} {a pat : List Char}
    (hx : ReadsAs T x a) (hy : ReadsAs T y pat) {found : List S} (hf : re.findall pat a = .ok found)
    (s : σ) :
    call c (opRegexGet T p re) [x, y] s =
      (.ok (arrayOf (found.map (fun v => Opd.pure (.sc v)))), s) := by
  obtain ⟨v, hv⟩ := hx.1
  obtain ⟨w, hw⟩ := hy.1
  have h1 := validString hc hx
  have h2 := validString hc hy
  have hconv : convertFrom c (opRegexGet (σ := σ) T p re) 0 [x, y] = [x, y] := by
    simp [convertFrom, convertible, opRegexGet, Operation.applies]
  rw [call_mixed (by intro z hz; simp at hz; rcases hz with rfl | rfl; exacts [hx.1, hy.1])
    (by simp [opRegexGet, Operation.mustBe, Operation.applies, Operation.onlyType, ObjType.main]) rfl
    (by
      unfold validate
      simp [opRegexGet, checkValues, checkFrom, Operation.applies, anyType, h1, h2, checkUnits]) rfl
    (by rw [hconv]; simp [opRegexGet, numbersFrom, hv, Operation.canBe, Operation.applies, ObjType.main]),
    hconv]
  simp [opRegexGet, hx.2, hy.2, hf, bind, Except.bind, pure, Except.pure, finishResult, arrayOf, restore,
    Opd.pure]

/-- **C62**: `regexcount` is the number of elements of `regexget`. -/
theorem C62_count (hc : HasStrings c T) (hp : 1 ≤ p) {re : Regex S} {x y : Opd S U R} {a pat : List Char}
    (hx : ReadsAs T x a) (hy : ReadsAs T y pat) {found : List S} (hf : re.findall pat a = .ok found)
    (s : σ) :
    ∃ r, call c (opRegexGet T p re) [x, y] s = (.ok r, s) ∧
      r.value.arr?.map List.length = some found.length ∧
      call c (opRegexCount T p re) [x, y] s =
        (.ok (Opd.pure (.sc (T.ofNum ⟨found.length, 1⟩))), s) := by
  refine ⟨_, call_regexGet hc hx hy hf s, by simp [arrayOf, Val.arr?], ?_⟩
  obtain ⟨v, hv⟩ := hx.1
  have h1 := validString hc hx
  have h2 := validString hc hy
  have hconv : convertFrom c (opRegexCount (σ := σ) T p re) 0 [x, y] = [x, y] := by
    simp [convertFrom, convertible, opRegexCount]
  have hcast : castOf c (opRegexCount (σ := σ) T p re) [x, y] = none := by
    simp [castOf, opRegexCount]
  rw [call_mixed (by intro z hz; simp at hz; rcases hz with rfl | rfl; exacts [hx.1, hy.1])
    (by simp [opRegexCount, Operation.mustBe, Operation.applies, Operation.onlyType, ObjType.main]) rfl
    (by
      unfold validate
      simp [opRegexCount, checkValues, checkFrom, Operation.applies, anyType, h1, h2, checkUnits]) rfl
    (by rw [hconv]; simp [opRegexCount, numbersFrom, hv, Operation.canBe, Operation.applies, ObjType.main]),
    hconv, hcast]
  have := Number.ofInt_eq hp (found.length : ℤ)
  simp [opRegexCount, two, hx.2, hy.2, hf, bind, Except.bind, pure, Except.pure, finishResult,
    Opd.pure, intResult, this, liftErr]

/-- **C62**: `regexget(t, p, i)` is the `i`-th element of `regexget(t, p)`, counted from 1. -/
theorem C62_get (hc : HasStrings c T) {re : Regex S} {x y z : Opd S U R} {a pat : List Char}
    (hx : ReadsAs T x a) (hy : ReadsAs T y pat) {i : ℕ} (hz : IsInt c T p z (i + 1)) {found : List S}
    (hf : re.findall pat a = .ok found) {v : S} (hi : found[i]? = some v)
    (hv : c.isNumber v = false) (s : σ) :
    call c (opRegexGet T p re) [x, y, z] s = (.ok (Opd.pure (.sc v)), s) := by
  obtain ⟨vx, hvx⟩ := hx.1
  have h1 := validString hc hx
  have h2 := validString hc hy
  have h3 := validNumber hc hz
  obtain ⟨vz, wz, n, hvz, hwz, hn, hni⟩ := hz
  have hconv : convertFrom c (opRegexGet (σ := σ) T p re) 0 [x, y, z] =
      [x, y, { z with value := .sc wz }] := by
    simp [convertFrom, convertible, opRegexGet, Operation.applies, asNumber, hvz, hwz]
  rw [call_mixed
    (by
      intro z' hz'
      simp at hz'
      rcases hz' with rfl | rfl | rfl
      exacts [hx.1, hy.1, ⟨_, hvz⟩])
    (by simp [opRegexGet, Operation.mustBe, Operation.applies, Operation.onlyType, ObjType.main]) rfl
    (by
      unfold validate
      simp [opRegexGet, checkValues, checkFrom, Operation.applies, anyType, h1, h2, h3, checkUnits]) rfl
    (by rw [hconv]; simp [opRegexGet, numbersFrom, hvx, Operation.canBe, Operation.applies, ObjType.main]),
    hconv]
  have hidx : pyIndex found (n.toInt p - 1) = .ok v := by
    have h1 : n.toInt p - 1 = (i : ℤ) := by omega
    unfold pyIndex
    rw [h1, if_pos (by positivity), Int.toNat_natCast, hi]
  simp only [opRegexGet, hx.2, hy.2, hf, bind, Except.bind, pure, Except.pure, numberOf, hn, hidx]
  unfold finishResult
  cases castOf c _ [x, y, z] <;> simp [hv, Opd.pure]

/-- **C62**: `regexsub` without a count replaces as with count 0, that is, everywhere. -/
theorem C62_sub (hc : HasStrings c T) {re : Regex S} {x y z w : Opd S U R} {a pat new : List Char}
    (hx : ReadsAs T x a) (hy : ReadsAs T y pat) (hz : ReadsAs T z new) {r : List Char} {n : ℤ}
    (hw : IsInt c T p w n) (s : σ) :
    (re.sub pat new a 0 = .ok r →
      call c (opRegexSub T p re) [x, y, z] s = (.ok (strV T r), s)) ∧
    (re.sub pat new a n = .ok r →
      call c (opRegexSub T p re) [x, y, z, w] s = (.ok (strV T r), s)) := by
  obtain ⟨vx, hvx⟩ := hx.1
  have h1 := validString hc hx
  have h2 := validString hc hy
  have h3 := validString hc hz
  have h4 := validNumber hc hw
  obtain ⟨vw, ww, m, hvw, hww, hm, hmn⟩ := hw
  constructor
  · intro hr
    have hconv : convertFrom c (opRegexSub (σ := σ) T p re) 0 [x, y, z] = [x, y, z] := by
      simp [convertFrom, convertible, opRegexSub, Operation.applies]
    rw [call_mixed
      (by
        intro z' hz'
        simp at hz'
        rcases hz' with rfl | rfl | rfl
        exacts [hx.1, hy.1, hz.1])
      (by simp [opRegexSub, Operation.mustBe, Operation.applies, Operation.onlyType, ObjType.main]) rfl
      (by
        unfold validate
        simp [opRegexSub, checkValues, checkFrom, Operation.applies, anyType, h1, h2, h3, checkUnits]) rfl
      (by rw [hconv]; simp [opRegexSub, numbersFrom, hvx, Operation.canBe, Operation.applies, ObjType.main]),
      hconv]
    simp [opRegexSub, hx.2, hy.2, hz.2, hr, bind, Except.bind, textResult, finish_text hc, strV]
  · intro hr
    have hconv : convertFrom c (opRegexSub (σ := σ) T p re) 0 [x, y, z, w] =
        [x, y, z, { w with value := .sc ww }] := by
      simp [convertFrom, convertible, opRegexSub, Operation.applies, asNumber, hvw, hww]
    rw [call_mixed
      (by
        intro z' hz'
        simp at hz'
        rcases hz' with rfl | rfl | rfl | rfl
        exacts [hx.1, hy.1, hz.1, ⟨_, hvw⟩])
      (by simp [opRegexSub, Operation.mustBe, Operation.applies, Operation.onlyType, ObjType.main]) rfl
      (by
        unfold validate
        simp [opRegexSub, checkValues, checkFrom, Operation.applies, anyType, h1, h2, h3, h4, checkUnits]) rfl
      (by rw [hconv]; simp [opRegexSub, numbersFrom, hvx, Operation.canBe, Operation.applies, ObjType.main]),
      hconv]
    simp [opRegexSub, hx.2, hy.2, hz.2, hm, hmn, hr, bind, Except.bind, textResult, finish_text hc, strV, numberOf]

end

end MC.Props
