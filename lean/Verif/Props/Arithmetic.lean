import Mathlib.Tactic.Positivity
import Verif.Lemmas.Arithmetic
import Verif.Lemmas.Texts
import Verif.Lemmas.MeansMap
import Verif.Model.Finalize
import Verif.Spec.Arithmetic
import Verif.Props.Meaning
import Verif.Props.Parse2
import Verif.Props.Bitwise
import Verif.Props.ExpPercent
import Verif.Props.Stats

/-! # C72: arithmetic is exact, from the text to the answer -/

namespace MC.Props
open MC MC.Spec MC.Numerical MC.Numeric MC.Arrays MC.Boolean MC.Number
open MC.Strings (Texts HasStrings ReadsAs IsString IsInt)
open MC.Parse (Kind Text Cache shippedCfg)
set_option linter.unusedSectionVars false

/-- **C05**: fractions of at most `k` digits, `3k+1 ≤ p`, are compared exactly. -/
theorem C05_exact_digits (p k : ℕ) (hk : 3 * k + 1 ≤ p) (a b : Number) (ha : a.Canonical)
    (hb : b.Canonical) (da : a.Digits k) (db : b.Digits k) :
    (lt p a b = true ↔ a.val < b.val) ∧ (eq p a b = true ↔ a.val = b.val) := by
  have sep : ∀ a b : Number, a.Canonical → b.Canonical → a.Digits k → b.Digits k → a.val < b.val →
      lt p a b = true := by
    intro a b ha hb da db h
    apply C05_separation
    have hbig : ∀ c : Number, c.Canonical → c.Digits k → |c.val| ≤ 10 ^ k := by
      intro c hc dc
      unfold val
      have h1 : (1:ℚ) ≤ c.den := by exact_mod_cast hc.1
      have h2 : |(c.num:ℚ)| ≤ 10 ^ k := by
        have := dc.1.le
        exact_mod_cast this
      rw [abs_div, abs_of_pos hc.den_pos, div_le_iff₀ hc.den_pos]
      calc |(c.num:ℚ)| ≤ 10 ^ k := h2
        _ = 10 ^ k * 1 := by ring
        _ ≤ _ := mul_le_mul_of_nonneg_left h1 (by positivity)
    have h1 := hbig a ha da
    have h2 := hbig b hb db
    have e : b.val - a.val = ((b.num * a.den - a.num * b.den : ℤ) : ℚ) / ((a.den * b.den : ℤ) : ℚ) := by
      unfold val
      have := ha.den_ne
      have := hb.den_ne
      push_cast
      field_simp
    have hpos : (0:ℚ) < ((a.den * b.den : ℤ) : ℚ) := by
      have := ha.den_pos
      have := hb.den_pos
      push_cast
      positivity
    have hnum : (1:ℚ) ≤ ((b.num * a.den - a.num * b.den : ℤ) : ℚ) := by
      have h0 : 0 < b.val - a.val := by linarith
      rw [e] at h0
      have : (0:ℚ) < ((b.num * a.den - a.num * b.den : ℤ) : ℚ) := by
        rcases div_pos_iff.1 h0 with h | h
        · exact h.1
        · exact absurd h.2 (not_lt.2 hpos.le)
      have : (0:ℤ) < b.num * a.den - a.num * b.den := by exact_mod_cast this
      have : (1:ℤ) ≤ b.num * a.den - a.num * b.den := this
      exact_mod_cast this
    have hden : ((a.den * b.den : ℤ) : ℚ) < 10 ^ (2 * k) := by
      have := abs_mul_lt (x := a.den) (y := b.den) da.2 db.2 (k := 2 * k) (by omega)
      have := lt_of_le_of_lt (le_abs_self _) this
      exact_mod_cast this
    have hlow : (10:ℚ) ^ p ≥ 10 ^ (k + 1) * 10 ^ (2 * k) := by
      rw [← pow_add]
      exact pow_le_pow_right₀ (by norm_num) (by omega)
    have hstep : (10:ℚ) ^ (k + 1) < (b.val - a.val) * 10 ^ p := by
      rw [e, div_mul_eq_mul_div, lt_div_iff₀ hpos]
      have h10 : (0:ℚ) < 10 ^ (k+1) := by positivity
      calc (10:ℚ) ^ (k + 1) * ((a.den * b.den : ℤ) : ℚ) < 10 ^ (k + 1) * 10 ^ (2 * k) :=
            mul_lt_mul_of_pos_left hden h10
        _ ≤ 1 * 10 ^ p := by rw [one_mul]; exact hlow
        _ ≤ _ := mul_le_mul_of_nonneg_right hnum (by positivity)
    have : 5 * (|a.val| + |b.val|) ≤ 10 ^ (k + 1) := by
      rw [pow_succ]
      linarith
    linarith
  have hp : 1 ≤ p := by omega
  refine ⟨⟨(C05_sound p hp a b).1, sep a b ha hb da db⟩, ?_⟩
  constructor
  · intro h
    have hlt : ∀ x y : Number, lt p x y = true → eq p x y = false ∧ eq p y x = false := by
      intro x y h
      unfold lt at h
      unfold eq
      simp only [decide_eq_true_eq] at h
      simp [h.ne, h.ne']
    rcases lt_trichotomy a.val b.val with h1 | h1 | h1
    · have := (hlt a b (sep a b ha hb da db h1)).1
      rw [h] at this
      cases this
    · exact h1
    · have := (hlt b a (sep b a hb ha db da h1)).2
      rw [h] at this
      cases this
  · intro h
    have : a = b := C01_unique _ _ ha hb h
    rw [this]
    exact (C05_equivalence p).1 b

section
variable {S U R K σ : Type} {c : Calc S U R K} {num? : S → Option Number} {ofNum : Number → S}
  {asBool : S → Option Bool} {ofBool : Bool → S} {ua : UnitAlgebra S U} {Q : S → Prop} {T : Texts S U R} {p : ℕ} {rounding : Bool}

/-- The operand shows the number, the truth value or the text: it has no unit, and a number is kept as a
fraction in lowest terms and has a type in `Q`. -/
def HasPlain (num? : S → Option Number) (Q : S → Prop) (asBool : S → Option Bool) (T : Texts S U R) (x : Opd S U R) : Spec.Plain → Prop
  | .num q => ∃ n, PlainNumber num? Q x n ∧ n.val = q
  | .truth b => x.unit = none ∧ IsBool asBool x b
  | .text t => x.unit = none ∧ IsString T x t

/-- Whole numbers of at most `k` digits are shown with decimal digits. -/
def ShowsWhole (k : ℕ) (num? : S → Option Number) (Q : S → Prop) (T : Texts S U R) : Prop :=
  ∀ w n, Q w → num? w = some n → n.den = 1 → |n.num| < 10 ^ k →
    T.text? w = none ∧ T.render (.sc w) = .ok (toString n.num).toList

theorem HasPlain.scalar {x : Opd S U R} : ∀ {v : Spec.Plain}, HasPlain num? Q asBool T x v → ∃ w, x.value = .sc w
  | .num _, ⟨_, ⟨_, _, w, h, _⟩, _⟩ => ⟨w, h⟩
  | .truth _, ⟨_, w, h, _⟩ => ⟨w, h⟩
  | .text _, ⟨_, w, h, _⟩ => ⟨w, h⟩

theorem HasPlain.unit {x : Opd S U R} : ∀ {v : Spec.Plain}, HasPlain num? Q asBool T x v → x.unit = none
  | .num _, ⟨_, ⟨h, _⟩, _⟩ => h
  | .truth _, ⟨h, _⟩ => h
  | .text _, ⟨h, _⟩ => h

theorem short_ok {k : ℕ} {a b : ℚ} {r v : Spec.Plain} (h : short k a b r = .ok v) :
    Short k a ∧ Short k b ∧ v = r := by
  unfold short at h
  split at h
  · rename_i h1
    cases h
    exact ⟨h1.1, h1.2, rfl⟩
  · cases h

theorem short_digits {k : ℕ} {n : Number} (hn : n.Canonical) (h : Short k n.val) : n.Digits k := by
  obtain ⟨h1, h2⟩ := canonical_val_num hn
  refine ⟨by rw [h1]; exact h.1, ?_⟩
  rw [abs_of_pos hn.1, h2]
  exact h.2

theorem wholePart_trunc (q : ℚ) : wholePart q = truncQ q := by
  unfold wholePart truncQ
  split
  · rfl
  · rw [Int.floor_neg, neg_neg]

variable (ho : Arithmetical c num? ofNum asBool ofBool ua Q T)
include ho

/-- A value reads as its text. -/
theorem reads_text {k : ℕ} (hshow : rounding = true → ShowsWhole k num? Q T) {x : Opd S U R} {v : Spec.Plain} {t : Text}
    (h : textOf k rounding v = some t) (hx : HasPlain num? Q asBool T x v) : ReadsAs T x t := by
  cases v with
  | text t' =>
    cases h
    exact hx.2.reads
  | truth b =>
    obtain ⟨_, w, h1, h2⟩ := hx
    obtain ⟨e1, e2⟩ := ho.shown w b h2
    simp only [textOf, Option.some.injEq] at h
    refine ⟨⟨w, h1⟩, ?_⟩
    rw [h1, Strings.string, Strings.rawText]
    simp only [e1, e2, h]
  | num q =>
    simp only [textOf] at h
    split at h
    · rename_i hq
      cases h
      obtain ⟨n, ⟨_, hc, w, h1, h2, h3⟩, rfl⟩ := hx
      obtain ⟨e1, e2⟩ := canonical_val_num hc
      obtain ⟨e3, e4⟩ := hshow hq.1 w n h3 h2 (by rw [e2, hq.2.1]; rfl) (by rw [e1]; exact hq.2.2)
      refine ⟨⟨w, h1⟩, ?_⟩
      rw [h1, Strings.string, Strings.rawText]
      simp only [e3, e4, e1]
    · cases h

/-- A short whole number is that integer. -/
theorem is_int {k : ℕ} (hk : k ≤ p) {x : Opd S U R} {q : ℚ} (hq : q.den = 1) (hs : Short k q)
    (hx : HasPlain num? Q asBool T x (.num q)) : IsInt c T p x q.num := by
  obtain ⟨n, ⟨_, hc, w, h1, h2, _⟩, rfl⟩ := hx
  obtain ⟨e1, e2⟩ := canonical_val_num hc
  refine ⟨w, w, n, h1, ho.same w n h2, by rw [ho.textNum]; exact h2, ?_⟩
  have en : n = ⟨n.val.num, 1⟩ := by
    have : n.den = 1 := by rw [e2, hq]; rfl
    obtain ⟨a, b⟩ := n
    simp only at e1 this
    rw [← e1, this]
  have hlt : |n.val.num| < 10 ^ p := lt_of_lt_of_le hs.1 (pow_le_pow_right₀ (by norm_num) hk)
  generalize n.val.num = z at en hlt
  rw [en]
  exact toInt_int hlt

/-- The result is a text. -/
theorem has_text (t : Text) : HasPlain num? Q asBool T (strV T t) (.text t) := ⟨rfl, strV_string ho.strings t⟩

/-- The result is a truth value. -/
theorem has_truth (b : Bool) : HasPlain num? Q asBool T (Opd.pure (.sc (T.ofBool b)) : Opd S U R) (.truth b) :=
  ⟨rfl, _, rfl, by rw [ho.textOfBool]; exact ho.truth b⟩

/-- The result is an integer. -/
theorem has_int (z : ℤ) : HasPlain num? Q asBool T (Opd.pure (.sc (T.ofNum ⟨z, 1⟩)) : Opd S U R) (.num z) :=
  ⟨⟨z, 1⟩, ⟨rfl, ⟨by norm_num, by simp⟩, _, rfl, by rw [ho.textOfNum]; exact ho.read _, by rw [ho.textOfNum]; exact ho.untyped _⟩,
    by simp [Number.val]⟩

/-- A comparison of texts. -/
theorem compare_text {name : String} {f : Text → Text} {test : Text → Text → Bool} {x y : Opd S U R} {a b : Text}
    (hx : ReadsAs T x a) (hy : ReadsAs T y b) (s : σ) : ∃ r, call c (Strings.compareOp T name f test) [x, y] s = (.ok r, s) ∧
      HasPlain num? Q asBool T r (.truth (test (f a) (f b))) := by
  obtain ⟨b', h1, h2⟩ := compare_answers (σ := σ) (name := name) ho.strings hx hy (f := f) (test := test) Iff.rfl s
  rw [← Bool.eq_iff_iff] at h2
  subst h2
  exact ⟨_, h1, has_truth ho _⟩

omit ho in
theorem beq_text (a b : Text) : (a == b) = decide (a = b) := by
  rw [Bool.eq_iff_iff]
  simp

/-- A comparison of texts in small letters. -/
theorem compare_caseless {name : String} {test test' : Text → Text → Bool} {x y : Opd S U R} {a b : Text} {w : Spec.Plain}
    (hx : ReadsAs T x a) (hy : ReadsAs T y b) (h : caseless a b test = .ok w) (ht : ∀ a b, test a b = test' a b) (s : σ) :
    ∃ r, call c (Strings.compareOp T name T.lower test') [x, y] s = (.ok r, s) ∧ HasPlain num? Q asBool T r w := by
  unfold caseless at h
  split at h
  · rename_i hab
    cases h
    obtain ⟨r, h1, h2⟩ := compare_text ho (name := name) (f := T.lower) (test := test') hx hy s
    rw [ho.lower a hab.1, ho.lower b hab.2, ← ht] at h2
    exact ⟨r, h1, h2⟩
  · cases h

/-- Each operator on texts does what it should. -/
theorem texts_do {k : ℕ} (hk : 3 * k + 1 ≤ p) (hshow : rounding = true → ShowsWhole k num? Q T)
    (powF : ℚ → ℚ → Except Err ℚ)
    (others : String → List (Opd S U R) → Act σ (Opd S U R)) {o : String} {v v' w : Spec.Plain}
    {x y : Opd S U R} (h : onTexts k rounding o v v' = .ok w) (hx : HasPlain num? Q asBool T x v)
    (hy : HasPlain num? Q asBool T y v') (s : σ) :
    ∃ r, callOf p num? ofNum ua asBool ofBool T powF c others o [x, y] s = (.ok r, s) ∧
      HasPlain num? Q asBool T r w := by
  unfold onTexts at h
  split at h
  · cases h
  rename_i a ha
  replace hx := reads_text ho hshow ha hx
  split at h
  · split at h
    · rename_i hn
      cases h
      exact ⟨_, C55_repeat ho.strings hx (is_int ho (by omega) hn.1 hn.2 hy) s, has_text ho _⟩
    · cases h
  · split at h
    · cases h
    rename_i b hb
    replace hy := reads_text ho hshow hb hy
    unfold textOps at h
    split at h
    · cases h
      exact ⟨_, C55_append ho.strings hx hy s, has_text ho _⟩
    · cases h
      obtain ⟨r, h1, h2⟩ := compare_text ho (name := "operator <$") (f := id) (test := Strings.less) hx hy s
      exact ⟨r, h1, by rwa [Texts.less_lt] at h2⟩
    · cases h
      obtain ⟨r, h1, h2⟩ := compare_text ho (name := "operator >$") (f := id) (test := fun s t => Strings.less t s) hx hy s
      exact ⟨r, h1, by rwa [Texts.less_lt] at h2⟩
    · cases h
      obtain ⟨r, h1, h2⟩ := compare_text ho (name := "operator <=$") (f := id) (test := fun s t => !Strings.less t s) hx hy s
      exact ⟨r, h1, by rwa [Texts.less_ge] at h2⟩
    · cases h
      obtain ⟨r, h1, h2⟩ := compare_text ho (name := "operator >=$") (f := id) (test := fun s t => !Strings.less s t) hx hy s
      exact ⟨r, h1, by rwa [Texts.less_ge] at h2⟩
    · cases h
      obtain ⟨r, h1, h2⟩ := compare_text ho (name := "operator ==$") (f := id) (test := fun s t => s == t) hx hy s
      exact ⟨r, h1, by rwa [beq_text] at h2⟩
    · cases h
      obtain ⟨r, h1, h2⟩ := compare_text ho (name := "operator !=$") (f := id) (test := fun s t => s != t) hx hy s
      exact ⟨r, h1, by rwa [bne, beq_text, ← decide_not] at h2⟩
    · exact compare_caseless ho (name := "operator <~") hx hy h (fun a b => (Texts.less_lt _ _).symm) s
    · exact compare_caseless ho (name := "operator >~") hx hy h (fun a b => (Texts.less_lt _ _).symm) s
    · exact compare_caseless ho (name := "operator <=~") hx hy h (fun a b => (Texts.less_ge _ _).symm) s
    · exact compare_caseless ho (name := "operator >=~") hx hy h (fun a b => (Texts.less_ge _ _).symm) s
    · exact compare_caseless ho (name := "operator ==~") hx hy h (fun a b => (beq_text a b).symm) s
    · exact compare_caseless ho (name := "operator !=~") hx hy h (fun a b => by rw [bne, beq_text, ← decide_not]) s
    · cases h

theorem texts_read {k : ℕ} (hshow : rounding = true → ShowsWhole k num? Q T) : ∀ {vs : List Spec.Plain} {ts : List Text} {xs : List (Opd S U R)},
    textsOf k rounding vs = some ts → List.Forall₂ (HasPlain num? Q asBool T) xs vs → List.Forall₂ (ReadsAs T) xs ts
  | [], ts, xs, h, hx => by
    cases hx
    cases h
    exact .nil
  | v :: vs, ts, _, h, .cons h1 h2 => by
    simp only [textsOf] at h
    split at h
    · rename_i t ts' h3 h4
      cases h
      exact .cons (reads_text ho hshow h3 h1) (texts_read hshow h4 h2)
    · cases h

omit ho in
theorem reads1 {xs : List (Opd S U R)} {a : Text} (h : List.Forall₂ (ReadsAs T) xs [a]) : ∃ x, xs = [x] ∧ ReadsAs T x a := by
  cases h with
  | cons h1 h2 =>
    cases h2
    exact ⟨_, rfl, h1⟩

omit ho in
theorem reads2 {xs : List (Opd S U R)} {a b : Text} (h : List.Forall₂ (ReadsAs T) xs [a, b]) :
    ∃ x y, xs = [x, y] ∧ ReadsAs T x a ∧ ReadsAs T y b := by
  cases h with
  | cons h1 h2 =>
    obtain ⟨y, rfl, h3⟩ := reads1 h2
    exact ⟨_, _, rfl, h1, h3⟩

omit ho in
theorem reads3 {xs : List (Opd S U R)} {a b d : Text} (h : List.Forall₂ (ReadsAs T) xs [a, b, d]) :
    ∃ x y z, xs = [x, y, z] ∧ ReadsAs T x a ∧ ReadsAs T y b ∧ ReadsAs T z d := by
  cases h with
  | cons h1 h2 =>
    obtain ⟨y, z, rfl, h3⟩ := reads2 h2
    exact ⟨_, _, _, rfl, h1, h3⟩

theorem lstrip_does {x y : Opd S U R} {a b : Text} (hx : ReadsAs T x a) (hy : IsString T y b) (s : σ) :
    call c (Strings.opLstrip T) [x, y] s = (.ok (strV T (withoutLeft b a)), s) := by
  rw [Strings.opLstrip, Strings.call_texts ho.strings (by rfl) (by norm_num)
    (by intro z hz; simp at hz; rcases hz with rfl | rfl; exacts [⟨_, hx⟩, ⟨_, hy.reads⟩])]
  simp [two, hx.2, hy.raw, bind, Except.bind, Strings.textResult, Strings.finish_text ho.strings, strV, Texts.withoutLeft_eq]

theorem rstrip_does {x y : Opd S U R} {a b : Text} (hx : ReadsAs T x a) (hy : ReadsAs T y b) (s : σ) :
    call c (Strings.opRstrip T) [x, y] s = (.ok (strV T (withoutRight b a)), s) := by
  rw [Strings.opRstrip, Strings.call_texts ho.strings (by rfl) (by norm_num)
    (by intro z hz; simp at hz; rcases hz with rfl | rfl; exacts [⟨_, hx⟩, ⟨_, hy⟩])]
  simp [two, hx.2, hy.2, bind, Except.bind, Strings.textResult, Strings.finish_text ho.strings, strV, Texts.withoutRight_eq]

theorem strip_does {x y : Opd S U R} {a b : Text} (hx : ReadsAs T x a) (hy : ReadsAs T y b) (s : σ) :
    call c (Strings.opStrip T) [x, y] s = (.ok (strV T (withoutRight b (withoutLeft b a))), s) := by
  rw [Strings.opStrip, Strings.call_texts ho.strings (by rfl) (by norm_num)
    (by intro z hz; simp at hz; rcases hz with rfl | rfl; exacts [⟨_, hx⟩, ⟨_, hy⟩])]
  simp [two, hx.2, hy.2, bind, Except.bind, Strings.textResult, Strings.finish_text ho.strings, strV, Strings.strip,
    Texts.withoutLeft_eq, Texts.withoutRight_eq]

theorem lower_does {x : Opd S U R} {a : Text} (hx : ReadsAs T x a) (ha : Ascii a) (s : σ) :
    call c (Strings.opLower T) [x] s = (.ok (strV T (a.map Char.toLower)), s) := by
  rw [Strings.opLower, Strings.call_texts ho.strings (by rfl) (by norm_num)
    (by intro z hz; simp at hz; subst hz; exact ⟨_, hx⟩)]
  simp [Strings.one, hx.2, bind, Except.bind, Strings.textResult, Strings.finish_text ho.strings, strV, ho.lower a ha]

theorem upper_does {x : Opd S U R} {a : Text} (hx : ReadsAs T x a) (ha : Ascii a) (s : σ) :
    call c (Strings.opUpper T) [x] s = (.ok (strV T (a.map Char.toUpper)), s) := by
  rw [Strings.opUpper, Strings.call_texts ho.strings (by rfl) (by norm_num)
    (by intro z hz; simp at hz; subst hz; exact ⟨_, hx⟩)]
  simp [Strings.one, hx.2, bind, Except.bind, Strings.textResult, Strings.finish_text ho.strings, strV, ho.upper a ha]

/-- Each function of texts does what it should. -/
theorem textFunctions_do (hp : 1 ≤ p) {base : S → ℕ} {offset : S → ℤ}
    (funcs : String → Option (FuncDef (Opd S U R) σ)) {o : String} {ts : List Text}
    {w : Spec.Plain} {xs : List (Opd S U R)} (h : textFunctions o ts = .ok w)
    (hx : List.Forall₂ (ReadsAs T) xs ts) (s : σ) :
    ∃ fd, funcsOf p num? ofNum T base offset c funcs o = some fd ∧ ∃ r, fd.call xs s = (.ok r, s) ∧
      HasPlain num? Q asBool T r w := by
  unfold textFunctions at h
  split at h
  · cases h
    obtain ⟨x, rfl, h1⟩ := reads1 hx
    exact ⟨_, rfl, _, C55_length ho.strings hp h1 s, by exact_mod_cast has_int ho _⟩
  · obtain ⟨x, rfl, h1⟩ := reads1 hx
    split at h
    · rename_i ha
      cases h
      exact ⟨_, rfl, _, lower_does ho h1 ha s, has_text ho _⟩
    · cases h
  · obtain ⟨x, rfl, h1⟩ := reads1 hx
    split at h
    · rename_i ha
      cases h
      exact ⟨_, rfl, _, upper_does ho h1 ha s, has_text ho _⟩
    · cases h
  · cases h
    obtain ⟨x, y, rfl, h1, h2⟩ := reads2 hx
    exact ⟨_, rfl, _, rstrip_does ho h1 h2 s, has_text ho _⟩
  · cases h
    obtain ⟨x, y, rfl, h1, h2⟩ := reads2 hx
    exact ⟨_, rfl, _, strip_does ho h1 h2 s, has_text ho _⟩
  · cases h
    obtain ⟨x, y, rfl, h1, h2⟩ := reads2 hx
    refine ⟨_, rfl, ?_⟩
    split
    · rename_i i hi
      exact ⟨_, C55_find ho.strings hp h1 h2 (Texts.placeOf_some hi) s, by exact_mod_cast has_int ho _⟩
    · rename_i hi
      exact ⟨_, C55_find_absent ho.strings hp h1 h2 (Texts.placeOf_none hi) s, by exact_mod_cast has_int ho _⟩
  · split at h
    · cases h
    · rename_i ho'
      cases h
      obtain ⟨x, y, z, rfl, h1, h2, h3⟩ := reads3 hx
      refine ⟨_, rfl, _, C55_replace ho.strings h1 h2 h3 ho' (Texts.pieces_are ho' _ _ le_rfl) s, ?_⟩
      rw [← Texts.joined_glue]
      exact has_text ho _
  · cases h

/-- Each operator does what is taught, on numbers that are short enough. -/
theorem school_does {k : ℕ} (hk : 3 * k + 1 ≤ p) (hshow : rounding = true → ShowsWhole k num? Q T) (powF : ℚ → ℚ → Except Err ℚ)
    (others : String → List (Opd S U R) → Act σ (Opd S U R)) {o : String} {ws : List Spec.Plain} {w : Spec.Plain}
    {xs : List (Opd S U R)} (h : school k rounding o ws = .ok w) (hx : List.Forall₂ (HasPlain num? Q asBool T) xs ws)
    (s : σ) :
    ∃ r, callOf p num? ofNum ua asBool ofBool T powF c others o xs s = (.ok r, s) ∧
      HasPlain num? Q asBool T r w := by
  have hp : 1 ≤ p := by omega
  have up : ∀ j, j ≤ p → (10:ℤ) ^ j ≤ 10 ^ p := fun j hj => pow_le_pow_right₀ (by norm_num) hj
  -- two numbers
  have nums : ∀ {a b : ℚ} {xs : List (Opd S U R)},
      List.Forall₂ (HasPlain num? Q asBool T) xs [.num a, .num b] → Short k a → Short k b →
      ∃ x y m n, xs = [x, y] ∧ PlainNumber num? Q x m ∧ PlainNumber num? Q y n ∧ m.val = a ∧ n.val = b ∧
        m.Digits k ∧ n.Digits k := by
    intro a b xs h h1 h2
    cases h with
    | cons hx h =>
      cases h with
      | cons hy h =>
        cases h
        obtain ⟨m, hm, rfl⟩ := hx
        obtain ⟨n, hn, rfl⟩ := hy
        exact ⟨_, _, m, n, rfl, hm, hn, rfl, rfl, short_digits hm.2.1 h1, short_digits hn.2.1 h2⟩
  have truths : ∀ {a b : Bool} {xs : List (Opd S U R)},
      List.Forall₂ (HasPlain num? Q asBool T) xs [.truth a, .truth b] →
      ∃ x y, xs = [x, y] ∧ IsBool asBool x a ∧ IsBool asBool y b := by
    intro a b xs h
    cases h with
    | cons hx h =>
      cases h with
      | cons hy h =>
        cases h
        exact ⟨_, _, rfl, hx.2, hy.2⟩
  have compare : ∀ (name : String) (test : Number → Number → Bool) {x y : Opd S U R} {m n : Number},
      PlainNumber num? Q x m → PlainNumber num? Q y n →
      ∃ r, call c (opCompare num? ofBool name test) [x, y] s = (.ok r, s) ∧
        HasPlain num? Q asBool T r (.truth (test m n)) := by
    intro name test x y m n hm hn
    obtain ⟨v, hv, hv', _⟩ := isNum_of ho hm
    obtain ⟨w, hw, hw', _⟩ := isNum_of ho hn
    exact ⟨_, compare_call ho.numbers ho.notNumber hv hw (plain_pair ho.plain hm.1 hn.1) hv' hw' s,
      rfl, _, rfl, ho.truth _⟩
  have lcms : ∀ {m n : Number}, m.Canonical → n.Canonical → m.Digits k → n.Digits k →
      |m.num * (Int.lcm m.den n.den : ℤ)| < 10 ^ p ∧ |n.num * (Int.lcm m.den n.den : ℤ)| < 10 ^ p ∧
      (Int.lcm m.den n.den : ℤ) < 10 ^ p := by
    intro m n ha hb da db
    obtain ⟨d1, d2, hl, hle⟩ := lcm_facts ha.1 hb.1
    have hdd : |m.den * n.den| < 10 ^ (2*k) := abs_mul_lt da.2 db.2 (by omega)
    have hl2 : |(Int.lcm m.den n.den : ℤ)| < 10 ^ (2*k) := by
      rw [abs_of_pos hl]
      exact lt_of_le_of_lt (le_trans hle (le_abs_self _)) hdd
    have b1 : |m.num * (Int.lcm m.den n.den : ℤ)| < 10 ^ (3*k) := abs_mul_lt da.1 hl2 (by omega)
    have b2 : |n.num * (Int.lcm m.den n.den : ℤ)| < 10 ^ (3*k) := abs_mul_lt db.1 hl2 (by omega)
    exact ⟨lt_of_lt_of_le b1 (up _ (by omega)), lt_of_lt_of_le b2 (up _ (by omega)),
      lt_of_lt_of_le (lt_of_le_of_lt (le_abs_self _) hl2) (up _ (by omega))⟩
  have dividing : ∀ {x y : Opd S U R} {m n : Number}, PlainNumber num? Q x m → PlainNumber num? Q y n →
      m.Digits k → n.Digits k → n.val ≠ 0 →
      ∃ r q, call c (opDivide p num? ofNum ua) [x, y] s = (.ok r, s) ∧ PlainNumber num? Q r q ∧
        q.val = m.val / n.val := by
    intro x y m n hm hn dm dn h0
    obtain ⟨q, hq, hqc, hqv⟩ := (C02_exact_digits p k hk m n hm.2.1 hn.2.1 dm dn).2.2.2 h0
    obtain ⟨r, hr, hr'⟩ := two_number ho (opDivide p num? ofNum ua) ⟨⟨_, _, rfl⟩, rfl, rfl, rfl, rfl, rfl⟩
      rfl rfl hm hn (fun x y hx hy => divide_number ho hx hy hq) hqc s
    exact ⟨r, q, hr, hr', hqv⟩
  unfold school at h
  split at h
  · obtain ⟨h1, h2, rfl⟩ := short_ok h
    obtain ⟨x, y, m, n, rfl, hm, hn, rfl, rfl, dm, dn⟩ := nums hx h1 h2
    obtain ⟨q, hq, hqc, hqv⟩ := (C02_exact_digits p k hk m n hm.2.1 hn.2.1 dm dn).1
    obtain ⟨r, hr, hr'⟩ := arith_number ho (opAdd p num? ofNum) ⟨rfl, rfl, rfl, rfl⟩ rfl rfl rfl rfl hm hn hq hqc s
    exact ⟨r, hr, q, hr', hqv⟩
  · obtain ⟨h1, h2, rfl⟩ := short_ok h
    obtain ⟨x, y, m, n, rfl, hm, hn, rfl, rfl, dm, dn⟩ := nums hx h1 h2
    obtain ⟨q, hq, hqc, hqv⟩ := (C02_exact_digits p k hk m n hm.2.1 hn.2.1 dm dn).2.1
    obtain ⟨r, hr, hr'⟩ := arith_number ho (opSubtract p num? ofNum) ⟨rfl, rfl, rfl, rfl⟩ rfl rfl rfl rfl hm hn hq hqc s
    exact ⟨r, hr, q, hr', hqv⟩
  · obtain ⟨h1, h2, rfl⟩ := short_ok h
    obtain ⟨x, y, m, n, rfl, hm, hn, rfl, rfl, dm, dn⟩ := nums hx h1 h2
    obtain ⟨q, hq, hqc, hqv⟩ := (C02_exact_digits p k hk m n hm.2.1 hn.2.1 dm dn).2.2.1
    obtain ⟨r, hr, hr'⟩ := two_number ho (opMultiply p num? ofNum ua) ⟨⟨_, _, rfl⟩, rfl, rfl, rfl, rfl, rfl⟩
      rfl rfl hm hn (fun x y hx hy => multiply_number ho hx hy hq) hqc s
    exact ⟨r, hr, q, hr', hqv⟩
  · obtain ⟨h1, h2, rfl⟩ := short_ok h
    obtain ⟨x, y, m, n, rfl, hm, hn, rfl, rfl, dm, dn⟩ := nums hx h1 h2
    obtain ⟨q, hq, hqc, hqv⟩ := (C02_exact_digits p k hk m n hm.2.1 hn.2.1 dm dn).2.2.1
    obtain ⟨v, hv, hva, hvq⟩ := isNum_of ho hm
    obtain ⟨w, hw, hwb, hwq⟩ := isNum_of ho hn
    refine ⟨_, ?_, q, finish_plain ho (opImplicitMultiply (σ := σ) p num? ofNum ua) hqc
      (ws := [v, w]) (by simp [hvq, hwq]) (res := { value := .sc (ofNum q) }) rfl rfl, hqv⟩
    show call c (opImplicitMultiply p num? ofNum ua) [x, y] s = _
    rw [call_numbers (op := opImplicitMultiply p num? ofNum ua) ⟨rfl, rfl, rfl, rfl⟩ ho.numbers
      (.cons hv (.cons hw .nil)) (by intro m hm; cases hm; simp) (by intro m hm; cases hm; simp)]
    simp only [List.map_cons, List.map_nil, List.zip_cons_cons, List.zip_nil_right,
      plain_pair ho.plain hm.1 hn.1, List.zipWith_cons_cons, List.zipWith_nil_right, setNumbers]
    have := multiply_number (p := p) (x := (⟨.sc v, none, x.ref, x.orig⟩ : Opd S U R))
      (y := (⟨.sc w, none, y.ref, y.orig⟩ : Opd S U R)) ho
      ⟨rfl, hm.2.1, v, rfl, hva, hvq⟩ ⟨rfl, hn.2.1, w, rfl, hwb, hwq⟩ hq
    simp only [opImplicitMultiply, numOp, two, this]
  · split at h
    · cases h
    · rename_i h0
      obtain ⟨h1, h2, rfl⟩ := short_ok h
      obtain ⟨x, y, m, n, rfl, hm, hn, rfl, rfl, dm, dn⟩ := nums hx h1 h2
      obtain ⟨r, q, hr, hr', hqv⟩ := dividing hm hn dm dn h0
      exact ⟨r, hr, q, hr', hqv⟩
  · split at h
    · cases h
    · rename_i h0
      obtain ⟨h1, h2, rfl⟩ := short_ok h
      obtain ⟨x, y, m, n, rfl, hm, hn, rfl, rfl, dm, dn⟩ := nums hx h1 h2
      obtain ⟨v, hv, hva, hvq⟩ := isNum_of ho hm
      obtain ⟨w, hw, hwb, hwq⟩ := isNum_of ho hn
      obtain ⟨r, q, hr, hr', hqv⟩ := dividing (x := ⟨.sc v, none, none, none⟩) (y := ⟨.sc w, none, none, none⟩)
        ⟨rfl, hm.2.1, v, rfl, hva, hvq⟩ ⟨rfl, hn.2.1, w, rfl, hwb, hwq⟩ dm dn h0
      have hnum : 5 * |q.num| < 10 ^ p := by
        have hle : |q.num| ≤ |m.num * n.den| := by
          refine num_le_of_val hr'.2.1 (d := m.den * n.num) ?_ ?_
          · refine mul_ne_zero hm.2.1.1.ne' ?_
            intro e
            apply h0
            unfold val
            rw [e]
            simp
          · rw [hqv]
            unfold val
            have := hm.2.1.den_ne
            have := hn.2.1.den_ne
            push_cast
            field_simp
        have := abs_mul_lt dm.1 dn.2 (k := 2 * k) (by omega)
        have h3 := up (2 * k + 1) (by omega)
        rw [pow_succ] at h3
        have := abs_nonneg q.num
        omega
      obtain ⟨t, q', ht, hres, hqc', hqv'⟩ := (C66_integer_division (num? := num?) (ofNum := ofNum)
        (divide := opDivide p num? ofNum ua) hp ho.numbers ho.isNumber
        hv hw ho.plain hm.1 hn.1 s s).1 r q hr (by
          obtain ⟨_, _, w', e1, e2, _⟩ := hr'
          simp [numberOf, e1, e2]) hr'.2.1 hnum
      refine ⟨t, ht, q', result_number ho (x := r) (ws := [v, w]) (by simp [hvq, hwq]) hr'.1 hqc' hres, ?_⟩
      rw [hqv', hqv]
  · split at h
    · cases h
    · rename_i h0
      obtain ⟨h1, h2, rfl⟩ := short_ok h
      obtain ⟨x, y, m, n, rfl, hm, hn, rfl, rfl, dm, dn⟩ := nums hx h1 h2
      obtain ⟨l1, l2, l3⟩ := lcms hm.2.1 hn.2.1 dm dn
      obtain ⟨q, hq, hqc, hqv⟩ := mod_exact hm.2.1 hn.2.1 h0 l1 l2 l3
      obtain ⟨r, hr, hr'⟩ := arith_number ho (opModulus p num? ofNum) ⟨rfl, rfl, rfl, rfl⟩ rfl rfl rfl rfl hm hn hq hqc s
      exact ⟨r, hr, q, hr', by rw [hqv, wholePart_trunc]⟩
  · split at h
    · rename_i hcond
      obtain ⟨hd, h0, hn1, hn2⟩ := hcond
      obtain ⟨h1, h2, rfl⟩ := short_ok h
      obtain ⟨x, y, m, n, rfl, hm, hn, rfl, rfl, dm, dn⟩ := nums hx h1 h2
      obtain ⟨e1, e2⟩ := canonical_val_num hm.2.1
      obtain ⟨e3, e4⟩ := canonical_val_num hn.2.1
      have en : n = ⟨n.val.num, 1⟩ := by
        have : n.den = 1 := by rw [e4, hd]; rfl
        obtain ⟨nn, nd⟩ := n
        simp only at e3 this
        rw [← e3, this]
      have hz : (n.val.num : ℚ) = n.val := by
        conv_rhs => rw [← Rat.num_div_den n.val, hd]
        simp
      obtain ⟨q, hq, hqc, hqv⟩ := C08_integer_power p powF m hm.2.1 n.val.num
        (by rw [← e3]; exact lt_of_lt_of_le dn.1 (up _ (by omega)))
        (h0.imp id (fun h => by rw [← hz] at h; exact_mod_cast h))
        (by rw [e1]; exact lt_of_lt_of_le hn1 (up _ (by omega)))
        (by
          rw [e2]
          have : ((m.val.den ^ n.val.num.natAbs : ℕ) : ℤ) < 10 ^ k := by exact_mod_cast hn2
          have h3 := lt_of_lt_of_le this (up k (by omega))
          push_cast at h3
          simpa using h3)
      rw [← en] at hq
      obtain ⟨r, hr, hr'⟩ := two_number ho (opPower p num? ofNum ua powF) ⟨⟨_, _, rfl⟩, rfl, rfl, rfl, rfl, rfl⟩
        rfl rfl hm hn (fun x y hx hy => power_number ho hx hy hq) hqc s
      exact ⟨r, hr, q, hr', hqv⟩
    · cases h
  · obtain ⟨h1, h2, rfl⟩ := short_ok h
    obtain ⟨x, y, m, n, rfl, hm, hn, rfl, rfl, dm, dn⟩ := nums hx h1 h2
    obtain ⟨r, hr, hr'⟩ := compare "operator <" (Number.lt p) hm hn
    refine ⟨r, hr, ?_⟩
    rwa [show decide (m.val < n.val) = Number.lt p m n from by
      rw [Bool.eq_iff_iff, (C05_exact_digits p k hk m n hm.2.1 hn.2.1 dm dn).1, decide_eq_true_iff]]
  · obtain ⟨h1, h2, rfl⟩ := short_ok h
    obtain ⟨x, y, m, n, rfl, hm, hn, rfl, rfl, dm, dn⟩ := nums hx h1 h2
    obtain ⟨r, hr, hr'⟩ := compare "operator >" (Number.gt p) hm hn
    refine ⟨r, hr, ?_⟩
    rwa [show decide (m.val > n.val) = Number.gt p m n from by
      rw [(C05_derived p m n).2.2.2.1, Bool.eq_iff_iff, (C05_exact_digits p k hk n m hn.2.1 hm.2.1 dn dm).1,
        decide_eq_true_iff]]
  · obtain ⟨h1, h2, rfl⟩ := short_ok h
    obtain ⟨x, y, m, n, rfl, hm, hn, rfl, rfl, dm, dn⟩ := nums hx h1 h2
    obtain ⟨r, hr, hr'⟩ := compare "operator <=" (Number.le p) hm hn
    refine ⟨r, hr, ?_⟩
    obtain ⟨c1, c2⟩ := C05_exact_digits p k hk m n hm.2.1 hn.2.1 dm dn
    rwa [show decide (m.val ≤ n.val) = Number.le p m n from by
      rw [(C05_derived p m n).1, Bool.eq_iff_iff, Bool.or_eq_true, c1, c2, decide_eq_true_iff,
        le_iff_lt_or_eq]]
  · obtain ⟨h1, h2, rfl⟩ := short_ok h
    obtain ⟨x, y, m, n, rfl, hm, hn, rfl, rfl, dm, dn⟩ := nums hx h1 h2
    obtain ⟨r, hr, hr'⟩ := compare "operator >=" (Number.ge p) hm hn
    refine ⟨r, hr, ?_⟩
    obtain ⟨c1, c2⟩ := C05_exact_digits p k hk n m hn.2.1 hm.2.1 dn dm
    rwa [show decide (m.val ≥ n.val) = Number.ge p m n from by
      rw [(C05_derived p m n).2.2.2.2, (C05_derived p n m).1, Bool.eq_iff_iff, Bool.or_eq_true, c1, c2,
        decide_eq_true_iff, ge_iff_le, le_iff_lt_or_eq]]
  · obtain ⟨h1, h2, rfl⟩ := short_ok h
    obtain ⟨x, y, m, n, rfl, hm, hn, rfl, rfl, dm, dn⟩ := nums hx h1 h2
    obtain ⟨r, hr, hr'⟩ := compare "operator ==" (Number.eq p) hm hn
    refine ⟨r, hr, ?_⟩
    rwa [show decide (m.val = n.val) = Number.eq p m n from by
      rw [Bool.eq_iff_iff, (C05_exact_digits p k hk m n hm.2.1 hn.2.1 dm dn).2, decide_eq_true_iff]]
  · obtain ⟨h1, h2, rfl⟩ := short_ok h
    obtain ⟨x, y, m, n, rfl, hm, hn, rfl, rfl, dm, dn⟩ := nums hx h1 h2
    obtain ⟨r, hr, hr'⟩ := compare "operator !=" (Number.ne p) hm hn
    refine ⟨r, hr, ?_⟩
    rwa [show decide (m.val ≠ n.val) = Number.ne p m n from by
      rw [(C05_derived p m n).2.2.1, Bool.eq_iff_iff, Bool.not_eq_true', ← Bool.not_eq_true,
        (C05_exact_digits p k hk m n hm.2.1 hn.2.1 dm dn).2, decide_eq_true_iff]]
  · cases h
    obtain ⟨x, y, rfl, h1, h2⟩ := truths hx
    exact ⟨_, (C29_needed c ho.logic h1 h2 s).1, rfl, _, rfl, ho.truth _⟩
  · cases h
    obtain ⟨x, y, rfl, h1, h2⟩ := truths hx
    exact ⟨_, (C29_needed c ho.logic h1 h2 s).2.1, rfl, _, rfl, ho.truth _⟩
  · cases h
    obtain ⟨x, y, rfl, h1, h2⟩ := truths hx
    exact ⟨_, (C29_needed c ho.logic h1 h2 s).2.2, rfl, _, rfl, ho.truth _⟩
  · cases h
    cases hx with
    | cons h1 h2 =>
      cases h2
      exact ⟨_, (C65_not ho.logic ho.truth h1.2 s).1, rfl, _, rfl, ho.truth _⟩
  · cases h
    cases hx with
    | cons h1 h2 =>
      cases h2 with
      | cons h3 h4 =>
        cases h4 with
        | cons h5 h6 =>
          cases h6
          have noArr : ∀ {z : Opd S U R} {v : Spec.Plain}, HasPlain num? Q asBool T z v → ∀ l, z.value ≠ .arr l := by
            intro z v hz l e
            obtain ⟨w, hw⟩ := hz.scalar
            rw [hw] at e
            cases e
          refine ⟨_, C29_then c ho.logic h1.2 (noArr h3) (noArr h5) s, ?_⟩
          have same : ∀ {z : Opd S U R} {v : Spec.Plain}, HasPlain num? Q asBool T z v →
              HasPlain num? Q asBool T (⟨z.value, z.unit, z.ref, none⟩ : Opd S U R) v := by
            intro z v hz
            cases v with
            | num q => exact hz
            | truth b => exact hz
            | text t => exact hz
          split
          · exact same h3
          · exact same h5
  · cases hx with
    | cons h1 h2 =>
      cases h2 with
      | cons h3 h4 =>
        cases h4
        exact texts_do ho hk hshow powF others h h1 h3 s
  · cases h

omit ho in
/-- The value of a word. -/
theorem word_does (hp : 1 ≤ p) {τ : Type} (hread : ∀ n, num? (ofNum n) = some n)
    (htyp : ∀ n, Q (ofNum n)) (htruth : ∀ b, asBool (ofBool b) = some b)
    {T : Texts S U Ref} (htext : ∀ t, T.text? (T.ofText t) = some t) (nothing : S)
    (others : Parse.Item → Act (St S U τ) (Opd S U Ref)) {env : String → Option Spec.Plain}
    {s : St S U τ} (henv : ∀ n v, env n = some v → ∃ w, s.vars n = some (w, none) ∧
      HasPlain num? Q asBool T (⟨w, none, none, none⟩ : Opd S U Ref) v)
    {k : Kind} {t : Text} {v : Spec.Plain} (h : Word p env k t v) :
    ∃ x, wordVal p ofNum ofBool T nothing others (.leaf k t) s = (.ok x, s) ∧ HasPlain num? Q asBool T x v := by
  cases h with
  | @number neg whole frac ip fp h1 h2 h3 h4 =>
    obtain ⟨n, e1, e2, e3, _⟩ := decimal_literal (neg := neg) (ip := whole) h4
    refine ⟨⟨.sc (ofNum n), none, some .other, none⟩, ?_, n, ⟨rfl, e2, _, rfl, hread n, htyp n⟩, ?_⟩
    · have := matchDecimal_assemble (neg := neg) h1.ten.1 h2 h3.ten.1
      unfold assemble at this
      simp only [wordVal, parseDecimal, this, e1]
      rfl
    · rw [e3, decimalOf_positional h1 h3]
  | «true» ht =>
    refine ⟨_, rfl, rfl, _, rfl, ?_⟩
    rw [htruth]
    simp [lowerText, ht]
  | «false» ht =>
    refine ⟨_, rfl, rfl, _, rfl, ?_⟩
    rw [htruth]
    simp [lowerText, ht]
  | text u =>
    have h1 := stringLoop_quoted (sym := '\'') (esc := '\\') (by decide) [] u
    refine ⟨⟨.sc (T.ofText u), none, some .other, none⟩, ?_, rfl, _, rfl, htext u⟩
    rw [wordVal, Parse.Spec.quoted, List.cons_append, List.tail_cons]
    simp only [h1]
  | var he =>
    obtain ⟨w, h1, h2⟩ := henv _ _ he
    refine ⟨⟨w, none, some (.var (String.ofList t)), none⟩, by simp [wordVal, State.readVar, h1], ?_⟩
    cases v with
    | num q => exact h2
    | truth b => exact h2
    | text u => exact h2

end

section
variable {V σ : Type}

open Classical in
/-- What an operator gives, if it leaves the state `s` alone. -/
noncomputable def outcome (call : String → List V → Act σ V) (good : V → Prop) (s : σ) (o : String)
    (ins : List V) : Except String V :=
  if h : ∃ v, call o ins s = (.ok v, s) ∧ good v then .ok h.choose else .error "no value"

theorem outcome_ok {call : String → List V → Act σ V} {good : V → Prop} {s : σ} {o : String}
    {ins : List V} {v : V} : outcome call good s o ins = .ok v ↔ call o ins s = (.ok v, s) ∧ good v := by
  unfold outcome
  constructor
  · intro h
    split at h
    · rename_i hx
      cases h
      exact hx.choose_spec
    · cases h
  · intro h
    have hx : ∃ v, call o ins s = (.ok v, s) ∧ good v := ⟨v, h⟩
    rw [dif_pos hx]
    have := h.1.symm.trans hx.choose_spec.1
    injection this with e _
    injection e with e
    rw [← e]

end

section
variable {S U K τ : Type} {c : Calc S U Ref K} {num? : S → Option Number} {ofNum : Number → S}
  {asBool : S → Option Bool} {ofBool : Bool → S} {ua : UnitAlgebra S U} {Q : S → Prop} {T : Texts S U Ref} {p : ℕ} {rounding : Bool}

/-- The engine of the shipped calculator with these numbers and truth values. -/
def numEngine (p : ℕ) (num? : S → Option Number) (ofNum : Number → S) (ua : UnitAlgebra S U)
    (asBool : S → Option Bool) (ofBool : Bool → S) (T : Texts S U Ref) (powF : ℚ → ℚ → Except Err ℚ) (c : Calc S U Ref K)
    (others : String → List (Opd S U Ref) → Act (St S U τ) (Opd S U Ref))
    (mkErr : ExecErr → Opd S U Ref) (base : S → ℕ) (offset : S → ℤ)
    (funcs : String → Option (FuncDef (Opd S U Ref) (St S U τ))) :
    Config (Opd S U Ref) (St S U τ) :=
  shipped (callOf p num? ofNum ua asBool ofBool T powF c others) (fun x => (unitValue ua x).isSome) mkErr
    (fun x => x.value.err?) (funcsOf p num? ofNum T base offset c funcs)

/-- Neither a unit nor an error. -/
def Good (ua : UnitAlgebra S U) (x : Opd S U Ref) : Prop :=
  (unitValue ua x).isSome = false ∧ x.value.err? = none

theorem HasPlain.good (ho : Arithmetical c num? ofNum asBool ofBool ua Q T) {x : Opd S U Ref} {v : Spec.Plain}
    (h : HasPlain num? Q asBool T x v) : Good ua x := by
  cases v with
  | num q =>
    obtain ⟨n, ⟨_, _, w, e1, e2, _⟩, _⟩ := h
    simp [Good, unitValue, e1, ho.notUnit w n e2, Val.err?]
  | truth b =>
    obtain ⟨_, w, e1, e2⟩ := h
    simp [Good, unitValue, e1, ho.notUnit' w b e2, Val.err?]
  | text t =>
    obtain ⟨_, w, e1, e2⟩ := h
    simp [Good, unitValue, e1, ho.notUnit'' w t e2, Val.err?]

/-- Calling a function by its name. -/
def callFunc {V σ : Type} (funcs : String → Option (FuncDef V σ)) (w : String) (vs : List V) : Act σ V := fun s =>
  match funcs w with
  | some fd => fd.call vs s
  | none => (.error (.py "KeyError"), s)

/-- The words, operators and functions of the calculator do what they give in the state `s`. -/
theorem engine_does (act : String → List (Opd S U Ref) → Act (St S U τ) (Opd S U Ref))
    (words : Parse.Item → Act (St S U τ) (Opd S U Ref))
    (funcs : String → Option (FuncDef (Opd S U Ref) (St S U τ))) (s : St S U τ) :
    Does words act (fun x => (unitValue ua x).isSome)
      (fun x => x.value.err?) funcs s
      (fun it x => words it s = (.ok x, s) ∧ Good ua x)
      (outcome act (Good ua) s) (outcome (callFunc funcs) (Good ua) s) := by
  refine ⟨fun it x h => ⟨h.1, h.2⟩, fun o ins x h => ?_, fun o ins x _ h => ?_, fun w vs x h => ?_⟩
  · obtain ⟨h1, h2⟩ := outcome_ok.1 h
    exact ⟨h1, h2.2⟩
  · exact (outcome_ok.1 h).2.1
  · obtain ⟨h1, h2⟩ := outcome_ok.1 h
    unfold callFunc at h1
    cases hf : funcs w with
    | none => rw [hf] at h1; cases h1
    | some fd => rw [hf] at h1; exact ⟨fd, rfl, h1, h2⟩

theorem nearest_rhu (q : ℚ) : nearest q = rhu q := by
  unfold nearest rhu
  split
  · rfl
  · rw [← Int.ceil_neg]
    congr 1
    ring

/-- Rounding to places. -/
theorem rounded_does (ho : Arithmetical c num? ofNum asBool ofBool ua Q T) {k : ℕ} (hk : 3 * k + 1 ≤ p)
    {base : S → ℕ} {offset : S → ℤ} {rounding : Bool}
    (hround : rounding = true → ∀ w, Q w → base w = 10 ∧ offset w = 0) {name : String}
    {f : Number → Except Err Number} {g : ℚ → ℤ}
    (hg : ∀ v : Number, v.Canonical → 10 * |v.num| < 10 ^ p → f v = .ok ⟨g v.val, 1⟩)
    (hb1 : ∀ q : ℚ, |(g q : ℚ)| ≤ |q| + 1) {a n : ℚ} {w : Spec.Plain}
    (h : rounded k rounding g a n = .ok w) {x : Opd S U Ref} {ys : List (Opd S U Ref)}
    (hx : HasPlain num? Q asBool T x (.num a))
    (hy : ys = [] ∧ n = 0 ∨ ∃ y, ys = [y] ∧ HasPlain num? Q asBool T y (.num n)) (s : St S U τ) :
    ∃ r, call c (opRounding p num? ofNum base offset name f) (x :: ys) s = (.ok r, s) ∧
      HasPlain num? Q asBool T r w := by
  unfold rounded at h
  split at h
  swap
  · cases h
  rename_i hcond
  obtain ⟨hr, hd, h0, hnk⟩ := hcond
  obtain ⟨h1, h2, rfl⟩ := short_ok h
  obtain ⟨m, hm, rfl⟩ := hx
  obtain ⟨v, hv, hva, hvq⟩ := isNum_of ho hm
  obtain ⟨hb, hoff⟩ := hround hr v hvq
  have dm := short_digits hm.2.1 h1
  have up : ∀ j, j ≤ p → (10:ℤ) ^ j ≤ 10 ^ p := fun j hj => pow_le_pow_right₀ (by norm_num) hj
  have hnum : (n.num : ℚ) = n := by
    conv_rhs => rw [← Rat.num_div_den n, hd]
    simp
  have hn0 : 0 ≤ n.num := Rat.num_nonneg.2 h0
  have hnat : (n.num.toNat : ℤ) = n.num := Int.toNat_of_nonneg hn0
  have hle : n.num.toNat ≤ k := by
    rw [← hnum] at hnk
    have : n.num ≤ k := by exact_mod_cast hnk
    omega
  obtain ⟨ws, hws, hq⟩ : ∃ ws, Places c num? p ys ws n.num ∧ ∀ w ∈ ws, Q w := by
    rcases hy with ⟨rfl, rfl⟩ | ⟨y, rfl, b, hb', e⟩
    · exact ⟨[], .none, by simp⟩
    · obtain ⟨w, hw, hwb, hwq⟩ := isNum_of ho hb'
      refine ⟨[w], .given hw hwb ?_, by simpa using hwq⟩
      obtain ⟨e1, e2⟩ := canonical_val_num hb'.2.1
      have eb : b = ⟨n.num, 1⟩ := by
        obtain ⟨bn, bd⟩ := b
        simp only at e1 e2
        rw [e] at e1 e2
        rw [e1, e2, hd]
        rfl
      rw [eb, Number.toInt, toDecimal_int (lt_of_lt_of_le h2.1 (up k (by omega))), truncQ_intCast]
  obtain ⟨q, hq1, hq2, hq3⟩ := scaled_spec (p := p) (by omega) (f := f) (b := 10) (n := n.num.toNat) (by norm_num)
    hm.2.1 (g := g) (by
      have hk1 : n.num.toNat + 1 ≤ k + 1 := by omega
      have h3 : |m.num * ((10:ℕ):ℤ) ^ n.num.toNat| ≤ (10 ^ k - 1) * 10 ^ n.num.toNat := by
        rw [abs_mul, abs_pow]
        refine mul_le_mul ?_ (by norm_num) (by positivity) ?_
        · have := dm.1
          omega
        · have : (1:ℤ) ≤ 10 ^ k := one_le_pow₀ (by norm_num)
          omega
      have h4 : (1:ℤ) ≤ 10 ^ n.num.toNat := one_le_pow₀ (by norm_num)
      have h5 : (10:ℤ) * ((10 ^ k - 1) * 10 ^ n.num.toNat) + 10 ≤ 10 ^ (k + n.num.toNat + 1) := by
        rw [pow_succ, pow_add]
        nlinarith
      have hk0 : k ≠ 0 := by
        rintro rfl
        have := h1.2
        have := m.val.den_pos
        omega
      have h6 : (10:ℤ) ^ (k + n.num.toNat + 1) < 10 ^ p := pow_lt_pow_right₀ (by norm_num) (by omega)
      omega) (by
      have := dm.2
      have h3 := up k (by omega)
      have := le_abs_self m.den
      omega) (by
      have : (10:ℤ) ^ n.num.toNat ≤ 10 ^ k := pow_le_pow_right₀ (by norm_num) hle
      have : (10:ℤ) ^ k < 10 ^ p := pow_lt_pow_right₀ (by norm_num) (by omega)
      push_cast
      omega) hg hb1
  obtain ⟨r, hr1, hr2⟩ := (rounding_call (p := p) (name := name) (f := f) (base := base) (offset := offset) ho.numbers
    ho.isNumber hv hva hws s).1 q (by rw [hb, hoff, add_zero, ← hnat]; exact hq1)
  refine ⟨r, hr1, q, result_number ho (ws := v :: ws) (by simpa [hvq] using hq) hm.1 hq2 hr2, ?_⟩
  rw [hq3]
  norm_num

/-- Each function does what is taught, on numbers that are short enough. -/
theorem functions_do (ho : Arithmetical c num? ofNum asBool ofBool ua Q T) {k : ℕ} (hk : 3 * k + 1 ≤ p)
    {base : S → ℕ} {offset : S → ℤ} {rounding : Bool}
    (hround : rounding = true → ∀ w, Q w → base w = 10 ∧ offset w = 0) (hshow : rounding = true → ShowsWhole k num? Q T)
    (funcs : String → Option (FuncDef (Opd S U Ref) (St S U τ))) {o : String} {ws : List Spec.Plain}
    {w : Spec.Plain} {xs : List (Opd S U Ref)} (h : schoolFunctions k rounding o ws = .ok w)
    (hx : List.Forall₂ (HasPlain num? Q asBool T) xs ws) (s : St S U τ) :
    ∃ r, callFunc (funcsOf p num? ofNum T base offset c funcs) o xs s = (.ok r, s) ∧
      HasPlain num? Q asBool T r w := by
  have hp : 1 ≤ p := by omega
  have up : ∀ j, j ≤ p → (10:ℤ) ^ j ≤ 10 ^ p := fun j hj => pow_le_pow_right₀ (by norm_num) hj
  have dens : ∀ {n : Number}, n.Digits k → |n.num * n.den| < 10 ^ p := by
    intro n hn
    exact lt_of_lt_of_le (abs_mul_lt hn.1 hn.2 (k := 2 * k) (by omega)) (up _ (by omega))
  have whole : ∀ {q : ℚ}, q.den = 1 → (q.num : ℚ) = q := by
    intro q hd
    conv_rhs => rw [← Rat.num_div_den q, hd]
    simp
  have one : ∀ {a : ℚ} {xs : List (Opd S U Ref)}, List.Forall₂ (HasPlain num? Q asBool T) xs [.num a] →
      ∃ x, xs = [x] ∧ HasPlain num? Q asBool T x (.num a) := by
    intro a xs h
    cases h with
    | cons h1 h2 => cases h2; exact ⟨_, rfl, h1⟩
  have two' : ∀ {a b : ℚ} {xs : List (Opd S U Ref)}, List.Forall₂ (HasPlain num? Q asBool T) xs [.num a, .num b] →
      ∃ x y, xs = [x, y] ∧ HasPlain num? Q asBool T x (.num a) ∧ HasPlain num? Q asBool T y (.num b) := by
    intro a b xs h
    cases h with
    | cons h1 h2 =>
      cases h2 with
      | cons h3 h4 => cases h4; exact ⟨_, _, rfl, h1, h3⟩
  have integers : ∀ (name : String) (f : ℤ → ℤ → ℕ) {a b : ℚ} {xs : List (Opd S U Ref)},
      List.Forall₂ (HasPlain num? Q asBool T) xs [.num a, .num b] → a.den = 1 → b.den = 1 → Short k a → Short k b →
      ∃ r, call c (opIntegers p num? ofNum name f) xs s = (.ok r, s) ∧
        HasPlain num? Q asBool T r (.num (f a.num b.num : ℕ)) := by
    intro name f a b xs hx ha hb h1 h2
    obtain ⟨x, y, rfl, ⟨m, hm, rfl⟩, n, hn, rfl⟩ := two' hx
    obtain ⟨v, hv, hva, hvq⟩ := isNum_of ho hm
    obtain ⟨w, hw, hwb, hwq⟩ := isNum_of ho hn
    obtain ⟨r, hr1, hr2⟩ := (integers_call (name := name) (f := f) hp ho.numbers ho.isNumber hv hw hva hwb hm.2.1
      hn.2.1 (dens (short_digits hm.2.1 h1)) (dens (short_digits hn.2.1 h2)) ho.plain hm.1 hn.1 s).1
      m.val.num n.val.num (whole ha).symm (whole hb).symm
    exact ⟨r, hr1, _, result_number ho (ws := [v, w]) (by simp [hvq, hwq]) hm.1 (canonical_int _) hr2,
      by rw [val_int]; simp⟩
  have floors : ∀ v : Number, v.Canonical → 10 * |v.num| < 10 ^ p →
      (fun v => Except.ok (Number.floor p v) : Number → Except Err Number) v = .ok ⟨⌊v.val⌋, 1⟩ := by
    intro v hv h
    have hh : 5 * |v.num| < 10 ^ p := by have := abs_nonneg v.num; omega
    simp only [Number.floor, floor_toDecimal hp hv.1 hh]
  have floors' : ∀ q : ℚ, |((⌊q⌋ : ℤ) : ℚ)| ≤ |q| + 1 := by
    intro q
    have h1 := Int.floor_le q
    have h2 := Int.lt_floor_add_one q
    rw [abs_le]
    constructor <;> cases abs_cases q <;> linarith
  have ceils : ∀ v : Number, v.Canonical → 10 * |v.num| < 10 ^ p →
      (fun v => Except.ok (Number.ceil p v) : Number → Except Err Number) v = .ok ⟨⌈v.val⌉, 1⟩ := by
    intro v hv h
    have hh : 5 * |v.num| < 10 ^ p := by have := abs_nonneg v.num; omega
    simp only [Number.ceil, ceil_toDecimal hp hv.1 hh]
  have ceils' : ∀ q : ℚ, |((⌈q⌉ : ℤ) : ℚ)| ≤ |q| + 1 := by
    intro q
    have h1 := Int.le_ceil q
    have h2 := Int.ceil_lt_add_one q
    rw [abs_le]
    constructor <;> cases abs_cases q <;> linarith
  have rounds : ∀ v : Number, v.Canonical → 10 * |v.num| < 10 ^ p →
      (fun v => Number.round p v 0) v = .ok ⟨nearest v.val, 1⟩ := by
    intro v hv h
    simp only
    rw [round_exact hp 0 hv.1 (by simpa using h) (by omega), nearest_rhu]
    simp
  have rounds' : ∀ q : ℚ, |((nearest q : ℤ) : ℚ)| ≤ |q| + 1 := by
    intro q
    rw [nearest_rhu]
    have h1 := rhu_abs_sub_le q
    rw [abs_le] at h1 ⊢
    constructor <;> cases abs_cases q <;> linarith
  have first : ∀ {a : ℚ} {xs : List (Opd S U Ref)}, List.Forall₂ (HasPlain num? Q asBool T) xs [.num a] →
      ∃ x ys, xs = x :: ys ∧ HasPlain num? Q asBool T x (.num a) ∧
        (ys = [] ∧ (0:ℚ) = 0 ∨ ∃ y, ys = [y] ∧ HasPlain num? Q asBool T y (.num 0)) := by
    intro a xs h
    obtain ⟨x, rfl, hx⟩ := one h
    exact ⟨x, [], rfl, hx, .inl ⟨rfl, rfl⟩⟩
  have second : ∀ {a n : ℚ} {xs : List (Opd S U Ref)}, List.Forall₂ (HasPlain num? Q asBool T) xs [.num a, .num n] →
      ∃ x ys, xs = x :: ys ∧ HasPlain num? Q asBool T x (.num a) ∧
        (ys = [] ∧ n = 0 ∨ ∃ y, ys = [y] ∧ HasPlain num? Q asBool T y (.num n)) := by
    intro a n xs h
    obtain ⟨x, y, rfl, h1, h2⟩ := two' h
    exact ⟨x, [y], rfl, h1, .inr ⟨y, rfl, h2⟩⟩
  unfold schoolFunctions at h
  split at h
  · obtain ⟨h1, _, rfl⟩ := short_ok h
    obtain ⟨x, rfl, m, hm, rfl⟩ := one hx
    obtain ⟨v, hv, hva, hvq⟩ := isNum_of ho hm
    obtain ⟨r, n, hr1, hr2, hn1, hn2⟩ := C66_abs ho.numbers ho.isNumber hv hva hm.2.1
      (lt_of_lt_of_le (short_digits hm.2.1 h1).1 (up k (by omega))) ⟨hm.1, ho.plain⟩ s
    exact ⟨r, hr1, n, result_number ho (ws := [v]) (by simpa using hvq) hm.1 hn1 hr2, hn2⟩
  · split at h
    swap
    · cases h
    rename_i hc
    obtain ⟨h1, _, rfl⟩ := short_ok h
    obtain ⟨x, rfl, m, hm, rfl⟩ := one hx
    obtain ⟨v, hv, hva, hvq⟩ := isNum_of ho hm
    obtain ⟨r, hr1, hr2⟩ := (C66_fact hp ho.numbers ho.isNumber hv hva hm.2.1 (dens (short_digits hm.2.1 h1))
      ⟨hm.1, ho.plain⟩ s).1 m.val.num.toNat (by
        rw [← whole hc.1]
        have : 0 ≤ m.val.num := Rat.num_nonneg.2 hc.2
        have e := Int.toNat_of_nonneg this
        rw [← whole hc.1] at this
        simp only [Rat.num_intCast]
        exact_mod_cast e.symm)
    exact ⟨r, hr1, _, result_number ho (ws := [v]) (by simpa using hvq) hm.1 (canonical_int _) hr2,
      by rw [val_int]; simp⟩
  · split at h
    swap
    · cases h
    rename_i hc
    obtain ⟨h1, h2, rfl⟩ := short_ok h
    exact integers "gcd" Int.gcd hx hc.1 hc.2 h1 h2
  · split at h
    swap
    · cases h
    rename_i hc
    obtain ⟨h1, h2, rfl⟩ := short_ok h
    exact integers "lcm" Int.lcm hx hc.1 hc.2 h1 h2
  · obtain ⟨x, ys, rfl, h1, h2⟩ := first hx
    exact rounded_does ho hk hround floors floors' h h1 h2 s
  · obtain ⟨x, ys, rfl, h1, h2⟩ := second hx
    exact rounded_does ho hk hround floors floors' h h1 h2 s
  · obtain ⟨x, ys, rfl, h1, h2⟩ := first hx
    exact rounded_does ho hk hround ceils ceils' h h1 h2 s
  · obtain ⟨x, ys, rfl, h1, h2⟩ := second hx
    exact rounded_does ho hk hround ceils ceils' h h1 h2 s
  · obtain ⟨x, ys, rfl, h1, h2⟩ := first hx
    exact rounded_does ho hk hround rounds rounds' h h1 h2 s
  · obtain ⟨x, ys, rfl, h1, h2⟩ := second hx
    exact rounded_does ho hk hround rounds rounds' h h1 h2 s
  · cases h
    cases hx with
    | cons h1 h2 =>
      cases h2 with
      | cons h3 h4 =>
        cases h4
        exact ⟨_, lstrip_does ho h1.2.reads h3.2 s, has_text ho _⟩
  · split at h
    · rename_i hi
      cases h
      cases hx with
      | cons h1 h2 =>
        cases h2 with
        | cons h3 h4 =>
          cases h4
          obtain ⟨r, h5, h6⟩ := C55_substr_rest ho.strings h1.2.reads (is_int (p := p) ho (by omega) hi.1 hi.2 h3) s
          rw [Texts.between_eq h6] at h5
          exact ⟨_, h5, has_text ho _⟩
    · cases h
  · split at h
    · rename_i hi
      cases h
      cases hx with
      | cons h1 h2 =>
        cases h2 with
        | cons h3 h4 =>
          cases h4 with
          | cons h7 h8 =>
            cases h8
            obtain ⟨r, h5, h6⟩ := C55_substr_partial ho.strings h1.2.reads (is_int (p := p) ho (by omega) hi.1 hi.2.1 h3)
              (is_int (p := p) ho (by omega) hi.2.2.1 hi.2.2.2.1 h7) (by
                have := hi.2.2.2.2
                unfold placeIn at this
                split at this
                · exact .inr ⟨h1.2, this⟩
                · exact .inl (by omega)) s
            rw [Texts.between_eq h6] at h5
            exact ⟨_, h5, has_text ho _⟩
    · cases h
  · split at h
    · rename_i ts hts
      obtain ⟨fd, h1, r, h2, h3⟩ := textFunctions_do (p := p) (base := base) (offset := offset) ho hp funcs h (texts_read ho hshow hts hx) s
      refine ⟨r, ?_, h3⟩
      simp only [callFunc, h1, h2]
    · cases h

/-- What an expression means in arithmetic it means for the calculator. -/
theorem arithmetic_means (ho : Arithmetical c num? ofNum asBool ofBool ua Q T) {k : ℕ} (hk : 3 * k + 1 ≤ p)
    (powF : ℚ → ℚ → Except Err ℚ) (nothing : S)
    (others : String → List (Opd S U Ref) → Act (St S U τ) (Opd S U Ref))
    (words : Parse.Item → Act (St S U τ) (Opd S U Ref)) {base : S → ℕ} {offset : S → ℤ} {rounding : Bool}
    (hround : rounding = true → ∀ w, Q w → base w = 10 ∧ offset w = 0) (hshow : rounding = true → ShowsWhole k num? Q T)
    (funcs : String → Option (FuncDef (Opd S U Ref) (St S U τ)))
    {env : String → Option Spec.Plain} {s : St S U τ}
    (henv : ∀ n v, env n = some v → ∃ w, s.vars n = some (w, none) ∧
      HasPlain num? Q asBool T (⟨w, none, none, none⟩ : Opd S U Ref) v)
    {its : List Parse.Item} {v : Spec.Plain}
    (hm : Means (onlyWords (Word p env)) (school k rounding) (schoolFunctions k rounding) its v) :
    ∃ x, Means (fun it x => wordVal p ofNum ofBool T nothing words it s = (.ok x, s) ∧ Good ua x)
      (outcome (callOf p num? ofNum ua asBool ofBool T powF c others) (Good ua) s)
      (outcome (callFunc (funcsOf p num? ofNum T base offset c funcs)) (Good ua) s) its x ∧ HasPlain num? Q asBool T x v :=
  means_map (R := HasPlain num? Q asBool T)
    (fun it w h => by
      cases it with
      | leaf k t =>
        obtain ⟨x, h1, h2⟩ := word_does (by omega) ho.read ho.untyped ho.truth ho.strings.back nothing words henv h
        exact ⟨x, ⟨h1, h2.good ho⟩, h2⟩
      | nest => cases h)
    (fun o ws w xs h hxs => by
      obtain ⟨r, h1, h2⟩ := school_does ho hk hshow powF others h hxs s
      exact ⟨r, outcome_ok.2 ⟨h1, h2.good ho⟩, h2⟩)
    (fun o ws w xs h hxs => by
      obtain ⟨r, h1, h2⟩ := functions_do ho hk hround hshow funcs h hxs s
      exact ⟨r, outcome_ok.2 ⟨h1, h2.good ho⟩, h2⟩) hm

/-- **C72**: calculating an expression of numbers, truth values, texts, variables, operators (of numbers,
truth values and texts), brackets and calls of `abs`, `floor`, `ceil`, `round`, `fact`, `gcd`, `lcm`,
`length`, `lower`, `upper`, `lstrip`, `rstrip`, `strip`, `find`, `replace` and `substr` gives exactly what
arithmetic and the documentation of the functions give (`Spec/Arithmetic`, `Spec/Texts`), and changes nothing, if the numbers an operator or function is applied to have at most `k` digits
above and below the line, where `3k+1` is at most the precision.  For the functions that round, and
where whole numbers stand for their digits, the variables hold decimal numbers that are not percentages. -/
theorem C72_arithmetic (ho : Arithmetical c num? ofNum asBool ofBool ua Q T) {k : ℕ} (hk : 3 * k + 1 ≤ p)
    (powF : ℚ → ℚ → Except Err ℚ) (word alpha : Char → Bool)
    (hw : ∀ c, c.toNat < 128 → word c = Parse.asciiWord c)
    (ha : ∀ c, c.toNat < 128 → alpha c = Parse.isLetter c)
    (names : List Text) (inc : List Parse.Item → Bool) (fi : Finish S U Ref) (nothing : S)
    (others : String → List (Opd S U Ref) → Act (St S U τ) (Opd S U Ref))
    (words : Parse.Item → Act (St S U τ) (Opd S U Ref)) (mkErr : ExecErr → Opd S U Ref)
    {base : S → ℕ} {offset : S → ℤ} {rounding : Bool}
    (hround : rounding = true → ∀ w, Q w → base w = 10 ∧ offset w = 0) (hshow : rounding = true → ShowsWhole k num? Q T)
    (funcs : String → Option (FuncDef (Opd S U Ref) (St S U τ)))
    {env : String → Option Spec.Plain} {s : St S U τ}
    (henv : ∀ n v, env n = some v → ∃ w, s.vars n = some (w, none) ∧
      HasPlain num? Q asBool T (⟨w, none, none, none⟩ : Opd S U Ref) v)
    {n : ℕ} {t : Text} {its : List Parse.Item}
    (hx : Parse.Spec.Expression (fullLex p powF word alpha) names n t its) {v : Spec.Plain}
    (hm : Means (onlyWords (Word p env)) (school k rounding) (schoolFunctions k rounding) its v) (m : Cache) (extra : ℕ) :
    ∃ x, HasPlain num? Q asBool T x v ∧
      calculateText (shippedCfg (fullLex p powF word alpha) names inc)
        (numEngine p num? ofNum ua asBool ofBool T powF c others mkErr base offset funcs)
        (wordVal p ofNum ofBool T nothing words) (finalize fi) (n + extra + 1) t m s
        = some (.ran [⟨some x, s⟩] .done, m, s) := by
  obtain ⟨x, hx1, hx2⟩ := arithmetic_means ho hk powF nothing others words hround hshow funcs henv hm
  obtain ⟨w, hw'⟩ := hx2.scalar
  exact ⟨x, hx2, C71_expression p powF word alpha hw ha
    (engine_does _ (wordVal p ofNum ofBool T nothing words) (funcsOf p num? ofNum T base offset c funcs) s) names inc (finalize fi) hx hx1
    (finalize_plain fi hw' hx2.unit s) m extra⟩

end
/-! ## Non-vacuity -/

/-- The texts of the examples. -/
def AS.texts : Texts AS Empty Ref where
  text? := fun x => match x with | .t s => some s | _ => none
  ofText := .t
  ofBool := .b
  num? := AS.num?
  ofNum := AS.ofNum
  render := fun v =>
    match v with
    | .sc (.b v) => .ok (if v then "True".toList else "False".toList)
    | .sc (.n x _) => if x.den = 1 then .ok (toString x.num).toList else .error (.py "TypeError")
    | _ => .error (.py "TypeError")
  lower := fun t => t.map Char.toLower
  upper := fun t => t.map Char.toUpper

/-- A calculator without validators, with the numbers and truth values of the examples in
`Props/Stats.lean`, and no units. -/
def mutedCalc : Calc AS Empty Ref ℕ where
  validator := fun _ => none
  number := fun x => match x with | .n a k => some (.n a k) | _ => none
  isNumber := fun x => match x with | .n _ _ => true | _ => false
  cast := fun x => match x with | .n _ k => k | _ => none
  setCast := fun k x => match x with | .n a _ => .n a (some k) | x => x
  normalise := some (fun l _ _ => .ok (l, none))
  toString := fun _ => .ok "x"

/-- The validators; that of arrays looks up the others, never with a sub-type. -/
def quietValidator (array : Opd AS Empty Ref → Option String → Except Raise Bool) (t : String) :
    Option (Opd AS Empty Ref → Option String → Except Raise Bool) :=
  if t = "array" then some array
  else if t = "number" then some (validateNumber mutedCalc)
  else if t = "boolean" then some (validateBoolean AS.asBool)
  else if t = "exception" then some validateException
  else if t = "string" then some (Strings.validateString AS.texts)
  else if t = "variable" then some State.validateVariable
  else none

/-- A calculator with numbers, truth values, texts and arrays. -/
def quietCalc : Calc AS Empty Ref ℕ :=
  { mutedCalc with
    validator := quietValidator (validateArray { mutedCalc with
      validator := quietValidator (fun x _ => validateArray mutedCalc x none) }) }

theorem quietCalc_strings : HasStrings quietCalc AS.texts where
  string := rfl
  number := rfl
  array := by
    show some _ = some _
    congr 1
    funext x sub
    unfold validateArray
    cases x.value with
    | sc v => rfl
    | exc e => rfl
    | arr els =>
      cases sub with
      | none => rfl
      | some t =>
        dsimp only
        induction els with
        | nil => rfl
        | cons e es ih =>
          unfold validateArray.go
          rw [ih]
          simp only [quietCalc, quietValidator]
          by_cases h : t = "array"
          · simp [h, validateArray]
          · simp [h]
  back := fun _ => rfl
  notNumber := fun _ => rfl

/-- There are no units. -/
def noAlgebra : UnitAlgebra AS Empty where
  unit? := fun _ => none
  ofUnit := fun u => nomatch u
  mul := fun u => nomatch u
  div := fun u => nomatch u
  power := fun u => nomatch u
  recip := fun u => nomatch u
  keep := id

/-- The numbers without a type. -/
def AS.Ten : AS → Prop
  | .n _ k => k = none
  | _ => True

/-- The base of a number type. -/
def AS.base : AS → ℕ
  | .n _ (some k) => k
  | _ => 10

theorem quietCalc_arithmetical : Arithmetical quietCalc AS.num? AS.ofNum AS.asBool AS.b noAlgebra AS.Ten AS.texts where
  numbers := rfl
  logic := ⟨rfl, rfl⟩
  plain := by
    intro f hf nums m r h
    cases hf
    rfl
  isNumber := fun _ => rfl
  notNumber := fun _ => rfl
  read := fun _ => rfl
  same := fun w n h => by
    cases w with
    | n a k => rfl
    | b v => cases h
    | t v => cases h
  cast := fun k w n h => by
    cases w with
    | n a k => exact h
    | b v => cases h
    | t v => cases h
  truth := fun _ => rfl
  notUnit := fun _ _ _ => rfl
  notUnit' := fun _ _ _ => rfl
  untyped := fun _ => rfl
  typed := fun w k w' h1 h2 h3 => by
    cases w with
    | n a j => cases h1; cases h2
    | b v => cases h2
    | t v => cases h2
  strings := quietCalc_strings
  textNum := rfl
  textOfNum := rfl
  textOfBool := rfl
  notUnit'' := fun _ _ _ => rfl
  shown := fun w b h => by
    cases w with
    | n a k => cases h
    | b v => cases h; exact ⟨rfl, rfl⟩
    | t v => cases h
  lower := fun _ _ => rfl
  upper := fun _ _ => rfl

theorem AS.shows (k : ℕ) : ShowsWhole k AS.num? AS.Ten AS.texts := by
  intro w n hq hn hd _
  cases w with
  | n a j =>
    cases hn
    exact ⟨rfl, if_pos hd⟩
  | b v => cases hn
  | t v => cases hn

/-- The items of `2*(width -1)>=5`. -/
def testItems : List Parse.Item :=
  [.leaf .num ['2'], .leaf .op ['*'],
   .nest .inner "(width -1)".toList (.leaf .innerStart ['('] :: [.leaf .var "width".toList,
     .leaf .space [' '], .leaf .op ['-'], .leaf .num ['1']] ++ [.leaf .innerEnd [')']]),
   .leaf .op ['>', '='], .leaf .num ['5']]

theorem test_written : Parse.Spec.Expression asciiFull [] 1 "2*(width -1)>=5".toList testItems := by
  refine Parse.Spec.Line.cons (t := ['2']) (rest := "*(width -1)>=5".toList)
    (.inl ⟨_, rfl, .num (demo_digit '2' (by decide)) ?_⟩) ?_
  · intro c hc
    cases hc
    decide
  refine Parse.Spec.Line.cons (t := ['*']) (rest := "(width -1)>=5".toList)
    (.inl ⟨_, rfl, demo_op ['*'] '(' (by decide +kernel) (by decide +kernel) (by decide) false⟩) ?_
  refine Parse.Spec.Line.cons (t := "(width -1)".toList) (rest := ">=5".toList)
    (.inr (.inl ⟨_, _, demo_inner, rfl, rfl⟩)) ?_
  refine Parse.Spec.Line.cons (t := ['>', '=']) (rest := ['5'])
    (.inl ⟨_, rfl, demo_op ['>', '='] '5' (by decide +kernel) (by decide +kernel) (by decide) _⟩) ?_
  refine Parse.Spec.Line.cons (t := ['5']) (rest := [])
    (.inl ⟨_, rfl, .num (demo_digit '5' (by decide)) ?_⟩) .nil
  intro c hc
  cases hc

/-- Where `width` is 3.5. -/
def widthEnv : String → Option Spec.Plain := fun n => if n = "width" then some (.num (7 / 2)) else none

theorem word_digit (c : Char) (d : ℕ) (h : digitValue c = some d) (hd : d < 10) :
    Word 30 widthEnv .num [c] (.num d) := by
  have := Word.number (p := 30) (env := widthEnv) (neg := false) (whole := [c]) (frac := [])
    (ip := [d]) (fp := []) (.cons ⟨h, hd⟩ .nil) (by simp) .nil (by norm_num)
  simpa [positionalQ, positional] using this

/-- `2*(width -1)>=5` means "true" where `width` is 3.5. -/
theorem test_means : Means (onlyWords (Word 30 widthEnv)) (school 9 true) (schoolFunctions 9 true) testItems (.truth true) := by
  have lift : ∀ {toks : List (Tok Spec.Plain)} {v : Spec.Plain} (i j : ℕ),
      Spec.Reads documented (school 9 true) i toks v → Spec.Reads documented (school 9 true) (i + j) toks v := by
    intro toks v i j h
    induction j with
    | zero => exact h
    | succ j ih => exact .up ih
  have inner : Means (onlyWords (Word 30 widthEnv)) (school 9 true) (schoolFunctions 9 true)
      [.leaf .var "width".toList, .leaf .space [' '], .leaf .op ['-'], .leaf .num ['1']]
      (.num (7 / 2 - 1)) := by
    refine .phrase (toks := [.val (.num (7 / 2)), .op "-", .val (.num (1 : ℕ))]) ?_ ?_
    · refine .word (by decide) (.var rfl) (.skip (by decide) (.op (.word (by decide) ?_ .nil)))
      exact word_digit '1' 1 (by decide) (by norm_num)
    · refine lift 8 8 (toks := [.val (.num (7 / 2))] ++ .op "-" :: [.val (.num (1 : ℕ))])
        (.left (k := 7) (o := "-") (v := .num (7 / 2)) (w := .num (1 : ℕ)) rfl
        (by decide) (lift 0 8 (.atom _)) (lift 0 7 (.atom _)) ?_)
      simp only [school, short]
      rw [if_pos ⟨by decide +kernel, by decide +kernel⟩]
      norm_num
  refine .phrase (toks := [.val (.num (2 : ℕ)), .op "*", .val (.num (7 / 2 - 1)), .op ">=",
    .val (.num (5 : ℕ))]) ?_ ?_
  · refine .word (by decide) (word_digit '2' 2 (by decide) (by norm_num)) (.op (.bracket inner (.op
      (.word (by decide) (word_digit '5' 5 (by decide) (by norm_num)) .nil))))
  · refine lift 10 6 (toks := [.val (.num (2 : ℕ)), .op "*", .val (.num (7 / 2 - 1))] ++ .op ">=" ::
      [.val (.num (5 : ℕ))]) (.left (k := 9) (o := ">=") (v := .num 5) (w := .num (5 : ℕ)) rfl (by decide)
      (lift 7 3 (toks := [.val (.num (2 : ℕ))] ++ .op "*" :: [.val (.num (7 / 2 - 1))])
        (.left (k := 6) (o := "*") (v := .num (2 : ℕ)) (w := .num (7 / 2 - 1)) rfl
        (by decide) (lift 0 7 (.atom _)) (lift 0 6 (.atom _)) ?_)) (lift 0 9 (.atom _)) ?_)
    · simp only [school, short]
      rw [if_pos ⟨by decide +kernel, by decide +kernel⟩]
      norm_num
    · simp only [school, short]
      rw [if_pos ⟨by decide +kernel, by decide +kernel⟩]
      norm_num

/-- `width` holds 3.5. -/
theorem width_holds {s : St AS Empty ℕ} (hs : s.vars "width" = some (.sc (.n ⟨7, 2⟩ none), none)) :
    ∀ n v, widthEnv n = some v → ∃ w, s.vars n = some (w, none) ∧
      HasPlain AS.num? AS.Ten AS.asBool AS.texts (⟨w, none, none, none⟩ : Opd AS Empty Ref) v := by
  intro n v h
  unfold widthEnv at h
  split at h
  · rename_i e
    cases h
    subst e
    refine ⟨_, hs, ⟨7, 2⟩, ⟨rfl, ⟨by norm_num, by decide⟩, _, rfl, rfl, rfl⟩, ?_⟩
    norm_num [Number.val]
  · cases h

theorem ten_base : ∀ w, AS.Ten w → AS.base w = 10 ∧ (fun _ => 0 : AS → ℤ) w = 0
  | .n _ none, _ => ⟨rfl, rfl⟩
  | .n _ (some _), h => by cases h
  | .b _, _ => ⟨rfl, rfl⟩
  | .t _, _ => ⟨rfl, rfl⟩

/-- The engine of the examples. -/
def quietEngine : Config (Opd AS Empty Ref) (St AS Empty ℕ) :=
  numEngine 30 AS.num? AS.ofNum noAlgebra AS.asBool AS.b AS.texts (fun _ _ => .ok 0) quietCalc
    (fun _ _ s => (.error (.calc "no"), s)) (fun _ => ⟨.sc (.b false), none, none, none⟩) AS.base (fun _ => 0)
    (fun _ => none)

/-- Non-vacuity: with `width` set to 3.5, `2*(width -1)>=5` is answered with `true`. -/
example (m : Cache) (s : St AS Empty ℕ)
    (hs : s.vars "width" = some (.sc (.n ⟨7, 2⟩ none), none)) :
    ∃ x, HasPlain AS.num? AS.Ten AS.asBool AS.texts x (.truth true) ∧
      calculateText (shippedCfg asciiFull [] (fun _ => false)) quietEngine
        (wordVal 30 AS.ofNum AS.b AS.texts (.b false) (fun _ s => (.error (.calc "no"), s)))
        (finalize ⟨true, fun _ => false, fun v _ => .ok (v, none)⟩) 2 "2*(width -1)>=5".toList m s
        = some (.ran [⟨some x, s⟩] .done, m, s) :=
  C72_arithmetic quietCalc_arithmetical (k := 9) (by norm_num) _ _ _ (fun _ _ => rfl) (fun _ _ => rfl) []
    _ _ _ _ _ _ (fun _ => ten_base) (fun _ => AS.shows 9) _ (width_holds hs) test_written test_means m 0

/-- The items of `round(width)*gcd(9,6)`. -/
def callItems : List Parse.Item :=
  [.nest .func "round(width)".toList (.leaf .funcName "round".toList :: .leaf .funcStart ['('] ::
     [.leaf .var "width".toList] ++ [.leaf .funcEnd [')']]),
   .leaf .op ['*'],
   .nest .func "gcd(9,6)".toList (.leaf .funcName "gcd".toList :: .leaf .funcStart ['('] ::
     ([.leaf .num ['9']] ++ .leaf .funcParam [','] :: [.leaf .num ['6']]) ++ [.leaf .funcEnd [')']])]

theorem call_written : Parse.Spec.Expression asciiFull ["round".toList, "gcd".toList] 1
    "round(width)*gcd(9,6)".toList callItems := by
  refine Parse.Spec.Line.cons (t := "round(width)".toList) (rest := "*gcd(9,6)".toList)
    (.inr (.inr (.inl ⟨"round".toList, "width".toList, _, ?_, by decide, .last ?_, rfl, rfl⟩))) ?_
  · exact ⟨⟨'r', "ound".toList, rfl, by decide, by decide⟩, by decide +kernel, by decide +kernel⟩
  · exact Parse.Spec.Line.cons (t := "width".toList) (rest := []) ⟨_, rfl, .var isVar_width
      (demo_ends ')' (by decide) (by decide)) (by decide) (demo_longer _ _ _ (by decide +kernel))
      (demo_longer _ _ _ (by decide +kernel))⟩ .nil
  refine Parse.Spec.Line.cons (t := ['*']) (rest := "gcd(9,6)".toList)
    (.inl ⟨_, rfl, demo_op ['*'] 'g' (by decide +kernel) (by decide +kernel) (by decide) false⟩) ?_
  refine Parse.Spec.Line.cons (t := "gcd(9,6)".toList) (rest := [])
    (.inr (.inr (.inl ⟨"gcd".toList, "9,6".toList, _, ?_, by decide,
      .more (t := ['9']) (ts := ['6']) ?_ (.last ?_), rfl, rfl⟩))) .nil
  · exact ⟨⟨'g', "cd".toList, rfl, by decide, by decide⟩, by decide +kernel, by decide +kernel⟩
  · refine Parse.Spec.Line.cons (t := ['9']) (rest := []) ⟨_, rfl, .num (demo_digit '9' (by decide)) ?_⟩ .nil
    intro c hc
    cases hc
    decide
  · refine Parse.Spec.Line.cons (t := ['6']) (rest := []) ⟨_, rfl, .num (demo_digit '6' (by decide)) ?_⟩ .nil
    intro c hc
    cases hc
    decide

theorem call_means : Means (onlyWords (Word 30 widthEnv)) (school 9 true) (schoolFunctions 9 true) callItems (.num 12) := by
  have lift : ∀ {toks : List (Tok Spec.Plain)} {v : Spec.Plain} (i j : ℕ),
      Spec.Reads documented (school 9 true) i toks v → Spec.Reads documented (school 9 true) (i + j) toks v := by
    intro toks v i j h
    induction j with
    | zero => exact h
    | succ j ih => exact .up ih
  refine .phrase (toks := [.val (.num 4), .op "*", .val (.num 3)]) (.call (vs := [.num (7 / 2)]) (.last ?_) ?_
    (.op (.call (vs := [.num (9 : ℕ), .num (6 : ℕ)]) (.more ?_ (.last ?_)) ?_ .nil))) ?_
  · exact .phrase (toks := [.val (.num (7 / 2))]) (.word (by decide) (.var rfl) .nil) (lift 0 16 (.atom _))
  · show rounded 9 true nearest (7 / 2) 0 = _
    unfold rounded short
    rw [if_pos (by decide +kernel), if_pos (by decide +kernel)]
    simp only [Except.ok.injEq, Spec.Plain.num.injEq]
    decide +kernel
  · exact .phrase (toks := [.val (.num (9 : ℕ))]) (.word (it := .leaf .num ['9']) (v := Spec.Plain.num (9 : ℕ)) (by decide) (word_digit '9' 9 (by decide) (by norm_num)) .nil)
      (lift 0 16 (.atom _))
  · exact .phrase (toks := [.val (.num (6 : ℕ))]) (.word (it := .leaf .num ['6']) (v := Spec.Plain.num (6 : ℕ)) (by decide) (word_digit '6' 6 (by decide) (by norm_num)) .nil)
      (lift 0 16 (.atom _))
  · rw [show String.ofList "gcd".toList = "gcd" from rfl]
    simp only [schoolFunctions, short]
    rw [if_pos (by decide +kernel), if_pos (by decide +kernel)]
    simp only [Except.ok.injEq, Spec.Plain.num.injEq]
    decide +kernel
  · refine lift 7 9 (toks := [.val (.num 4)] ++ .op "*" :: [.val (.num 3)]) (.left (k := 6) (o := "*")
      (v := .num 4) (w := .num 3) rfl (by decide) (lift 0 7 (.atom _)) (lift 0 6 (.atom _)) ?_)
    simp only [school, short]
    rw [if_pos ⟨by decide +kernel, by decide +kernel⟩]
    norm_num

/-- Non-vacuity: with `width` set to 3.5, `round(width)*gcd(9,6)` is answered with 12. -/
example (m : Cache) (s : St AS Empty ℕ)
    (hs : s.vars "width" = some (.sc (.n ⟨7, 2⟩ none), none)) :
    ∃ x, HasPlain AS.num? AS.Ten AS.asBool AS.texts x (.num 12) ∧
      calculateText (shippedCfg asciiFull ["round".toList, "gcd".toList] (fun _ => false)) quietEngine
        (wordVal 30 AS.ofNum AS.b AS.texts (.b false) (fun _ s => (.error (.calc "no"), s)))
        (finalize ⟨true, fun _ => false, fun v _ => .ok (v, none)⟩) 2 "round(width)*gcd(9,6)".toList m s
        = some (.ran [⟨some x, s⟩] .done, m, s) :=
  C72_arithmetic quietCalc_arithmetical (k := 9) (by norm_num) _ _ _ (fun _ _ => rfl) (fun _ _ => rfl) _
    _ _ _ _ _ _ (fun _ => ten_base) (fun _ => AS.shows 9) _ (width_holds hs) call_written call_means m 0

/-- The items of `find('it\\'s '+$width,'b')*2`. -/
def findItems : List Parse.Item :=
  [.nest .func "find('it\\'s '+$width,'b')".toList (.leaf .funcName "find".toList :: .leaf .funcStart ['('] ::
     ([.leaf .str "'it\\'s '".toList, .leaf .op ['+', '$'], .leaf .var "width".toList] ++ .leaf .funcParam [','] ::
       [.leaf .str "'b'".toList]) ++ [.leaf .funcEnd [')']]),
   .leaf .op ['*'], .leaf .num ['2']]

theorem find_written : Parse.Spec.Expression asciiFull ["find".toList] 1 "find('it\\'s '+$width,'b')*2".toList findItems := by
  refine Parse.Spec.Line.cons (t := "find('it\\'s '+$width,'b')".toList) (rest := "*2".toList)
    (.inr (.inr (.inl ⟨"find".toList, "'it\\'s '+$width,'b'".toList, _, ?_, by decide,
      .more (t := "'it\\'s '+$width".toList) (ts := "'b'".toList) ?_ (.last ?_), rfl, rfl⟩))) ?_
  · exact ⟨⟨'f', "ind".toList, rfl, by decide, by decide⟩, by decide +kernel, by decide +kernel⟩
  · refine Parse.Spec.Line.cons (t := "'it\\'s '".toList) (rest := "+$width".toList) ⟨_, rfl, .str "it's ".toList⟩ ?_
    refine Parse.Spec.Line.cons (t := ['+', '$']) (rest := "width".toList)
      ⟨_, rfl, demo_op ['+', '$'] 'w' (by decide +kernel) (by decide +kernel) (by decide) true⟩ ?_
    exact Parse.Spec.Line.cons (t := "width".toList) (rest := []) ⟨_, rfl, .var isVar_width
      (demo_ends ',' (by decide) (by decide)) (by decide) (demo_longer _ _ _ (by decide +kernel))
      (demo_longer _ _ _ (by decide +kernel))⟩ .nil
  · exact Parse.Spec.Line.cons (t := "'b'".toList) (rest := []) ⟨_, rfl, .str "b".toList⟩ .nil
  refine Parse.Spec.Line.cons (t := ['*']) (rest := ['2'])
    (.inl ⟨_, rfl, demo_op ['*'] '2' (by decide +kernel) (by decide +kernel) (by decide) false⟩) ?_
  refine Parse.Spec.Line.cons (t := ['2']) (rest := []) (.inl ⟨_, rfl, .num (demo_digit '2' (by decide)) ?_⟩) .nil
  intro c hc
  cases hc

/-- Where `width` is a text. -/
def textEnv : String → Option Spec.Plain := fun n => if n = "width" then some (.text "abc".toList) else none

theorem find_means : Means (onlyWords (Word 30 textEnv)) (school 9 true) (schoolFunctions 9 true) findItems (.num 12) := by
  have lift : ∀ {toks : List (Tok Spec.Plain)} {v : Spec.Plain} (i j : ℕ),
      Spec.Reads documented (school 9 true) i toks v → Spec.Reads documented (school 9 true) (i + j) toks v := by
    intro toks v i j h
    induction j with
    | zero => exact h
    | succ j ih => exact .up ih
  refine .phrase (toks := [.val (.num 6), .op "*", .val (.num (2 : ℕ))]) (.call (vs := [.text "it's abc".toList, .text "b".toList])
    (.more ?_ (.last ?_)) ?_ (.op (.word (by decide) ?_ .nil))) ?_
  · refine .phrase (toks := [.val (.text "it's ".toList), .op "+$", .val (.text "abc".toList)])
      (.word (by decide) (show Word 30 textEnv .str "'it\\'s '".toList _ from .text "it's ".toList) (.op (.word (by decide) (.var rfl) .nil))) ?_
    exact lift 8 8 (toks := [.val (.text "it's ".toList)] ++ .op "+$" :: [.val (.text "abc".toList)]) (.left (k := 7) (o := "+$")
      (v := .text "it's ".toList) (w := .text "abc".toList) rfl (by decide) (lift 0 8 (.atom _)) (lift 0 7 (.atom _)) rfl)
  · exact .phrase (toks := [.val (.text "b".toList)]) (.word (by decide) (show Word 30 textEnv .str "'b'".toList _ from .text "b".toList) .nil) (lift 0 16 (.atom _))
  · rfl
  · have := Word.number (p := 30) (env := textEnv) (neg := false) (whole := ['2']) (frac := [])
      (ip := [2]) (fp := []) (.cons ⟨by decide, by norm_num⟩ .nil) (by simp) .nil (by norm_num)
    simpa [onlyWords, positionalQ, positional] using this
  · refine lift 7 9 (toks := [.val (.num 6)] ++ .op "*" :: [.val (.num (2 : ℕ))]) (.left (k := 6) (o := "*")
      (v := .num 6) (w := .num (2 : ℕ)) rfl (by decide) (lift 0 7 (.atom _)) (lift 0 6 (.atom _)) ?_)
    simp only [school, short]
    rw [if_pos ⟨by decide +kernel, by decide +kernel⟩]
    norm_num

/-- Non-vacuity: with `width` set to the text `abc`, `find('it\\'s '+$width,'b')*2` is answered with 12. -/
example (m : Cache) (s : St AS Empty ℕ)
    (hs : s.vars "width" = some (.sc (.t "abc".toList), none)) :
    ∃ x, HasPlain AS.num? AS.Ten AS.asBool AS.texts x (.num 12) ∧
      calculateText (shippedCfg asciiFull ["find".toList] (fun _ => false)) quietEngine
        (wordVal 30 AS.ofNum AS.b AS.texts (.b false) (fun _ s => (.error (.calc "no"), s)))
        (finalize ⟨true, fun _ => false, fun v _ => .ok (v, none)⟩) 2 "find('it\\'s '+$width,'b')*2".toList m s
        = some (.ran [⟨some x, s⟩] .done, m, s) := by
  refine C72_arithmetic quietCalc_arithmetical (k := 9) (by norm_num) _ _ _ (fun _ _ => rfl) (fun _ _ => rfl) _
    _ _ _ _ _ _ (fun _ => ten_base) (fun _ => AS.shows 9) _ (env := textEnv) ?_ find_written find_means m 0
  intro n v h
  unfold textEnv at h
  split at h
  · rename_i e
    cases h
    subst e
    exact ⟨_, hs, rfl, _, rfl, rfl⟩
  · cases h

end MC.Props
