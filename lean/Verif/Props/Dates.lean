import Verif.Lemmas.DateCall
import Verif.Lemmas.DateText

/-! # C56: dates -/

namespace MC.Props
open MC.Dates MC.Strings MC.Arrays MC.Boolean MC.Numeric MC.Number MC.Spec
set_option linter.unusedSectionVars false

/-- **C56**: every text of a moment is read as this moment, and as no other. -/
theorem C56_reads {m : Moment} (hm : m.Exists) {s : List Char} (h : DateText m s) :
    toDate s = .ok (ofMoment m) ∧
      ∀ m' : Moment, m'.Exists → toDate s = .ok (ofMoment m') → m' = m := by
  obtain ⟨cl, fr, k, rfl, hk, h1, h2⟩ := shown_of_text hm h
  have hr := toDate_shown (inRange_ofMoment hm) hk h1 h2
  refine ⟨hr, ?_⟩
  intro m' hm' h'
  rw [hr] at h'
  have he : ofMoment m = ofMoment m' := Except.ok.inj h'
  obtain ⟨a1, a2, a3, a4, a5⟩ := day_facts hm
  obtain ⟨b1, b2, b3, b4, b5⟩ := day_facts hm'
  have hel : m.elapsed = m'.elapsed := congrArg DT.us he
  have hz : m.zone = m'.zone := congrArg DT.off he
  rw [he] at a2 a3 a4 a5
  rw [hel] at a1
  cases m
  cases m'
  dsimp only at *
  subst a1 a2 a3 a4 a5
  subst hz
  rw [b1, b2, b3, b4, b5]

/-- The year is written with four digits: `strftime` does so, or the year has four digits, or
the padding of the code is enough because the offset has no seconds. -/
def YearFits (padded : Bool) (m : Moment) : Prop :=
  padded = true ∨ 1000 ≤ (calendar m.days).year ∨ ∀ o ∈ m.zone, (60000000 : ℤ) ∣ o

theorem fourDigits {padded : Bool} {m : Moment} (hm : m.Exists) (h : YearFits padded m) :
    FourDigits padded (ofMoment m) := by
  rcases h with h | h | h
  · exact Or.inl h
  · right; left
    rw [calendar_ofMoment hm] at h
    exact h
  · exact Or.inr (Or.inr h)

/-- **C56**: what is written for a moment is a text of it. -/
theorem C56_writes {padded : Bool} {m : Moment} (hm : m.Exists) (h : YearFits padded m) :
    DateText m (toText padded (ofMoment m)) := by
  rw [toText_eq (inRange_ofMoment hm) (fourDigits hm h)]
  exact fullText_spec hm

theorem reads_back {padded : Bool} {m : Moment} (hm : m.Exists) (h : YearFits padded m) :
    toDate (toText padded (ofMoment m)) = .ok (ofMoment m) :=
  (C56_reads hm (C56_writes hm h)).1

section
variable {S U R K σ : Type} {c : Calc S U R K} {p : ℕ} {num? : S → Option Number}
  {ofNum : Number → S} {text? : S → Option (List Char)} {ofText : List Char → S} {padded : Bool}
  {seconds : Number → Option U → Except Raise Number} {isTime : Option U → Except Raise Bool}

/-- The operand `x` is a date text that is read as the moment `m`. -/
abbrev ReadsAs (text? : S → Option (List Char)) (x : Opd S U R) (m : Moment) : Prop :=
  IsDate text? x (ofMoment m)

/-- The result of a function that returns a text. -/
def textResult (ofText : List Char → S) (z : List Char) : Opd S U R := ⟨.sc (ofText z), none, none, none⟩

theorem finish_text (hb : ∀ s, c.isNumber (ofText s) = false) {op : Operation S U R σ} {k : Option K}
    {z : List Char} :
    finishResult c op none k { value := .sc (ofText z), unit := some none }
      = textResult ofText z := by
  unfold finishResult textResult
  cases k <;> simp [hb]

theorem isDate_textResult (ht : ∀ s, text? (ofText s) = some s) {z : List Char} {t : DT}
    (h : toDate z = .ok t) : IsDate text? (textResult (U := U) (R := R) ofText z) t :=
  ⟨_, z, rfl, ht z, h⟩

theorem addDelta_moment {m m' : Moment} (hm' : m'.Exists) {k : ℤ}
    (hz : m'.zone = m.zone) (hk : (m'.elapsed : ℤ) = m.elapsed + k) :
    addDelta (ofMoment m) k = .ok (ofMoment m') := by
  have h := (inRange_ofMoment hm').days
  unfold addDelta
  have hu : (ofMoment m).us = m.elapsed := rfl
  have hu' : (ofMoment m').us = m'.elapsed := rfl
  rw [hu'] at h
  rw [hu, if_pos ⟨by omega, by rw [← hk]; exact_mod_cast h⟩, ← hk]
  rw [Int.toNat_natCast]
  unfold ofMoment
  rw [hz]

/-- What adding a number of seconds does, when it moves the clock by `k` microseconds. -/
theorem add_call (hc : HasNumbers c) (hd : HasDates c text?)
    (hb : ∀ s, c.isNumber (ofText s) = false) {x y : Opd S U R} {m m' : Moment} {w : S} {n q : Number}
    (hx : ReadsAs text? x m) (hm' : m'.Exists)
    (hy : IsNum c y w) (hw : num? w = some n) (hu : isTime y.unit = .ok true)
    (f : Number → Number) (hq : seconds (f n) y.unit = .ok q) {k : ℤ}
    (hk : deltaOf (dbl (toDecimal p q)) = k) (hz : m'.zone = m.zone)
    (he : (m'.elapsed : ℤ) = m.elapsed + k) (name : String) (s : σ) :
    call c (dateOp (σ := σ) num? isTime name
        (fun a n u => addSeconds p text? ofText padded seconds a (f n) u)) [x, y] s
      = (.ok (textResult ofText (toText padded (ofMoment m'))), s) := by
  rw [call_dateOp hc hd hx hy hw hu]
  have : addSeconds p text? ofText padded seconds x (f n) y.unit
      = .ok { value := .sc (ofText (toText padded (ofMoment m'))), unit := some none } := by
    simp only [addSeconds, hx.dateOf, hq, bind, Except.bind, hk, addDelta_moment hm' hz he, pure,
      Except.pure]
  rw [this]
  dsimp only
  rw [finish_text hb]

/-- A duration whose addition is exact: less than 2 ^ 32 seconds, or whole seconds. -/
def Exact (k : ℤ) : Prop :=
  |k| < 2 ^ 32 * 1000000 ∨ (1000000 ∣ k ∧ |k| < 2 ^ 53 * 1000000)

theorem delta_exact {q : Number} {k : ℤ} (hr : Representable p q.val)
    (hq : q.val * 1000000 = k) (hk : Exact k) : deltaOf (dbl (toDecimal p q)) = k := by
  have h1 : toDecimal p q = k / 1000000 := by
    have : rnd p q.val = q.val := rnd_of_fits hr
    unfold toDecimal
    rw [show (q.num : ℚ) / q.den = q.val from rfl, this, ← hq]
    field_simp
  rw [h1]
  rcases hk with hk | ⟨⟨j, rfl⟩, hk⟩
  · exact deltaOf_dbl hk
  · have : (((1000000 * j : ℤ) : ℚ) / 1000000) = (j : ℚ) := by push_cast; field_simp
    rw [this, deltaOf_whole]
    · ring
    · rw [abs_mul] at hk
      norm_num at hk ⊢
      omega

/-- **C56** (part: up to 2 ^ 32 seconds, or whole seconds): adding a duration of `k` microseconds
to the text of a moment gives the text of the moment `k` microseconds later on the same clock. -/
theorem C56_add_partial (hc : HasNumbers c) (hd : HasDates c text?)
    (hb : ∀ s, c.isNumber (ofText s) = false) {x y : Opd S U R} {m m' : Moment} {w : S} {n q : Number}
    (hx : ReadsAs text? x m) (hm' : m'.Exists)
    (hy : IsNum c y w) (hw : num? w = some n) (hu : isTime y.unit = .ok true)
    (hq : seconds n y.unit = .ok q) (hr : Representable p q.val) {k : ℤ}
    (hqk : q.val * 1000000 = k) (hk : Exact k) (hf : YearFits padded m') (hz : m'.zone = m.zone)
    (he : (m'.elapsed : ℤ) = m.elapsed + k) (name : String) (s : σ) :
    ∃ z, call c (opDateAdd (σ := σ) p num? text? ofText padded seconds isTime name) [x, y] s
        = (.ok (textResult ofText z), s) ∧ DateText m' z :=
  ⟨_, add_call hc hd hb hx hm' hy hw hu id hq (delta_exact hr hqk hk) hz he name s,
    C56_writes hm' hf⟩

/-- **C56** (part: as for adding): `datesubtract` and `-%` move the clock back.  `q` is the
number of seconds of the negated duration. -/
theorem C56_subtract_partial (hc : HasNumbers c) (hd : HasDates c text?)
    (hb : ∀ s, c.isNumber (ofText s) = false) {x y : Opd S U R} {m m' : Moment} {w : S} {n q : Number}
    (hx : ReadsAs text? x m) (hm' : m'.Exists)
    (hy : IsNum c y w) (hw : num? w = some n) (hn : |n.num| < 10 ^ p) (hu : isTime y.unit = .ok true)
    (hq : seconds ⟨-n.num, n.den⟩ y.unit = .ok q) (hr : Representable p q.val) {k : ℤ}
    (hqk : q.val * 1000000 = -k) (hk : Exact k) (hf : YearFits padded m') (hz : m'.zone = m.zone)
    (he : (m'.elapsed : ℤ) = m.elapsed - k) (name : String) (s : σ) :
    ∃ z, call c (opDateSubtract (σ := σ) p num? text? ofText padded seconds isTime name) [x, y] s
        = (.ok (textResult ofText z), s) ∧ DateText m' z := by
  have hneg : Number.neg p n = ⟨-n.num, n.den⟩ := by
    unfold Number.neg
    have : rnd p (-(n.num : ℚ)) = ((-n.num : ℤ) : ℚ) := by
      have := rnd_int (p := p) (n := -n.num) (by rwa [abs_neg])
      push_cast at this ⊢
      exact this
    rw [this, rhu_intCast]
  have hk' : Exact (-k) := by
    rcases hk with h | ⟨h1, h2⟩
    · left; rwa [abs_neg]
    · right; exact ⟨(dvd_neg).mpr h1, by rwa [abs_neg]⟩
  exact ⟨_, add_call hc hd hb hx hm' hy hw hu (Number.neg p) (by rw [hneg]; exact hq)
    (delta_exact hr (by push_cast; exact hqk) hk') hz (by rw [he]; ring) name s,
    C56_writes hm' hf⟩

/-- Conversion to seconds changes sign with the number (`C56_scaling` shows this of multiplication
and division by a number, which are what conversion between units of time does). -/
def OddSeconds (seconds : Number → Option U → Except Raise Number) (n : Number) (u : Option U) : Prop :=
  ∀ q, seconds n u = .ok q → seconds ⟨-n.num, n.den⟩ u = .ok ⟨-q.num, q.den⟩

/-- **C56**: subtracting a duration that was added gives the original date, whatever the duration
is. -/
theorem C56_add_then_subtract (hc : HasNumbers c) (hd : HasDates c text?)
    (hb : ∀ s, c.isNumber (ofText s) = false) (ht : ∀ s, text? (ofText s) = some s)
    {x y r : Opd S U R} {m : Moment} {w : S} {n : Number} (hm : m.Exists) (hx : ReadsAs text? x m)
    (hy : IsNum c y w) (hw : num? w = some n) (hn : |n.num| < 10 ^ p) (hu : isTime y.unit = .ok true)
    (hodd : OddSeconds seconds n y.unit)
    (hf : padded = true ∨ ∀ o ∈ m.zone, (60000000 : ℤ) ∣ o) {name name' : String} {s s' : σ}
    (h : call c (opDateAdd (σ := σ) p num? text? ofText padded seconds isTime name) [x, y] s
      = (.ok r, s')) :
    s' = s ∧ ∃ z, call c (opDateSubtract (σ := σ) p num? text? ofText padded seconds isTime name')
        [r, y] s' = (.ok (textResult ofText z), s') ∧ DateText m z := by
  have hneg : Number.neg p n = ⟨-n.num, n.den⟩ := by
    unfold Number.neg
    have : rnd p (-(n.num : ℚ)) = ((-n.num : ℤ) : ℚ) := by
      have := rnd_int (p := p) (n := -n.num) (by rwa [abs_neg])
      push_cast at this ⊢
      exact this
    rw [this, rhu_intCast]
  unfold opDateAdd at h
  rw [call_dateOp hc hd hx hy hw hu] at h
  simp only [addSeconds, hx.dateOf, bind, Except.bind] at h
  cases hq : seconds n y.unit with
  | error e => rw [hq] at h; simp at h
  | ok q =>
    rw [hq] at h
    dsimp only at h
    obtain ⟨k, hk⟩ : ∃ k, deltaOf (dbl (toDecimal p q)) = k := ⟨_, rfl⟩
    rw [hk] at h
    unfold addDelta at h
    by_cases hin : 0 ≤ ((ofMoment m).us : ℤ) + k ∧ ((ofMoment m).us : ℤ) + k < dayCount * usPerDay
    · rw [if_pos hin] at h
      simp only [pure, Except.pure] at h
      rw [finish_text hb] at h
      have h1 := (Prod.mk.inj h).1
      have h2 : s' = s := (Prod.mk.inj h).2.symm
      have hr := Except.ok.inj h1
      subst h2
      refine ⟨rfl, ?_⟩
      have hrange : InRange ⟨(((ofMoment m).us : ℤ) + k).toNat, (ofMoment m).off⟩ := by
        refine ⟨?_, (inRange_ofMoment hm).zone⟩
        have := hin.2
        dsimp only
        have h3 : (((((ofMoment m).us : ℤ) + k).toNat : ℕ) : ℤ) < ((dayCount * usPerDay : ℕ) : ℤ) := by
          rw [Int.toNat_of_nonneg hin.1]; exact_mod_cast this
        exact_mod_cast h3
      obtain ⟨m', hm', he'⟩ := exists_moment hrange
      have hz' : m'.zone = m.zone := congrArg DT.off he'
      have hel : m'.elapsed = (((ofMoment m).us : ℤ) + k).toNat := congrArg DT.us he'
      have hf' : YearFits padded m' := by
        rcases hf with hf | hf
        · exact Or.inl hf
        · right; right; rw [hz']; exact hf
      have hfm : YearFits padded m := by
        rcases hf with hf | hf
        · exact Or.inl hf
        · right; right; exact hf
      rw [← he'] at hr
      subst hr
      have hd2 : deltaOf (dbl (toDecimal p ⟨-q.num, q.den⟩)) = -k := by
        have : toDecimal p ⟨-q.num, q.den⟩ = -toDecimal p q := by
          unfold toDecimal
          push_cast
          rw [neg_div, rnd_neg]
        rw [this, dbl_neg, deltaOf_neg, hk]
      have hum : (ofMoment m).us = m.elapsed := rfl
      exact ⟨_, add_call hc hd hb (isDate_textResult ht (reads_back hm' hf')) hm hy hw hu
        (Number.neg p) (by rw [hneg]; exact hodd q hq) hd2 hz'.symm
        (by rw [hel, Int.toNat_of_nonneg hin.1, hum]; ring) name' s', C56_writes hm hfm⟩
    · rw [if_neg hin] at h
      simp at h

/-- **C56**: moving the clock out of the years 1 to 9999 raises. -/
theorem C56_overflow (hc : HasNumbers c) (hd : HasDates c text?)
    {x y : Opd S U R} {m : Moment} {w : S} {n q : Number} (hx : ReadsAs text? x m)
    (hy : IsNum c y w) (hw : num? w = some n) (hu : isTime y.unit = .ok true)
    (hq : seconds n y.unit = .ok q) (hr : Representable p q.val) {k : ℤ}
    (hqk : q.val * 1000000 = k) (hk : Exact k)
    (hout : ∀ m' : Moment, m'.Exists → m'.zone = m.zone → (m'.elapsed : ℤ) ≠ m.elapsed + k)
    (hm : m.Exists) (name : String) (s : σ) :
    ∃ e, call c (opDateAdd (σ := σ) p num? text? ofText padded seconds isTime name) [x, y] s
        = (.error e, s) := by
  unfold opDateAdd
  rw [call_dateOp hc hd hx hy hw hu]
  simp only [addSeconds, hx.dateOf, hq, bind, Except.bind, delta_exact hr hqk hk]
  unfold addDelta
  rw [if_neg]
  · exact ⟨_, rfl⟩
  · rintro ⟨h1, h2⟩
    have hrange : InRange ⟨(((ofMoment m).us : ℤ) + k).toNat, (ofMoment m).off⟩ := by
      refine ⟨?_, (inRange_ofMoment hm).zone⟩
      dsimp only
      have h3 : (((((ofMoment m).us : ℤ) + k).toNat : ℕ) : ℤ) < ((dayCount * usPerDay : ℕ) : ℤ) := by
        rw [Int.toNat_of_nonneg h1]; exact_mod_cast h2
      exact_mod_cast h3
    obtain ⟨m', hm', he'⟩ := exists_moment hrange
    have hel : m'.elapsed = (((ofMoment m).us : ℤ) + k).toNat := congrArg DT.us he'
    refine hout m' hm' (congrArg DT.off he') ?_
    rw [hel, Int.toNat_of_nonneg h1]
    rfl

variable {repr : ℚ → ℚ} {second : U} {unit? : S → Option U}
  {convert : Number → U → Except Raise Number}

theorem difference_utc (m₁ m₂ : Moment) :
    (difference (ofMoment m₁) (ofMoment m₂) : ℤ) = |m₁.utc - m₂.utc| := by
  unfold difference Moment.utc ofMoment
  rw [Int.natCast_natAbs]

/-- **C56** (part: up to 2 ^ 32 seconds, or whole seconds): the difference of two dates is the time
between them, in seconds or, if a unit is given, converted to it. -/
theorem C56_difference_partial (hp : 24 ≤ p) (hd : HasDates c text?) (hw : Writes repr)
    {x y : Opd S U R} {m₁ m₂ : Moment} (hx : ReadsAs text? x m₁) (hy : ReadsAs text? y m₂)
    (hz : m₁.zone.isNone = m₂.zone.isNone) (hk : Exact (m₁.utc - m₂.utc)) (s : σ) :
    ∃ n : Number, n.Canonical ∧ n.val = |m₁.utc - m₂.utc| / 1000000 ∧
      call c (opDateDifference (σ := σ) p ofNum text? repr second unit? convert) [x, y] s
        = (.ok ⟨.sc (ofNum n), some second, none, none⟩, s) ∧
      ∀ (z : Opd S U R) (v : S) (u : U) (r : Number), z.value = .sc v → unit? v = some u →
        validateInput c (.ty "unit") z = .ok true → convert n u = .ok r →
        call c (opDateDifference (σ := σ) p ofNum text? repr second unit? convert) [x, y, z] s
          = (.ok ⟨.sc (ofNum r), some u, none, none⟩, s) := by
  have hd' := difference_utc m₁ m₂
  obtain ⟨n, h1, h2, h3⟩ := secondsBetween_exact hp hw (t₁ := ofMoment m₁) (t₂ := ofMoment m₂) hz (by
    rcases hk with h | ⟨h, h'⟩
    · left; omega
    · have h4 : (1000000 : ℤ) ∣ |m₁.utc - m₂.utc| := (dvd_abs _ _).mpr h
      right; constructor <;> omega)
  refine ⟨n, h2, ?_, ?_, ?_⟩
  · rw [h3]
    have : ((difference (ofMoment m₁) (ofMoment m₂) : ℤ) : ℚ) = ((|m₁.utc - m₂.utc| : ℤ) : ℚ) := by
      rw [hd']
    push_cast at this ⊢
    rw [this]
  · rw [call_difference hd hx hy, h1]
  · intro z v u r hz hu hv hr
    rw [call_difference_unit hd hx hy hz hu hv, h1]
    simp only [Except.bind, hr]

/-- **C56**: the order of the two dates does not matter. -/
theorem C56_difference_symmetric (hd : HasDates c text?) {x y : Opd S U R} {m₁ m₂ : Moment}
    (hx : ReadsAs text? x m₁) (hy : ReadsAs text? y m₂) {r : Opd S U R} {s s' : σ}
    (h : call c (opDateDifference (σ := σ) p ofNum text? repr second unit? convert) [x, y] s
      = (.ok r, s')) :
    call c (opDateDifference (σ := σ) p ofNum text? repr second unit? convert) [y, x] s
      = (.ok r, s') := by
  rw [call_difference hd hx hy] at h
  rw [call_difference hd hy hx]
  have hdiff : difference (ofMoment m₂) (ofMoment m₁) = difference (ofMoment m₁) (ofMoment m₂) := by
    unfold difference; omega
  have hs : ∀ n, secondsBetween p repr (ofMoment m₁) (ofMoment m₂) = .ok n →
      secondsBetween p repr (ofMoment m₂) (ofMoment m₁) = .ok n := by
    intro n hn
    unfold secondsBetween at hn ⊢
    rw [hdiff]
    by_cases hz : (ofMoment m₁).off.isNone = (ofMoment m₂).off.isNone
    · rw [if_neg (by simp [hz])] at hn ⊢
      exact hn
    · rw [if_pos hz] at hn
      cases hn
  cases hn : secondsBetween p repr (ofMoment m₁) (ofMoment m₂) with
  | error e => rw [hn] at h; simp at h
  | ok n => rw [hn] at h; rw [hs n hn]; exact h

/-- **C56**: a date with an offset and one without are not compared. -/
theorem C56_mixed (hd : HasDates c text?) {x y : Opd S U R} {m₁ m₂ : Moment}
    (hx : ReadsAs text? x m₁) (hy : ReadsAs text? y m₂)
    (hz : m₁.zone.isNone ≠ m₂.zone.isNone) (s : σ) :
    ∃ e, call c (opDateDifference (σ := σ) p ofNum text? repr second unit? convert) [x, y] s
      = (.error e, s) := by
  rw [call_difference hd hx hy]
  unfold secondsBetween
  have : (ofMoment m₁).off.isNone ≠ (ofMoment m₂).off.isNone := hz
  rw [if_pos this]
  exact ⟨_, rfl⟩

/-- **C56** (part: as above): the difference of a date and the date some time later is this
time. -/
theorem C56_add_then_difference_partial (hp : 24 ≤ p) (hc : HasNumbers c) (hd : HasDates c text?)
    (hwr : Writes repr) (hb : ∀ s, c.isNumber (ofText s) = false)
    (ht : ∀ s, text? (ofText s) = some s)
    {x y : Opd S U R} {m m' : Moment} {w : S} {n q : Number}
    (hx : ReadsAs text? x m) (hm' : m'.Exists)
    (hy : IsNum c y w) (hw : num? w = some n) (hu : isTime y.unit = .ok true)
    (hq : seconds n y.unit = .ok q) (hr : Representable p q.val) {k : ℤ}
    (hqk : q.val * 1000000 = k) (hk : Exact k) (hf : YearFits padded m') (hz : m'.zone = m.zone)
    (he : (m'.elapsed : ℤ) = m.elapsed + k) (name : String) (s : σ) :
    ∃ r d, call c (opDateAdd (σ := σ) p num? text? ofText padded seconds isTime name) [x, y] s
        = (.ok r, s) ∧
      call c (opDateDifference (σ := σ) p ofNum text? repr second unit? convert) [x, r] s
        = (.ok ⟨.sc (ofNum d), some second, none, none⟩, s) ∧ d.val = |q.val| := by
  refine ⟨textResult ofText (toText padded (ofMoment m')), ?_⟩
  have hr' := isDate_textResult (U := U) (R := R) ht (reads_back hm' hf)
  have hut : m.utc - m'.utc = -k := by unfold Moment.utc; rw [hz, he]; ring
  have hk' : Exact (m.utc - m'.utc) := by
    rw [hut]
    rcases hk with h | ⟨h1, h2⟩
    · left; rwa [abs_neg]
    · right; exact ⟨(dvd_neg).mpr h1, by rwa [abs_neg]⟩
  obtain ⟨d, _, h2, h3, _⟩ := C56_difference_partial (ofNum := ofNum) (second := second)
    (unit? := unit?) (convert := convert) hp hd hwr hx hr' (by rw [hz]) hk' s
  refine ⟨d, add_call hc hd hb hx hm' hy hw hu id hq (delta_exact hr hqk hk) hz he name s, h3, ?_⟩
  rw [h2, hut, abs_neg]
  have : (q.val : ℚ) = k / 1000000 := by rw [← hqk]; field_simp
  rw [this, abs_div]
  norm_num

end

theorem isInt_neg (n : ℚ) : isInt (-n) = isInt n := by
  unfold isInt
  rw [Rat.neg_den]

theorem mk'_neg (p : ℕ) (n d : ℚ) {q : Number} (h : mk' p n d = .ok q) :
    mk' p (-n) d = .ok ⟨-q.num, q.den⟩ := by
  unfold mk' at h ⊢
  by_cases hd : d = 0
  · rw [if_pos hd] at h; cases h
  rw [if_neg hd] at h ⊢
  dsimp only at h ⊢
  rw [isInt_neg, Rat.neg_num, Rat.neg_den]
  obtain ⟨n1, hn1⟩ : ∃ n1, (if isInt n then n else (n.num : ℚ)) = n1 := ⟨_, rfl⟩
  have hn1' : (if isInt n then -n else ((-n.num : ℤ) : ℚ)) = -n1 := by
    rw [← hn1]; split <;> simp
  rw [hn1] at h
  rw [hn1']
  generalize (if isInt n then d else rnd p (d * n.den)) = d1 at h ⊢
  obtain ⟨n2, hn2⟩ : ∃ n2, (if isInt d1 then n1 else rnd p (n1 * d1.den)) = n2 := ⟨_, rfl⟩
  have hn2' : (if isInt d1 then -n1 else rnd p (-n1 * d1.den)) = -n2 := by
    rw [← hn2]; split <;> simp [rnd_neg]
  rw [hn2] at h
  rw [hn2']
  generalize (if isInt d1 then d1 else (d1.num : ℚ)) = d2 at h ⊢
  obtain ⟨n3, hn3⟩ : ∃ n3, (if d2 < 0 then rnd p (-n2) else n2) = n3 := ⟨_, rfl⟩
  have hn3' : (if d2 < 0 then rnd p (- -n2) else -n2) = -n3 := by
    rw [← hn3]; split <;> simp [rnd_neg]
  rw [hn3] at h
  rw [hn3']
  generalize (if d2 < 0 then rnd p (-d2) else d2) = d3 at h ⊢
  rw [truncQ_neg, Int.neg_gcd]
  generalize Int.gcd (truncQ n3) (truncQ d3) = g at h ⊢
  rw [← Except.ok.inj h]
  dsimp only
  congr 2
  rw [← rhu_neg]
  congr 1
  split
  · rw [neg_div, rnd_neg]
  · rfl

/-- **C56**: multiplying by a number changes sign with the number; so does dividing by one. -/
theorem C56_scaling (p : ℕ) (a b : Number) :
    (∀ q, Number.mul p a b = .ok q → Number.mul p ⟨-a.num, a.den⟩ b = .ok ⟨-q.num, q.den⟩) ∧
    (∀ q, Number.div p a b = .ok q → Number.div p ⟨-a.num, a.den⟩ b = .ok ⟨-q.num, q.den⟩) := by
  constructor <;> intro q h
  · unfold Number.mul at h ⊢
    push_cast
    rw [neg_mul, rnd_neg]
    exact mk'_neg p _ _ h
  · unfold Number.div at h ⊢
    push_cast
    rw [neg_mul, rnd_neg]
    exact mk'_neg p _ _ h

/-! ## A calculator with numbers of seconds and texts -/

abbrev DateS := Number ⊕ List Char

def DateS.num? : DateS → Option Number | .inl n => some n | .inr _ => none
def DateS.text? : DateS → Option (List Char) | .inr s => some s | .inl _ => none

def dateCalc0 : Calc DateS Unit Unit Unit where
  validator := fun _ => none
  number := fun x => match x with | .inl n => some (.inl n) | .inr _ => none
  isNumber := fun x => match x with | .inl _ => true | .inr _ => false
  cast := fun _ => none
  setCast := fun _ x => x
  normalise := none
  toString := fun _ => .ok "x"

def dateCalc : Calc DateS Unit Unit Unit :=
  { dateCalc0 with
    validator := fun n =>
      if n = "number" then some (validateNumber dateCalc0)
      else if n = "date" then some (fun x _ => .ok (isDate DateS.text? x)) else none }

theorem dateCalc_numbers : HasNumbers dateCalc := rfl
theorem dateCalc_dates : HasDates dateCalc DateS.text? := rfl

/-- A number of seconds. -/
def secs (z : ℤ) (d : ℤ) : Opd DateS Unit Unit := ⟨.sc (.inl ⟨z, d⟩), some (), none, none⟩
def dateV (s : String) : Opd DateS Unit Unit := ⟨.sc (.inr s.toList), none, none, none⟩

theorem secs_isNum (z d : ℤ) : IsNum dateCalc (secs z d) (.inl ⟨z, d⟩) := ⟨_, rfl, rfl, rfl⟩

/-- Adding, and subtracting, where the only unit is the second. -/
def addOp (padded : Bool) : Operation DateS Unit Unit ℕ :=
  opDateAdd 30 DateS.num? DateS.text? .inr padded (fun n _ => .ok n) (fun u => .ok u.isSome) "dateadd"
def subOp (padded : Bool) : Operation DateS Unit Unit ℕ :=
  opDateSubtract 30 DateS.num? DateS.text? .inr padded (fun n _ => .ok n) (fun u => .ok u.isSome)
    "datesubtract"

theorem year_le {n : ℕ} (h : n < dayCount) : (calendar n).year ≤ 9999 := by
  rw [calendar_eq h]
  exact (valid_of h).last

/-- 29 February 2024, one hour east of Greenwich. -/
def leapDay : Moment := ⟨738944, 23, 59, 59, 5, some 3600000000⟩

theorem leapDay_exists : leapDay.Exists :=
  ⟨year_le (by decide), by decide, by decide, by decide, by decide, by decide⟩

def leapText : String := "2024-02-29T23:59:59.000005+0100"

theorem leapText_reads : toDate leapText.toList = .ok (ofMoment leapDay) := by decide +kernel

example : calendar leapDay.days = ⟨2024, 2, 29⟩ :=
  (calendar_eq (by decide)).trans (by decide +kernel)

example : DateText leapDay (toText false (ofMoment leapDay)) :=
  C56_writes leapDay_exists (Or.inr (Or.inr (by decide)))

example : toText false (ofMoment leapDay) = leapText.toList := by decide +kernel

def marchFirst : Moment := ⟨738945, 0, 0, 0, 500005, some 3600000000⟩

theorem marchFirst_exists : marchFirst.Exists :=
  ⟨year_le (by decide), by decide, by decide, by decide, by decide, by decide⟩

theorem marchFirst_later : (marchFirst.elapsed : ℤ) = leapDay.elapsed + 1500000 := by decide +kernel

theorem leapText_date : ReadsAs DateS.text? (dateV leapText) leapDay := ⟨_, _, rfl, rfl, leapText_reads⟩

/-- A second and a half later it is March. -/
example : ∃ z, call dateCalc (addOp false) [dateV leapText, secs 3 2] 0
      = (.ok (textResult .inr z), 0) ∧ DateText marchFirst z :=
  C56_add_partial (c := dateCalc) (n := ⟨3, 2⟩) (q := ⟨3, 2⟩) (k := 1500000) dateCalc_numbers
    dateCalc_dates (fun _ => rfl) leapText_date marchFirst_exists
    (secs_isNum 3 2) rfl rfl rfl ⟨15, -1, by norm_num [Number.val], by norm_num⟩
    (by norm_num [Number.val]) (Or.inl (by norm_num)) (Or.inr (Or.inr (by decide))) rfl
    marchFirst_later "dateadd" 0

/-- Any number of seconds can be added and taken away again. -/
example (z d : ℤ) (hz : |z| < 10 ^ 30) (r : Opd DateS Unit Unit)
    (h : call dateCalc (addOp false) [dateV leapText, secs z d] 0 = (.ok r, 0)) :
    ∃ z', call dateCalc (subOp false) [r, secs z d] 0 = (.ok (textResult .inr z'), 0) ∧
      DateText leapDay z' :=
  (C56_add_then_subtract (c := dateCalc) (n := ⟨z, d⟩) dateCalc_numbers dateCalc_dates
    (fun _ => rfl) (fun _ => rfl) leapDay_exists leapText_date (secs_isNum z d) rfl hz rfl
    (by intro q hq; cases hq; rfl) (Or.inr (by decide)) h).2

/-- The hypothesis of `C56_overflow` is met by the last day. -/
example : ∀ m' : Moment, m'.Exists → m'.zone = none →
    (m'.elapsed : ℤ) ≠ ((⟨3652058, 23, 59, 59, 999999, none⟩ : Moment).elapsed : ℤ) + 1 := by
  intro m' hm' _ h
  have h1 := (inRange_ofMoment hm').days
  have h2 : (ofMoment m').us = m'.elapsed := rfl
  have h3 : (⟨3652058, 23, 59, 59, 999999, none⟩ : Moment).elapsed + 1 = dayCount * usPerDay := by
    decide +kernel
  omega

/-- The seconds between two texts whose offsets differ. -/
example : ∃ n : Number, n.Canonical ∧ n.val = 3600 ∧
    call dateCalc (opDateDifference (σ := ℕ) 30 .inl DateS.text? (rnd 17) () (fun _ => none)
      (fun n _ => .ok n)) [dateV leapText, dateV "2024-02-29T23:59:59.000005+0000"] 0
      = (.ok ⟨.sc (.inl n), some (), none, none⟩, 0) := by
  obtain ⟨n, h1, h2, h3, -⟩ := C56_difference_partial (c := dateCalc) (p := 30) (σ := ℕ) (ofNum := .inl)
    (second := ()) (unit? := fun _ => none) (convert := fun n _ => .ok n) (by norm_num)
    dateCalc_dates writes_rnd (x := dateV leapText) (y := dateV "2024-02-29T23:59:59.000005+0000")
    (m₁ := leapDay) (m₂ := { leapDay with zone := some 0 })
    ⟨_, _, rfl, rfl, leapText_reads⟩ ⟨_, _, rfl, rfl, by decide +kernel⟩ rfl
    (Or.inl (by decide)) 0
  refine ⟨n, h1, ?_, h3⟩
  rw [h2]
  have : |leapDay.utc - ({ leapDay with zone := some 0 } : Moment).utc| = 3600000000 := by decide
  rw [this]
  norm_num

/-- **C56 is violated** beyond 2 ^ 32 seconds, where the seconds are rounded to a `float`: adding
8589934592.000001 seconds to midnight of the first day moves the clock by one microsecond more. -/
theorem C56_large_violation :
    ∃ r m', call dateCalc (addOp true) [dateV "0001-01-01", secs 8589934592000001 1000000] 0
        = (.ok r, 0) ∧ m'.Exists ∧ ReadsAs DateS.text? r m' ∧
      m'.elapsed = 8589934592000001 + 1 := by
  obtain ⟨m', hm', he⟩ := exists_moment (t := ⟨8589934592000002, none⟩)
    ⟨by decide +kernel, by simp⟩
  have hd : deltaOf (dbl (toDecimal 30 ⟨8589934592000001, 1000000⟩)) = 8589934592000002 := by
    decide +kernel
  have hz : m'.zone = none := congrArg DT.off he
  have hel : m'.elapsed = 8589934592000002 := congrArg DT.us he
  refine ⟨_, m', add_call (c := dateCalc) (n := ⟨8589934592000001, 1000000⟩) dateCalc_numbers
    dateCalc_dates (fun _ => rfl)
    (m := ⟨0, 0, 0, 0, 0, none⟩) ⟨_, _, rfl, rfl, by decide +kernel⟩ hm'
    (secs_isNum _ _) rfl rfl id rfl hd hz (by rw [hel]; rfl) "dateadd" 0, hm',
    isDate_textResult (text? := DateS.text?) (ofText := .inr) (fun _ => rfl) (reads_back hm' (Or.inl rfl)), hel⟩

/-- **C56 is violated** where `strftime` does not write four digits of the year: adding nothing to
a date of year 5 whose offset has seconds gives a text that is not a date. -/
theorem C56_year_violation :
    isDate (U := Unit) (R := Unit) DateS.text? (dateV "0005-01-01+012345") = true ∧
    ∃ z, call dateCalc (addOp false) [dateV "0005-01-01+012345", secs 0 1] 0
        = (.ok (textResult .inr z), 0) ∧
      isDate (U := Unit) (R := Unit) DateS.text? (textResult .inr z) = false := by
  have hr : toDate "0005-01-01+012345".toList = .ok (ofMoment ⟨1461, 0, 0, 0, 0, some 5025000000⟩) := by
    decide +kernel
  refine ⟨by decide +kernel, _, add_call (c := dateCalc) (n := ⟨0, 1⟩) (k := 0) dateCalc_numbers
    dateCalc_dates (fun _ => rfl) ⟨_, _, rfl, rfl, hr⟩
    (m' := ⟨1461, 0, 0, 0, 0, some 5025000000⟩)
    ⟨year_le (by decide), by decide, by decide, by decide, by decide, by decide⟩
    (secs_isNum _ _) rfl rfl id rfl (by decide +kernel) rfl rfl "dateadd" 0, by decide +kernel⟩

end MC.Props
