import Verif.Props.Notation

/-! # C91: `scientific` with a number of places -/

namespace MC.Props
open MC.Notation MC.Numeric MC.Numerical MC.Number MC.Arrays MC.Strings MC.Spec

theorem sciParts_round (places : ℕ) {x : ℚ} (hx : x ≠ 0) :
    10 ^ places ≤ (sciParts places x).1 ∧ (sciParts places x).1 < 10 ^ (places + 1) ∧
      |((sciParts places x).1 : ℚ) * 10 ^ ((sciParts places x).2 - places) - (|x|)|
        ≤ 10 ^ ((sciParts places x).2 - places) / 2 := by
  obtain ⟨b1, b2⟩ := log_bounds hx
  set e := Int.log 10 |x| with he
  set M := (rhu (|x| / 10 ^ (e - places))).toNat with hM
  have hT := ten_pos (e - places)
  have hlo : (10:ℚ) ^ places ≤ |x| / 10 ^ (e - places) := by
    rw [le_div_iff₀ hT]
    refine le_trans (le_of_eq ?_) b1
    rw [← zpow_natCast, ← zpow_add₀ (by norm_num)]; congr 1; omega
  have hhi : |x| / 10 ^ (e - places) < (10:ℚ) ^ (places + 1) := by
    rw [div_lt_iff₀ hT]
    refine lt_of_lt_of_le b2 (le_of_eq ?_)
    rw [← zpow_natCast, ← zpow_add₀ (by norm_num)]; congr 1; push_cast; omega
  have hr0 : 0 ≤ rhu (|x| / 10 ^ (e - places)) := rhu_nonneg (by positivity)
  have hMi : ((M : ℕ) : ℤ) = rhu (|x| / 10 ^ (e - places)) := Int.toNat_of_nonneg hr0
  have h1 : 10 ^ places ≤ M := by
    have := rhu_mono hlo
    rw [show ((10:ℚ) ^ places) = (((10:ℤ) ^ places : ℤ) : ℚ) by push_cast; rfl, rhu_intCast, ← hMi] at this
    exact_mod_cast this
  have h2 : M ≤ 10 ^ (places + 1) := by
    have := rhu_mono hhi.le
    rw [show ((10:ℚ) ^ (places + 1)) = (((10:ℤ) ^ (places + 1) : ℤ) : ℚ) by push_cast; rfl, rhu_intCast, ← hMi] at this
    exact_mod_cast this
  have hMq : ((M : ℕ) : ℚ) = (rhu (|x| / 10 ^ (e - places)) : ℚ) := by exact_mod_cast congrArg (Int.cast (R := ℚ)) hMi
  have h3 : |((M : ℕ) : ℚ) * 10 ^ (e - places) - (|x|)| ≤ 10 ^ (e - places) / 2 := by
    have h4 := rhu_abs_sub_le (|x| / 10 ^ (e - places))
    rw [← hMq] at h4
    have h5 : ((M : ℕ) : ℚ) * 10 ^ (e - places) - |x| = -((|x| / 10 ^ (e - places) - M) * 10 ^ (e - places)) := by
      field_simp
      ring
    rw [h5, abs_neg, abs_mul, abs_of_pos hT]
    nlinarith
  unfold sciParts
  simp only [← he, ← hM]
  by_cases hc : M = 10 ^ (places + 1)
  · rw [if_pos hc]
    refine ⟨le_rfl, Nat.pow_lt_pow_right (by norm_num) (by omega), ?_⟩
    have e1 : ((10 ^ places : ℕ) : ℚ) * 10 ^ (e + 1 - (places:ℤ)) = (M : ℚ) * 10 ^ (e - places) := by
      rw [hc, show e + 1 - (places:ℤ) = (e - places) + 1 by ring, zpow_add₀ (by norm_num)]
      push_cast
      ring
    simp only
    rw [e1]
    refine h3.trans ?_
    rw [show e + 1 - (places:ℤ) = (e - places) + 1 by ring, zpow_add₀ (by norm_num)]
    linarith
  · rw [if_neg hc]
    exact ⟨h1, by omega, h3⟩

/-- The number that is shown, for a number with more digits. -/
def sciValue (places : ℕ) (x : ℚ) : ℚ :=
  (if x < 0 then -1 else 1) * ((sciParts places x).1 * 10 ^ ((sciParts places x).2 - places))

theorem sciValue_abs (places : ℕ) (x : ℚ) :
    |sciValue places x| = (sciParts places x).1 * 10 ^ ((sciParts places x).2 - places) := by
  unfold sciValue
  rw [abs_mul]
  have h1 : |(if x < 0 then (-1:ℚ) else 1)| = 1 := by split <;> simp
  rw [h1, one_mul, abs_of_nonneg (by positivity)]

theorem sciValue_bounds {places : ℕ} {x : ℚ} (hx : x ≠ 0) :
    (10:ℚ) ^ (sciParts places x).2 ≤ |sciValue places x| ∧
      |sciValue places x| < 10 ^ ((sciParts places x).2 + 1) := by
  obtain ⟨h1, h2, -⟩ := sciParts_round places hx
  rw [sciValue_abs]
  generalize (sciParts places x).1 = m at *
  generalize (sciParts places x).2 = e at *
  have hT := ten_pos (e - places)
  have h1' : (10:ℚ) ^ places ≤ m := by exact_mod_cast h1
  have h2' : (m:ℚ) < 10 ^ (places + 1) := by exact_mod_cast h2
  constructor
  · calc (10:ℚ) ^ e = 10 ^ places * 10 ^ (e - places) := by
          rw [← zpow_natCast, ← zpow_add₀ (by norm_num)]; congr 1; omega
      _ ≤ _ := mul_le_mul_of_nonneg_right h1' hT.le
  · calc (m:ℚ) * 10 ^ (e - places) < 10 ^ (places + 1) * 10 ^ (e - places) := mul_lt_mul_of_pos_right h2' hT
      _ = 10 ^ (e + 1) := by
          rw [← zpow_natCast, ← zpow_add₀ (by norm_num)]; congr 1; push_cast; omega

theorem sciValue_ne {places : ℕ} {x : ℚ} (hx : x ≠ 0) : sciValue places x ≠ 0 := by
  have h := (sciValue_bounds (places := places) hx).1
  intro h0
  rw [h0, abs_zero] at h
  exact absurd h (not_le.mpr (ten_pos _))

theorem sciValue_neg {places : ℕ} {x : ℚ} (hx : x ≠ 0) : sciValue places x < 0 ↔ x < 0 := by
  have h1 := sciValue_ne (places := places) hx
  unfold sciValue at h1 ⊢
  by_cases h : x < 0
  · simp only [h, if_true, iff_true] at h1 ⊢
    have : (0:ℚ) ≤ (sciParts places x).1 * 10 ^ ((sciParts places x).2 - places) := by positivity
    rcases lt_or_eq_of_le this with h2 | h2
    · linarith
    · rw [← h2] at h1; simp at h1
  · simp only [h, if_false, iff_false, one_mul, not_lt]
    positivity

theorem log_eq {x : ℚ} (hx : x ≠ 0) {e : ℤ} (h1 : (10:ℚ) ^ e ≤ |x|) (h2 : |x| < 10 ^ (e + 1)) : Int.log 10 |x| = e := by
  obtain ⟨b1, b2⟩ := log_bounds hx
  have c1 := (zpow_lt_zpow_iff_right₀ (by norm_num : (1:ℚ) < 10)).mp (lt_of_le_of_lt b1 h2)
  have c2 := (zpow_lt_zpow_iff_right₀ (by norm_num : (1:ℚ) < 10)).mp (lt_of_le_of_lt h1 b2)
  omega

/-- Showing the rounded number gives the same digits. -/
theorem sciParts_again {places : ℕ} {x : ℚ} (hx : x ≠ 0) :
    sciParts places (sciValue places x) = sciParts places x := by
  obtain ⟨r1, r2, -⟩ := sciParts_round places hx
  have hne := sciValue_ne (places := places) hx
  obtain ⟨b1, b2⟩ := sciValue_bounds (places := places) hx
  have hab := sciValue_abs places x
  have hlog := log_eq hne b1 b2
  have hm : |(if x < 0 then (-1:ℤ) else 1) * ((sciParts places x).1 : ℤ)| < 10 ^ (places + 1) := by
    rw [abs_mul]
    have h1 : |(if x < 0 then (-1:ℤ) else 1)| = 1 := by split <;> simp
    rw [h1, one_mul, abs_of_nonneg (by positivity)]
    exact_mod_cast r2
  obtain ⟨s1, s2, -, -⟩ := sciParts_exact (places := places) hne hm
    (k := (sciParts places x).2 - places) (by
      unfold sciValue
      push_cast
      split <;> simp)
  rw [hlog] at s1 s2
  rw [hab] at s2
  have h2 := mul_right_cancel₀ (ten_ne _) s2
  exact Prod.ext (by exact_mod_cast h2.symm) s1

/-- A number is shown like the number it rounds to. -/
theorem decToExp_rounded {p places : ℕ} {a b : Number} (ha : toDecimal p a ≠ 0)
    (hb : toDecimal p b = sciValue places (toDecimal p a)) : decToExp p places a = decToExp p places b := by
  unfold decToExp
  simp only [hb, ha, sciValue_ne ha, if_false, sciParts_again ha, sciValue_neg ha]

/-! ## A text with an exponent is no other number -/

theorem by_ascii {P : Char → Prop} (h1 : ∀ n < 128, P (Char.ofNat n))
    (h2 : ∀ c : Char, 128 ≤ c.toNat → c.toLower = c → P c) (c : Char) : P c := by
  by_cases h : c.toNat < 128
  · have := h1 _ h
    rwa [Char.ofNat_toNat] at this
  · refine h2 c (by omega) ?_
    unfold Char.toLower
    rw [dif_neg]
    intro h'
    have : c.toNat ≤ 90 := h'.2
    omega

theorem lowered_digit (c : Char) : c.toLower.isDigit = c.isDigit :=
  by_ascii (P := fun c => c.toLower.isDigit = c.isDigit) (by decide +kernel) (fun c _ h => by rw [h]) c

theorem lowered_minus (c : Char) : (c.toLower = '-') = (c = '-') :=
  by_ascii (P := fun c => (c.toLower = '-') = (c = '-')) (by simp only [eq_iff_iff]; decide +kernel)
    (fun c _ h => by rw [h]) c

theorem span_lowered (s : List Char) :
    spanDigits (lowerText s) = (lowerText (spanDigits s).1, lowerText (spanDigits s).2) := by
  unfold spanDigits
  simp only [List.span_eq_takeWhile_dropWhile, lowerText]
  have e : Char.isDigit ∘ Char.toLower = Char.isDigit := funext lowered_digit
  rw [List.takeWhile_map, List.dropWhile_map, e]

/-- After its sign and its digits, such a text goes on with a point or the exponent. -/
theorem exponent_next {s rest : List Char} {neg : Bool} {ip fp : List Char} {e : Char}
    (h : matchDecimal s = some (neg, ip, fp, e :: rest)) (he : e.toLower = 'e') :
    (spanDigits (if (lowerText s).head? == some '-' then (lowerText s).tail else lowerText s)).2.head? = some '.' ∨
    (spanDigits (if (lowerText s).head? == some '-' then (lowerText s).tail else lowerText s)).2.head? = some 'e' := by
  have hh : ((lowerText s).head? == some '-') = (s.head? == some '-') := by
    cases s with
    | nil => rfl
    | cons c t => simp [lowerText, Bool.beq_eq_decide_eq, lowered_minus c]
  have hs : (if (lowerText s).head? == some '-' then (lowerText s).tail else lowerText s)
      = lowerText (if s.head? == some '-' then s.tail else s) := by
    rw [hh]
    split
    · simp [lowerText]
    · rfl
  rw [hs, span_lowered]
  unfold matchDecimal at h
  simp only at h
  generalize (if s.head? == some '-' then s.tail else s) = s1 at h
  simp only
  rcases hsp : spanDigits s1 with ⟨i, r⟩
  rw [hsp] at h
  simp only
  split at h
  · cases h
  · left
    rename_i hq
    cases hq
    rfl
  · right
    rename_i hq
    cases hq
    simp only [Option.some.injEq, Prod.mk.injEq] at h
    rw [h.2.2.2]
    simp [lowerText, he]

theorem not_based {s rest : List Char} {neg : Bool} {ip fp : List Char} {e c : Char} {ok : Char → Bool}
    (h : matchDecimal s = some (neg, ip, fp, e :: rest)) (he : e.toLower = 'e') (hc : c.isDigit = false)
    (h1 : c ≠ '.') (h2 : c ≠ 'e') : matchesBased ['0', c] ok s = false := by
  unfold matchesBased
  simp only
  rw [if_neg]
  rintro ⟨u, hu⟩
  have := exponent_next h he
  rw [← hu] at this
  simp [spanDigits, hc, h1, h2] at this

theorem not_arbitrary {s rest : List Char} {neg : Bool} {ip fp : List Char} {e : Char}
    (h : matchDecimal s = some (neg, ip, fp, e :: rest)) (he : e.toLower = 'e') : matchArb s = none := by
  have := exponent_next h he
  unfold matchArb
  simp only
  generalize spanDigits (if (lowerText s).head? == some '-' then (lowerText s).tail else lowerText s) = q at this ⊢
  obtain ⟨b, r⟩ := q
  simp only at this ⊢
  split
  · rfl
  · simp at this
  · rfl

/-- Only the type of numbers with exponents reads it. -/
theorem only_scientific {p : ℕ} {powF : ℚ → ℚ → Except Err ℚ} {s : List Char} {n : Number}
    (h : parseExp p powF s = some (.ok n)) {t : NumType} (ht : t ≠ .scientific) : readAs p powF t s = .ok none := by
  unfold parseExp at h
  split at h
  · rename_i neg ip fp e rest hm
    split at h
    · rename_i he
      have hb := fun {c : Char} {ok : Char → Bool} => not_based (c := c) (ok := ok) hm he
      cases t with
      | scientific => exact absurd rfl ht
      | decimal => simp [readAs, parseDecimal, hm, withCast]
      | percentage =>
        have : parsePercent p s = none := by
          unfold parsePercent
          rw [hm]
          split
          · rename_i hq
            cases hq
            exact absurd he (by decide)
          · rfl
        simp [readAs, this, withCast]
      | binary => simp [readAs, parseBin, show "0b".toList = ['0', 'b'] from rfl, hb (c := 'b') (by decide) (by decide) (by decide)]
      | octal =>
        simp [readAs, parseOct, show "0o".toList = ['0', 'o'] from rfl, withCast,
          hb (c := 'o') (by decide) (by decide) (by decide)]
      | hexadecimal =>
        simp [readAs, parseHex, show "0x".toList = ['0', 'x'] from rfl, withCast,
          hb (c := 'x') (by decide) (by decide) (by decide)]
      | arbitrary => simp [readAs, parseArb, not_arbitrary hm he]
    · cases h
  · cases h

theorem read_scientific {p : ℕ} {powF : ℚ → ℚ → Except Err ℚ} {s : List Char} {n : Number}
    (h : parseExp p powF s = some (.ok n)) {types : List NumType} (hm : NumType.scientific ∈ types) :
    readNumber p powF s types = .ok ⟨n, some .scientific, none⟩ := by
  induction types with
  | nil => cases hm
  | cons t ts ih =>
    unfold readNumber
    by_cases ht : t = .scientific
    · subst ht
      simp [readAs, h, withCast]
    · rw [only_scientific h ht]
      exact ih (by simpa [Ne.symm ht] using hm)

/-! ## The call -/

variable {U R σ : Type} {p : ℕ} {powF : ℚ → ℚ → Except Err ℚ} {types : List NumType} {prec fuel stack : ℕ}
  {unitText : U → List Char}
  {f : List (Scal × Option U) → Bool → Bool → Except Raise (List (Scal × Option U) × Option U)}

/-- The number read from what is shown with `places` places. -/
theorem exp_rounded {places : ℕ} (hp : places + 1 < p) {a : Number} (hfit : Fits p a.val) (h0 : a.val ≠ 0)
    (h1 : (10:ℚ) ^ (-(p - places - 1 : ℤ)) ≤ |a.val|) (h2 : |a.val| < 10 ^ (p - places - 1 : ℤ)) :
    ∃ r : Number, r.Canonical ∧ parseExp p powF (decToExp p places a) = some (.ok r) ∧
      RoundedTo (places + 1) a.val r.val := by
  have hx : toDecimal p a = a.val := rnd_of_fits hfit
  obtain ⟨r1, r2, r3⟩ := sciParts_round places h0
  obtain ⟨b1, b2⟩ := sciValue_bounds (places := places) h0
  have hq := sciValue_ne (places := places) h0
  obtain ⟨l1, l2⟩ := log_bounds h0
  set e := (sciParts places a.val).2 with he
  set m := (sciParts places a.val).1 with hm
  obtain ⟨M, hM, hMa⟩ : ∃ M : ℤ, sciValue places a.val = M * 10 ^ (e - places) ∧ |M| = m := by
    refine ⟨(if a.val < 0 then -1 else 1) * (m : ℤ), ?_, ?_⟩
    · unfold sciValue
      push_cast
      split <;> simp [← hm, ← he]
    · rw [abs_mul]
      have h1 : |(if a.val < 0 then (-1:ℤ) else 1)| = 1 := by split <;> simp
      rw [h1, one_mul, abs_of_nonneg (by positivity)]
  have hMl : |M| < 10 ^ (places + 1) := by rw [hMa]; exact_mod_cast r2
  let b : Number := ⟨(sciValue places a.val).num, (sciValue places a.val).den⟩
  have hbc : b.Canonical := canonical_ofRat _
  have hbv : b.val = sciValue places a.val := val_ofRat _
  have hbd : toDecimal p b = sciValue places a.val := by
    have : toDecimal p b = b.val := by
      apply rnd_of_fits
      change Fits p b.val
      rw [hbv]
      exact ⟨M, e - places, hM, lt_of_lt_of_le hMl (pow_le_pow_right₀ (by norm_num) (by omega))⟩
    rw [this, hbv]
  have heq : decToExp p places a = decToExp p places b := by
    refine decToExp_rounded (by rw [hx]; exact h0) ?_
    rw [hbd, hx]
  -- the exponent of the rounded number
  have hel : Int.log 10 |a.val| ≤ e ∧ e ≤ Int.log 10 |a.val| + 1 := by
    rw [he]
    unfold sciParts
    simp only
    split <;> simp
  have c1 := (zpow_lt_zpow_iff_right₀ (by norm_num : (1:ℚ) < 10)).mp (lt_of_le_of_lt h1 l2)
  have c2 := (zpow_lt_zpow_iff_right₀ (by norm_num : (1:ℚ) < 10)).mp (lt_of_le_of_lt l1 h2)
  have hr := C17_exp_round_trip p places hp powF b hbc M (e - places) (by rw [hbv, hM]) hMl (Or.inr (by
    rw [hbv]
    constructor
    · refine le_trans ?_ b1
      exact zpow_le_zpow_right₀ (by norm_num) (by omega)
    · refine lt_of_lt_of_le b2 ?_
      exact zpow_le_zpow_right₀ (by norm_num) (by omega)))
  refine ⟨b, hbc, heq ▸ hr, M, e - places, by rw [hbv, hM], ?_, ?_, ?_⟩
  · rw [hMa]; simpa using (by exact_mod_cast r1 : (10:ℤ) ^ places ≤ m)
  · exact hMl
  · rw [hbv]
    have : sciValue places a.val - a.val = (if a.val < 0 then -1 else 1) * ((m:ℚ) * 10 ^ (e - places) - |a.val|) := by
      unfold sciValue
      rw [← hm, ← he]
      split
      · rename_i h; rw [abs_of_neg h]; ring
      · rename_i h; rw [abs_of_nonneg (not_lt.mp h)]; ring
    rw [this, abs_mul]
    have h1 : |(if a.val < 0 then (-1:ℚ) else 1)| = 1 := by split <;> simp
    rw [h1, one_mul]
    exact r3

/-- **C91**: `scientific` with a number of places rounds the number to one digit more than that, to the nearest, and
keeps its unit. -/
theorem C91_places {places : ℕ} (hp : places + 1 < p) (hm : NumType.scientific ∈ types) {x y : Opd Scal U R} {n k : Shown}
    (hx : IsShown p powF types x n) (hy : IsShown p powF types y k) (hk : k.num = ⟨places, 1⟩)
    (hkc : k.cast = none ∨ k.cast = some .decimal) (hfit : Fits p n.num.val) (h0 : n.num.val ≠ 0)
    (h1 : (10:ℚ) ^ (-(p - places - 1 : ℤ)) ≤ |n.num.val|) (h2 : |n.num.val| < 10 ^ (p - places - 1 : ℤ)) (s : σ) :
    ∃ z r, call (calculator p powF types prec fuel stack unitText f) (opScientific p powF types) [x, y] s = (.ok z, s) ∧
      SameNumber r x z (some .scientific) ∧ RoundedTo (places + 1) n.num.val r.val := by
  obtain ⟨r, -, hr, hround⟩ := exp_rounded (powF := powF) hp hfit h0 h1 h2
  rw [call_numbers (op := opScientific p powF types) ⟨rfl, rfl, rfl, rfl⟩ notation_numbers
    (.cons hx.isNum (.cons hy.isNum .nil)) (by intro m hm; cases hm; simp) (by intro m hm; cases hm; simp)]
  have hn : normalised (calculator p powF types prec fuel stack unitText f)
      (opScientific (U := U) (R := R) (σ := σ) p powF types) ([Scal.num n, Scal.num k].zip ([x, y].map (·.unit)))
      = .ok ([(.num n, x.unit), (.num k, y.unit)], none) := rfl
  rw [hn]
  have hpl : placesOf k = .ok places := by
    unfold placesOf
    rw [if_pos hkc, hk, if_pos ⟨by positivity, rfl⟩]
    simp
  have href : (opScientific (U := U) (R := R) (σ := σ) p powF types).ref
      [⟨.sc (.num n), x.unit, x.ref, x.orig⟩, ⟨.sc (.num k), y.unit, y.ref, y.orig⟩] s
      = (.ok { value := .sc (.num ⟨r, some .scientific, none⟩), unit := some x.unit }, s) := by
    simp only [opScientific, numOp, shownAt, List.getElem?_cons_zero, List.getElem?_cons_succ, bind, Except.bind,
      List.length_cons, List.length_nil, if_true, hpl, read_scientific hr hm, liftErr]
    rfl
  have e : setNumbers (List.zipWith (fun (x : Opd Scal U R) (w : Scal) => { x with value := .sc w }) [x, y]
      [.num n, .num k]) [(.num n, x.unit), (.num k, y.unit)]
      = [⟨.sc (.num n), x.unit, x.ref, x.orig⟩, ⟨.sc (.num k), y.unit, y.ref, y.orig⟩] := rfl
  dsimp only
  rw [e, href]
  dsimp only
  refine ⟨_, r, rfl, ⟨?_, rfl⟩, hround⟩
  simp only [finishResult, opScientific, numOp]
  cases List.findSome? _ _ <;> rfl

example : RoundedTo 3 (2 / 3) (667 / 1000) := ⟨667, -3, by norm_num, by norm_num, by norm_num, by norm_num [abs_le]⟩

/-- `scientific('12345', 2)` is a number near 12345 of three digits, with the unit that 12345 had. -/
example : ∃ (z : Opd Scal ℕ Unit) (r : Number),
    call (calculator (R := Unit) 100 noPow [.decimal, .scientific] 30 10 5 (fun _ => []) keepUnits)
      (opScientific 100 noPow [.decimal, .scientific])
      [⟨.sc (.text "12345".toList), some 7, none, none⟩, ⟨.sc (.text "2".toList), none, none, none⟩] () = (.ok z, ()) ∧
    SameNumber r ⟨.sc (.text "12345".toList), some 7, none, none⟩ z (some .scientific) ∧ RoundedTo 3 12345 r.val := by
  have h1 : readNumber 100 noPow "12345".toList [.decimal, .scientific] = .ok ⟨⟨12345, 1⟩, some .decimal, none⟩ := by
    decide +kernel
  have h2 : readNumber 100 noPow "2".toList [.decimal, .scientific] = .ok ⟨⟨2, 1⟩, some .decimal, none⟩ := by
    decide +kernel
  have hv : (⟨12345, 1⟩ : Number).val = 12345 := by norm_num [Number.val]
  have := C91_places (R := Unit) (σ := Unit) (p := 100) (powF := noPow) (types := [.decimal, .scientific]) (prec := 30)
    (fuel := 10) (stack := 5) (unitText := fun _ => []) (f := keepUnits) (places := 2) (by norm_num) (by decide)
    (x := ⟨.sc (.text "12345".toList), some 7, none, none⟩) (y := ⟨.sc (.text "2".toList), none, none, none⟩)
    (n := ⟨⟨12345, 1⟩, some .decimal, none⟩) (k := ⟨⟨2, 1⟩, some .decimal, none⟩)
    ⟨_, rfl, by simp only [toNumber, h1]⟩ ⟨_, rfl, by simp only [toNumber, h2]⟩ rfl (Or.inr rfl)
    (by rw [hv]; exact ⟨12345, 0, by norm_num, by norm_num⟩) (by rw [hv]; norm_num)
    (by rw [hv]; norm_num [abs_of_pos]) (by rw [hv]; norm_num [abs_of_pos]) ()
  simpa only [hv] using this

/-- `scientific(12345, 2)` is `1.23E4`. -/
example : parseExp 100 noPow (decToExp 100 2 ⟨12345, 1⟩) = some (.ok ⟨12300, 1⟩) ∧
    decToExp 100 2 ⟨12345, 1⟩ = "1.23E4".toList := by decide +kernel

end MC.Props
