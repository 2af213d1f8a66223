import Verif.Spec.Notation
import Verif.Props.Bases2
import Verif.Props.ExpPercent
import Verif.Props.Display
import Verif.Props.Bitwise
import Verif.Lemmas.Range
import Verif.Lemmas.Numeric
import Verif.Model.Units

/-! # C91: changing the notation of a number -/

namespace MC.Props
open MC.Notation MC.Numeric MC.Numerical MC.Number MC.Arrays MC.Strings MC.Spec

variable {U R σ : Type} {p : ℕ} {powF : ℚ → ℚ → Except Err ℚ} {types : List NumType} {prec fuel stack : ℕ}
  {unitText : U → List Char}
  {f : List (Scal × Option U) → Bool → Bool → Except Raise (List (Scal × Option U) × Option U)}

/-- Normalising one number with its unit leaves it as it is. -/
def OneAlone (f : List (Scal × Option U) → Bool → Bool → Except Raise (List (Scal × Option U) × Option U)) : Prop :=
  ∀ x relative, f [x] false relative = .ok ([x], x.2)

/-- The shipped normaliser does so. -/
theorem C91_one_alone {D K : Type} [DecidableEq U] [DecidableEq D] [Field K] (pw : K → ℚ → K) (N : Unit.Norm U D K)
    (fuel : ℕ) (relative : Bool) (x : K × Option (Unit.PL U)) :
    Unit.normaliseInputs pw N fuel false relative [x] = some (.ok ([x], x.2)) := by
  obtain ⟨v, u⟩ := x
  cases u <;> simp [Unit.normaliseInputs]

/-- The operand is the number `n`: a number object, or a text the calculator reads as one. -/
def IsShown (p : ℕ) (powF : ℚ → ℚ → Except Err ℚ) (types : List NumType) (x : Opd Scal U R) (n : Shown) : Prop :=
  ∃ v, x.value = .sc v ∧ toNumber p powF types v = some (.num n)

local notation "C" => (calculator (R := R) p powF types prec fuel stack unitText f)

theorem notation_numbers : HasNumbers C := by
  unfold HasNumbers calculator
  simp only [if_true, Option.some.injEq]
  funext x y
  unfold validateNumber asNumber
  cases x.value <;> rfl

theorem IsShown.isNum {x : Opd Scal U R} {n : Shown} (h : IsShown p powF types x n) : IsNum C x (.num n) := by
  obtain ⟨v, h1, h2⟩ := h
  exact ⟨v, h1, h2, rfl⟩

/-- **C91**: `bin`, `oct`, `hex` and `dec` give the same number with the same unit, in the notation asked for. -/
theorem C91_convert (hf : OneAlone f) {t : NumType} (ht : t ≠ .arbitrary) (name : String) {x : Opd Scal U R} {n : Shown}
    (hx : IsShown p powF types x n) (s : σ) :
    ∃ y, call C (opConvert name t) [x] s = (.ok y, s) ∧ SameNumber n.num x y (asked t) := by
  rw [call_numbers (op := opConvert name t) ⟨rfl, rfl, rfl, rfl⟩ notation_numbers (.cons hx.isNum .nil)
    (by intro m hm; cases hm; simp) (by intro m hm; cases hm; simp)]
  have hn : normalised C (opConvert (U := U) (R := R) (σ := σ) name t) ([Scal.num n].zip ([x].map (·.unit)))
      = .ok ([(.num n, x.unit)], x.unit) := hf (.num n, x.unit) false
  rw [hn]
  cases t with
  | arbitrary => exact absurd rfl ht
  | _ => exact ⟨_, rfl, by
      simp only [finishResult, opConvert, numOp]
      cases List.findSome? _ _ <;> rfl, rfl⟩

theorem name_injective {t t' : NumType} (h : t.name = t'.name) : t = t' := by
  cases t <;> cases t' <;> first | rfl | (exact absurd h (by decide))

theorem find_type {t : NumType} (ht : t ∈ types) : types.find? (fun t' => t'.name == t.name) = some t := by
  cases h : types.find? (fun t' => t'.name == t.name) with
  | none => exact absurd (List.find?_eq_none.mp h t ht) (by simp)
  | some t' =>
    have h1 : t'.name = t.name := by simpa using List.find?_some h
    rw [name_injective h1]

/-- What `as` does with a number and the name of a number type. -/
theorem call_as {t : NumType} (ht : t ∈ types) {x y : Opd Scal U R} {n : Shown}
    (hx : IsShown p powF types x n) (hy : y.value = .sc (.text t.name)) (s : σ) :
    call C (opAs types) [x, y] s = match convertTo t n with
      | .ok z => (.ok ⟨.sc (.num z), x.unit, none, none⟩, s)
      | .error e => (.error (wrap C (opAs (σ := σ) types) [x, y] e), s) := by
  obtain ⟨v, h1, h2⟩ := hx
  have hsc : ∀ z ∈ [x, y], IsScalar z := by
    simp only [List.mem_cons, List.not_mem_nil, or_false]
    rintro z (rfl | rfl)
    · exact ⟨_, h1⟩
    · exact ⟨_, hy⟩
  have hany : ∀ z ∈ [x, y], z.value.err? = none := by
    intro z hz
    obtain ⟨w, hw⟩ := hsc z hz
    rw [hw]; rfl
  rw [call_direct (spreads_scalar hsc 0) (by simp [opAs]) rfl hany]
  have hval : validate C (opAs (σ := σ) types) [x, y] = .ok () := by
    simp [validate, opAs, checkValues, checkFrom, Operation.applies, anyType, validateInput, calculator, h1, h2,
      isTypeName, hy, find_type ht, checkUnits]
  have hprep : prepare C (opAs (σ := σ) types) [x, y]
      = .ok ([{ x with value := .sc (.num n) }, y], none, castOf C (opAs (σ := σ) types) [x, y]) := by
    have hconv : convertFrom C (opAs (σ := σ) types) 0 [x, y] = [{ x with value := .sc (.num n) }, y] := by
      have e1 : convertible (opAs (U := U) (R := R) (σ := σ) types) 0 = true := by
        simp [convertible, opAs, Operation.applies]
      have e2 : convertible (opAs (U := U) (R := R) (σ := σ) types) 1 = false := by
        simp [convertible, opAs, Operation.applies]
      have e3 : asNumber C x.value = some (.num n) := by rw [h1]; exact h2
      simp [convertFrom, e1, e2, e3]
    have hnum : numbersFrom C (opAs (σ := σ) types) 0 [{ x with value := .sc (.num n) }, y] = none := by
      have e2 : (opAs (U := U) (R := R) (σ := σ) types).canBe 1 "number" = false := by
        simp [Operation.canBe, opAs, Operation.applies, ObjType.main]
      unfold numbersFrom
      dsimp only
      split
      · unfold numbersFrom
        rw [hy]
        simp [e2]
      · rfl
    have e0 : (opAs (U := U) (R := R) (σ := σ) types).convertIn = true := rfl
    unfold prepare
    simp only [e0, if_true]
    rw [hconv, hnum]
    dsimp only
    refine normaliseArrays_scalar ?_ _ _ _
    simp only [List.mem_cons, List.not_mem_nil, or_false]
    rintro z (rfl | rfl)
    · exact ⟨_, rfl⟩
    · exact ⟨_, hy⟩
  unfold attempt
  rw [hval]; dsimp only
  rw [hprep]; dsimp only
  obtain ⟨yv, yu, yr, yo⟩ := y
  subst hy
  have href : (opAs (U := U) (R := R) (σ := σ) types).ref
      [{ x with value := .sc (.num n) }, ⟨.sc (.text t.name), yu, yr, yo⟩] s
      = (do
        let z ← convertTo t n
        return { value := .sc (.num z), unit := x.unit.map some }, s) := by
    simp only [opAs, find_type ht, shownAt]
    rfl
  rw [href]
  cases hz : convertTo t n with
  | error e => rfl
  | ok z =>
    have : finishResult C (opAs (σ := σ) types) none (castOf C (opAs (σ := σ) types) [x, ⟨.sc (.text t.name), yu, yr, yo⟩])
        { value := .sc (.num z), unit := x.unit.map some } = ⟨.sc (.num z), x.unit, none, none⟩ := by
      unfold finishResult
      have e1 : (opAs (U := U) (R := R) (σ := σ) types).convertOut = false := rfl
      dsimp only
      rw [e1]
      cases castOf C (opAs (σ := σ) types) [x, ⟨.sc (.text t.name), yu, yr, yo⟩] <;> cases x.unit <;> rfl
    simp only [bind, Except.bind, pure, Except.pure]
    rw [this]
    rfl

/-- **C91**: so does `as` with the name of a number type other than `arbitrarybase`. -/
theorem C91_as {t : NumType} (hmem : t ∈ types) (ht : t ≠ .arbitrary) {x y : Opd Scal U R} {n : Shown}
    (hx : IsShown p powF types x n) (hy : y.value = .sc (.text t.name)) (s : σ) :
    ∃ z, call C (opAs types) [x, y] s = (.ok z, s) ∧ SameNumber n.num x z (asked t) := by
  rw [call_as hmem hx hy]
  cases t with
  | arbitrary => exact absurd rfl ht
  | _ => exact ⟨_, rfl, rfl, rfl⟩

/-- **C91**: so does `scientific` when no places are given. -/
theorem C91_scientific {x : Opd Scal U R} {n : Shown} (hx : IsShown p powF types x n) (s : σ) :
    ∃ z, call C (opScientific p powF types) [x] s = (.ok z, s) ∧ SameNumber n.num x z (some .scientific) := by
  rw [call_numbers (op := opScientific p powF types) ⟨rfl, rfl, rfl, rfl⟩ notation_numbers (.cons hx.isNum .nil)
    (by intro m hm; cases hm; simp) (by intro m hm; cases hm; simp)]
  have hn : normalised C (opScientific (U := U) (R := R) (σ := σ) p powF types) ([Scal.num n].zip ([x].map (·.unit)))
      = .ok ([(.num n, x.unit)], none) := rfl
  rw [hn]
  exact ⟨_, rfl, by
      simp only [finishResult, opScientific, numOp]
      cases List.findSome? _ _ <;> rfl, rfl⟩

/-- `z` is the answer of a conversion of `x` to the notation `t`: by one of the functions, or by `as`. -/
inductive ConvertedTo (c : Calc Scal U R Cast) (p : ℕ) (powF : ℚ → ℚ → Except Err ℚ) (types : List NumType) :
    Opd Scal U R → NumType → Opd Scal U R → Prop
  | bin {x z} {s s' : σ} : call c opBin [x] s = (.ok z, s') → ConvertedTo c p powF types x .binary z
  | oct {x z} {s s' : σ} : call c opOct [x] s = (.ok z, s') → ConvertedTo c p powF types x .octal z
  | hex {x z} {s s' : σ} : call c opHex [x] s = (.ok z, s') → ConvertedTo c p powF types x .hexadecimal z
  | dec {x z} {s s' : σ} : call c opDec [x] s = (.ok z, s') → ConvertedTo c p powF types x .decimal z
  | scientific {x z} {s s' : σ} : call c (opScientific p powF types) [x] s = (.ok z, s') →
      ConvertedTo c p powF types x .scientific z
  | as {x y z t} {s s' : σ} : t ∈ types → y.value = .sc (.text t.name) →
      call c (opAs types) [x, y] s = (.ok z, s') → ConvertedTo c p powF types x t z

/-- `y` comes from `x` by any number of conversions. -/
inductive Conversions (c : Calc Scal U R Cast) (p : ℕ) (powF : ℚ → ℚ → Except Err ℚ) (types : List NumType)
    (x : Opd Scal U R) : Opd Scal U R → Prop
  | none : Conversions c p powF types x x
  | then {y z t} : Conversions c p powF types x y → ConvertedTo (σ := σ) c p powF types y t z →
      Conversions c p powF types x z

theorem converted_same (hf : OneAlone f) {x z : Opd Scal U R} {t : NumType} {n : Shown}
    (hx : IsShown p powF types x n) (h : ConvertedTo (σ := σ) C p powF types x t z) :
    SameNumber n.num x z (asked t) := by
  have key : ∀ {op : Operation Scal U R σ} {xs : List (Opd Scal U R)} {s s' : σ} {k : Option Cast},
      call C op xs s = (.ok z, s') → (∃ y, call C op xs s = (.ok y, s) ∧ SameNumber n.num x y k) →
      SameNumber n.num x z k := by
    rintro op xs s s' k h1 ⟨y, h2, h3⟩
    rw [h1] at h2
    cases h2
    exact h3
  cases h with
  | bin h => exact key h (C91_convert hf (by decide) _ hx _)
  | oct h => exact key h (C91_convert hf (by decide) _ hx _)
  | hex h => exact key h (C91_convert hf (by decide) _ hx _)
  | dec h => exact key h (C91_convert hf (by decide) _ hx _)
  | scientific h => exact key h (C91_scientific hx _)
  | as hm hy h =>
    by_cases ht : t = .arbitrary
    · rw [call_as hm hx hy, ht] at h
      exact absurd h (by simp [convertTo])
    · exact key h (C91_as hm ht hx hy _)

theorem SameNumber.isShown {n : Number} {x y : Opd Scal U R} {k : Option Cast} (h : SameNumber n x y k) :
    IsShown p powF types y ⟨n, k, none⟩ := ⟨_, h.value, rfl⟩

theorem conversions_same (hf : OneAlone f) {x y : Opd Scal U R} {n : Shown}
    (hx : IsShown p powF types x n) (hy : Conversions (σ := σ) C p powF types x y) :
    (∃ m : Shown, m.num = n.num ∧ IsShown p powF types y m) ∧ y.unit = x.unit := by
  induction hy with
  | none => exact ⟨⟨n, rfl, hx⟩, rfl⟩
  | «then» _ h2 ih =>
    obtain ⟨⟨m, hm, hs⟩, hu⟩ := ih
    have h3 := converted_same hf hs h2
    exact ⟨⟨⟨m.num, _, none⟩, hm, SameNumber.isShown h3⟩, h3.unit.trans hu⟩

/-- **C91**: after any number of conversions the last one decides the notation, and the number and its unit are still
those at the start. -/
theorem C91_last_wins (hf : OneAlone f) {x y z : Opd Scal U R} {t : NumType} {n : Shown}
    (hx : IsShown p powF types x n) (hy : Conversions (σ := σ) C p powF types x y)
    (hz : ConvertedTo (σ := σ) C p powF types y t z) : SameNumber n.num x z (asked t) := by
  obtain ⟨⟨m, hm, hs⟩, hu⟩ := conversions_same hf hx hy
  have := converted_same hf hs hz
  rw [hm] at this
  exact ⟨this.value, this.unit.trans hu⟩

/-! ## What is shown reads back -/

theorem canonical_num {a : Number} (ha : a.Canonical) : a.val.num = a.num ∧ (a.val.den : ℤ) = a.den := by
  have h : a = ⟨a.val.num, a.val.den⟩ := canonical_ext ha (canonical_ofRat _) (val_ofRat _).symm
  have h1 := congrArg Number.num h
  have h2 := congrArg Number.den h
  exact ⟨h1.symm, h2.symm⟩

/-- **C91**: a number that can be written exactly in a notation is shown, after a conversion to it, as a text that the
calculator reads as this number in this notation. -/
theorem C91_reads_back (hp : prec + 1 < p) {t : NumType} {a : Number} (ha : a.Canonical)
    (h : Writable p prec t a.val) :
    ∃ txt F, (∀ fuel stack, F ≤ fuel → showNumber p powF prec fuel stack ⟨a, asked t, none⟩ = .ok txt) ∧
      ∃ y, readAs p powF t txt = .ok (some y) ∧ y.num = a ∧ (y.cast.getD .decimal) = (asked t).getD .decimal := by
  obtain ⟨n1, n2⟩ := canonical_num ha
  cases t with
  | decimal =>
    obtain ⟨k, hk, hs⟩ := h
    rw [n1] at hs
    obtain ⟨txt, r, h1, h2, h3, -, h5⟩ := C10_read_back p prec (by omega) a ha hs
    refine ⟨txt, 0, fun fuel stack _ => by simp only [showNumber, asked]; exact h1, ⟨r, some .decimal, none⟩, ?_, h5 ⟨k, hk⟩, rfl⟩
    simp [readAs, h2, withCast]
  | percentage =>
    obtain ⟨k, hk, hs, hd⟩ := h
    rw [n1] at hs
    rw [n2] at hd
    obtain ⟨txt, h1, h2⟩ := C17_percent_round_trip p prec a ha hs hd (by omega) ⟨k, hk⟩
    exact ⟨txt, 0, fun fuel stack _ => by simp only [showNumber, asked]; exact h1, ⟨a, some .percentage, none⟩, by simp [readAs, h2, withCast], rfl, rfl⟩
  | scientific =>
    obtain ⟨m, k, hk, hm, hr⟩ := h
    have h2 := C17_exp_round_trip p prec hp powF a ha m k hk hm hr
    exact ⟨decToExp p prec a, 0, fun fuel stack _ => by simp only [showNumber, asked], ⟨a, some .scientific, none⟩, by simp [readAs, h2, withCast], rfl, rfl⟩
  | binary =>
    obtain ⟨z, k, hk, hv, hs⟩ := h
    by_cases hz : z = 0
    · have h0 := canonical_zero ha (by rw [hv, hz]; simp)
      subst h0
      refine ⟨"0b0".toList, 0, fun fuel stack _ => ?_, ⟨⟨0, 1⟩, some .binary, some 1⟩, ?_, rfl, rfl⟩
      · simp only [showNumber, asked]
        unfold showBin; rw [decToBase_zero]; rfl
      · have : parseBin p powF "0b0".toList = some (.ok (⟨0, 1⟩, 1)) := by
          unfold parseBin
          rw [if_pos (by decide +kernel)]
          rw [show removePrefix "0b0".toList "0b".toList = ['0'] by decide +kernel, baseToDec_zero (by omega)]
          have hw : numberWidth "0b0".toList "0b".toList = .ok 1 := by decide +kernel
          rw [hw]; rfl
        simp only [readAs, this]
    · obtain ⟨txt, w, F, h1, h2⟩ := C13_bin p (by omega) powF k prec hk a ha z hz hv hs
      exact ⟨txt, F, fun fuel stack hF => by simp only [showNumber, asked]; exact h1 fuel hF, ⟨a, some .binary, some w⟩, by simp [readAs, h2], rfl, rfl⟩
  | octal =>
    obtain ⟨z, k, hk, hv, hs⟩ := h
    obtain ⟨txt, F, h1, h2⟩ := C13_oct p (by omega) powF k prec hk a ha z hv hs
    exact ⟨txt, F, fun fuel stack hF => by simp only [showNumber, asked]; exact h1 fuel hF, ⟨a, some .octal, none⟩, by simp [readAs, h2, withCast], rfl, rfl⟩
  | hexadecimal =>
    obtain ⟨z, k, hk, hv, hs⟩ := h
    obtain ⟨txt, F, h1, h2⟩ := C13_hex p (by omega) powF k prec hk a ha z hv hs
    exact ⟨txt, F, fun fuel stack hF => by simp only [showNumber, asked]; exact h1 fuel hF, ⟨a, some .hexadecimal, none⟩, by simp [readAs, h2, withCast], rfl, rfl⟩
  | arbitrary => exact h.elim

/-- **C91**: after any number of conversions, a number that can be written exactly in the last notation is shown as a
text that the calculator reads as the number at the start, in this notation. -/
theorem C91_shown (hf : OneAlone f) (hp : prec + 1 < p) {x y z : Opd Scal U R} {t : NumType} {n : Shown}
    (hn : n.num.Canonical) (hx : IsShown p powF types x n) (hy : Conversions (σ := σ) C p powF types x y)
    (hz : ConvertedTo (σ := σ) C p powF types y t z) (h : Writable p prec t n.num.val) :
    ∃ v txt F, z.value = .sc (.num v) ∧
      (∀ fuel stack, F ≤ fuel → showNumber p powF prec fuel stack v = .ok txt) ∧
      ∃ y, readAs p powF t txt = .ok (some y) ∧ y.num = n.num ∧ (y.cast.getD .decimal) = (asked t).getD .decimal := by
  obtain ⟨txt, F, h1, h2⟩ := C91_reads_back (powF := powF) hp hn h
  exact ⟨_, txt, F, (C91_last_wins hf hx hy hz).value, h1, h2⟩

/-! ## Where it fails -/

/-- `as arbitrarybase` is offered, but fails for every number. -/
theorem C91_arbitrary_violation (hm : NumType.arbitrary ∈ types) {x y : Opd Scal U R} {n : Shown}
    (hx : IsShown p powF types x n) (hy : y.value = .sc (.text "arbitrarybase".toList)) (s : σ) :
    ∃ e, call C (opAs types) [x, y] s = (.error e, s) := by
  rw [call_as hm hx hy]
  exact ⟨_, rfl⟩

/-- A number written in base ten with its prefix (`10z5`) is read, but can never be shown: this ends in Python's
`RecursionError`, however large the stack. -/
theorem C91_ten_violation {n : Number} (hn : toDecimal p n ≠ 0) (w : Option ℕ) (stack : ℕ) :
    showNumber p powF prec fuel stack ⟨n, some (.arbitrary 10), w⟩ = .error (.py "RecursionError") := by
  induction stack with
  | zero => simp [showNumber, hn]
  | succ k ih =>
    rw [showNumber]
    simp only [hn, ne_eq, not_false_eq_true, and_self, if_true]
    rw [ih]
    rfl

example : readAs 100 noPow .arbitrary "10z5".toList = .ok (some ⟨⟨5, 1⟩, some (.arbitrary 10), none⟩) ∧
    toDecimal 100 ⟨5, 1⟩ ≠ 0 := by decide +kernel

/-! ## `base` -/

/-- Normalising two numbers without units leaves them as they are. -/
def TwoPlain (f : List (Scal × Option U) → Bool → Bool → Except Raise (List (Scal × Option U) × Option U)) : Prop :=
  ∀ v w relative, f [(v, none), (w, none)] false relative = .ok ([(v, none), (w, none)], none)

/-- The shipped normaliser does so. -/
theorem C91_two_plain {D K : Type} [DecidableEq U] [DecidableEq D] [Field K] (pw : K → ℚ → K) (N : Unit.Norm U D K)
    (fuel : ℕ) (relative : Bool) (v w : K) :
    Unit.normaliseInputs pw N fuel false relative [(v, none), (w, none)] = some (.ok ([(v, none), (w, none)], none)) := by
  simp [Unit.normaliseInputs]

theorem call_base (hf : TwoPlain f) {x y : Opd Scal U R} {n b : Shown} (hx : IsShown p powF types x n)
    (hux : x.unit = none) (hy : IsShown p powF types y b) (huy : y.unit = none) {txt : List Char} (s : σ)
    (h : (do
          if toDecimal p n.num = 0 then addPrefix ['0'] (intText (toInt p b.num) ++ ['z'])
          else if toInt p b.num = 10 then
            addPrefix (← showNumber p powF prec fuel stack n) (intText (toInt p b.num) ++ ['z'])
          else addPrefix (← decToBase p powF prec fuel n.num (toInt p b.num)) (intText (toInt p b.num) ++ ['z']))
        = .ok txt) :
    call C (opBase p powF prec fuel stack) [x, y] s = (.ok ⟨.sc (.text txt), none, none, none⟩, s) := by
  rw [call_numbers (op := opBase p powF prec fuel stack) ⟨rfl, rfl, rfl, rfl⟩ notation_numbers
    (.cons hx.isNum (.cons hy.isNum .nil)) (by intro m hm; cases hm; simp) (by intro m hm; cases hm; simp)]
  have hn : normalised C (opBase (U := U) (R := R) (σ := σ) p powF prec fuel stack)
      ([Scal.num n, Scal.num b].zip ([x, y].map (·.unit)))
      = .ok ([(.num n, none), (.num b, none)], none) := by
    simp only [List.map_cons, List.map_nil, hux, huy]
    exact hf _ _ _
  rw [hn]
  have href : (opBase (U := U) (R := R) (σ := σ) p powF prec fuel stack).ref
      [⟨.sc (.num n), none, x.ref, x.orig⟩, ⟨.sc (.num b), none, y.ref, y.orig⟩] s
      = (.ok { value := .sc (.text txt) }, s) := by
    have h1 : ∀ (r : Except Err (List Char)), r = .ok txt →
        ((do
          let t ← liftErr r
          return { value := .sc (.text t) } : Except Raise (OpResult Scal U R)), s)
        = (.ok { value := .sc (.text txt) }, s) := by
      rintro r rfl; rfl
    exact h1 _ h
  have e : setNumbers (List.zipWith (fun (x : Opd Scal U R) (w : Scal) => { x with value := .sc w }) [x, y]
      [.num n, .num b]) [(.num n, none), (.num b, none)]
      = [⟨.sc (.num n), none, x.ref, x.orig⟩, ⟨.sc (.num b), none, y.ref, y.orig⟩] := rfl
  dsimp only
  rw [e, href]
  dsimp only
  have hfin : ∀ k, finishResult C (opBase (U := U) (R := R) (σ := σ) p powF prec fuel stack) none k
      { value := .sc (.text txt) } = ⟨.sc (.text txt), none, none, none⟩ := by
    intro k
    cases k <;> rfl
  rw [hfin]
  rfl

/-- **C91**: `base` writes a number in a base below 36 other than ten as a text that is read as this number. -/
theorem C91_base (hp : 1 ≤ p) (hf : TwoPlain f) {x y : Opd Scal U R} {n m : Shown} (hx : IsShown p powF types x n)
    (hux : x.unit = none) (hy : IsShown p powF types y m) (huy : y.unit = none) {b k : ℕ} (hb : 2 ≤ b) (hb36 : b < 36)
    (hb10 : b ≠ 10) (hm : m.num = ⟨b, 1⟩) (hk : k ≤ prec) (hn : n.num.Canonical) {z : ℤ} (hz : z ≠ 0)
    (hval : n.num.val = (z:ℚ) / (b:ℚ) ^ k) (h5 : 5 * (b * z.natAbs * b ^ k) < 10 ^ p) :
    ∃ txt F, (F ≤ fuel → ∀ s : σ, call C (opBase p powF prec fuel stack) [x, y] s
        = (.ok ⟨.sc (.text txt), none, none, none⟩, s)) ∧
      readAs p powF .arbitrary txt = .ok (some ⟨n.num, some (.arbitrary b), none⟩) := by
  obtain ⟨txt, F, h1, h2⟩ := C13_arbitrary_base p hp powF b k prec hb hb36 hb10 hk n.num hn z hz hval h5
  have hbi : toInt p m.num = b := by
    rw [hm]
    refine toInt_int ?_
    rw [abs_of_nonneg (by positivity)]
    have h6 : b ≤ b * z.natAbs * b ^ k :=
      (Nat.le_mul_of_pos_right b (by omega)).trans (Nat.le_mul_of_pos_right _ (by positivity))
    have h7 : b < 10 ^ p := by omega
    exact_mod_cast h7
  have hnz : toDecimal p n.num ≠ 0 := by
    have hv : n.num.val ≠ 0 := by
      rw [hval]
      have : (b : ℚ) ≠ 0 := by norm_cast; omega
      positivity
    intro h0
    have h1 := Range.toDecimal_pos hp n.num
    have h2 := Range.toDecimal_neg hp n.num
    rw [h0] at h1 h2
    simp only [lt_self_iff_false, false_iff, not_lt] at h1 h2
    exact hv (le_antisymm h1 h2)
  have ht : intText (b : ℤ) = natText b := by
    unfold intText
    rw [if_neg (by omega)]
    rfl
  refine ⟨txt, F, fun hF s => call_base hf hx hux hy huy s ?_, by simp [readAs, h2]⟩
  rw [hbi, if_neg hnz, if_neg (by exact_mod_cast hb10), ht]
  exact h1 fuel hF

/-- In base ten `base` writes the number in its own notation: `base(0xFF, 10)` is the text `10z0xFF`, which is no
number. -/
theorem C91_base_ten_violation (hf : TwoPlain f) {s : σ} :
    call (calculator (R := R) 100 noPow [.decimal, .hexadecimal, .arbitrary] 30 10 5 unitText f)
        (opBase 100 noPow 30 10 5)
        [Opd.pure (.sc (.num ⟨⟨255, 1⟩, some .hexadecimal, none⟩)), Opd.pure (.sc (.num ⟨⟨10, 1⟩, none, none⟩))] s
      = (.ok ⟨.sc (.text "10z0xFF".toList), none, none, none⟩, s) ∧
    (∀ x, readNumber 100 noPow "10z0xFF".toList [.decimal, .hexadecimal, .arbitrary] ≠ .ok x) := by
  refine ⟨call_base hf (n := ⟨⟨255, 1⟩, some .hexadecimal, none⟩) (b := ⟨⟨10, 1⟩, none, none⟩) ⟨_, rfl, rfl⟩ rfl
    ⟨_, rfl, rfl⟩ rfl s (by decide +kernel), ?_⟩
  have h : readNumber 100 noPow "10z0xFF".toList [.decimal, .hexadecimal, .arbitrary]
    = .error (.py "InvalidOperation") := by decide +kernel
  intro x hx
  rw [h] at hx
  cases hx

/-- A normaliser for the examples: one operand keeps its unit, and the unit of the first is that of the result. -/
def keepUnits (xs : List (Scal × Option ℕ)) (_ _ : Bool) : Except Raise (List (Scal × Option ℕ) × Option ℕ) :=
  .ok (xs, (xs.filterMap (·.2)).head?)

theorem keepUnits_one : OneAlone keepUnits := by
  intro x r
  obtain ⟨v, u⟩ := x
  cases u <;> rfl

theorem keepUnits_two : TwoPlain keepUnits := fun _ _ _ => rfl

/-- The text `'255'` with a unit, converted by `hex`, then by `as percentage`, then by `dec`. -/
example : ∃ y z w : Opd Scal ℕ Unit,
    let c := calculator (R := Unit) 100 noPow [.decimal, .percentage, .hexadecimal] 30 10 5 (fun _ => []) keepUnits
    call c opHex [⟨.sc (.text "255".toList), some 7, none, none⟩] () = (.ok y, ()) ∧
    SameNumber ⟨255, 1⟩ ⟨.sc (.text "255".toList), some 7, none, none⟩ y (some .hexadecimal) ∧
    call c (opAs [.decimal, .percentage, .hexadecimal]) [y, ⟨.sc (.text "percentage".toList), none, none, none⟩] ()
      = (.ok z, ()) ∧ SameNumber ⟨255, 1⟩ y z (some .percentage) ∧
    call c opDec [z] () = (.ok w, ()) ∧ SameNumber ⟨255, 1⟩ z w none := by
  have h1 : readNumber 100 noPow "255".toList [.decimal, .percentage, .hexadecimal]
      = .ok ⟨⟨255, 1⟩, some .decimal, none⟩ := by decide +kernel
  obtain ⟨y, y1, y2⟩ := C91_convert (R := Unit) (σ := Unit) (p := 100) (powF := noPow)
    (types := [.decimal, .percentage, .hexadecimal]) (prec := 30) (fuel := 10) (stack := 5) (unitText := fun _ => [])
    keepUnits_one (t := .hexadecimal) (by decide) "hex" (x := ⟨.sc (.text "255".toList), some 7, none, none⟩)
    (n := ⟨⟨255, 1⟩, some .decimal, none⟩) ⟨_, rfl, by simp only [toNumber, h1]⟩ ()
  have hy := SameNumber.isShown (p := 100) (powF := noPow) (types := [.decimal, .percentage, .hexadecimal]) y2
  obtain ⟨z, z1, z2⟩ := C91_as (R := Unit) (σ := Unit) (prec := 30) (fuel := 10) (stack := 5)
    (unitText := fun _ => []) (f := keepUnits) (t := .percentage) (by decide) (by decide) hy
    (y := ⟨.sc (.text "percentage".toList), none, none, none⟩) rfl ()
  have hz := SameNumber.isShown (p := 100) (powF := noPow) (types := [.decimal, .percentage, .hexadecimal]) z2
  obtain ⟨w, w1, w2⟩ := C91_convert (R := Unit) (σ := Unit) (p := 100) (powF := noPow)
    (types := [.decimal, .percentage, .hexadecimal]) (prec := 30) (fuel := 10) (stack := 5) (unitText := fun _ => [])
    keepUnits_one (t := .decimal) (by decide) "dec" hz ()
  exact ⟨y, z, w, y1, y2, z1, z2, w1, w2⟩

example : Writable 100 30 .hexadecimal (-255 / 16) ∧ Writable 100 30 .scientific (3 / 2000) ∧
    Writable 100 30 .percentage (1 / 8) ∧ Writable 100 30 .binary (-5 / 4) := by
  refine ⟨⟨-255, 1, by norm_num, by norm_num, by norm_num⟩, ⟨15, -4, by norm_num, by norm_num, Or.inr ?_⟩,
    ⟨125 * 10 ^ 29, by norm_num, ?_, ?_⟩, ⟨-5, 2, by norm_num, by norm_num, by norm_num⟩⟩
  · norm_num
  · rw [show ((1:ℚ) / 8).num = 1 by decide +kernel]; norm_num
  · rw [show ((1:ℚ) / 8).den = 8 by decide +kernel]; norm_num

example : showNumber 100 noPow 30 10 5 ⟨⟨-255, 16⟩, asked .hexadecimal, none⟩ = .ok "-0xF.F".toList := by decide +kernel

end MC.Props
