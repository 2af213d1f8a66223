import Verif.Model.Arithmetic
import Verif.Lemmas.Numeric
import Verif.Props.Numerical2
import Verif.Props.Number2
import Verif.Props.Strings
import Verif.Spec.Texts

/-! # Arithmetic on numbers without units -/

namespace MC.Props
open MC.Numerical MC.Numeric MC.Arrays MC.Boolean MC.Number MC.Strings
set_option linter.unusedSectionVars false

section
variable {S U R K σ : Type} {c : Calc S U R K} {op : Operation S U R σ}

/-- Two parameters that may be numbers, and something else besides. -/
structure TwoNumbers (op : Operation S U R σ) : Prop where
  values : ∃ ts us, op.values = [⟨0, some 0, .ty "number" :: ts⟩, ⟨1, some 1, .ty "number" :: us⟩]
  least : op.minParams = some 2
  most : op.maxParams = some 2
  units : op.units = []
  canBeExc : op.canBeExc = false
  convertIn : op.convertIn = true

/-- A call of an operation of two numbers. -/
theorem call_two (hop : TwoNumbers op) (hc : HasNumbers c) {x y : Opd S U R} {v w : S}
    (hx : IsNum c x v) (hy : IsNum c y w) (s : σ) :
    call c op [x, y] s = match normalised c op [(v, x.unit), (w, y.unit)] with
      | .error e => (.error (wrap c op [x, y] e), s)
      | .ok (nums, ru) =>
        let ys := setNumbers [{ x with value := .sc v }, { y with value := .sc w }] nums
        match op.ref ys s with
        | (.error e, s') => (.error (wrap c op [x, y] e), s')
        | (.ok res, s') => let r := finishResult c op ru ([v, w].findSome? c.cast) res
          (.ok r, op.after ys r s') := by
  obtain ⟨ts, us, hval⟩ := hop.values
  have hv : c.validator "number" = some (validateNumber c) := hc
  have hsc : ∀ z ∈ [x, y], IsScalar z := by
    intro z hz
    simp only [List.mem_cons, List.not_mem_nil, or_false] at hz
    rcases hz with rfl | rfl
    · exact hx.scalar
    · exact hy.scalar
  rw [call_direct (spreads_scalar hsc 0) (by simp [hop.most]) hop.canBeExc
    (by intro z hz; obtain ⟨v, hv⟩ := hsc z hz; rw [hv]; rfl)]
  have hvalid : validate c op [x, y] = .ok () := by
    unfold MC.validate
    simp only [hop.least, hop.most, hval, hop.units, Option.any_some, List.length_cons,
      List.length_nil, checkValues, checkFrom, Operation.applies, anyType, validateInput, hv,
      validateNumber, hx.asNumber, hy.asNumber, Option.isSome_some, checkUnits]
    simp
  have hconv : convertFrom c op 0 [x, y] = [{ x with value := .sc v }, { y with value := .sc w }] := by
    simp [convertFrom, convertible, hval, Operation.applies, hx.asNumber, hy.asNumber]
  obtain ⟨v0, hxv, hv1, hv2⟩ := hx
  obtain ⟨w0, hyw, hw1, hw2⟩ := hy
  have hnum : numbersFrom c op 0 [{ x with value := .sc v }, { y with value := .sc w }]
      = some [(v, x.unit), (w, y.unit)] := by
    simp [numbersFrom, Operation.canBe, hval, Operation.applies, ObjType.main, hv2, hw2]
  have hcast : castOf c op [x, y] = [v, w].findSome? c.cast := by
    simp only [castOf, hval, List.findSome?_cons, List.findSome?_nil, List.contains_cons, beq_self_eq_true,
      Bool.true_or, if_true, castFrom, Operation.applies, asNumber, hxv, hyw, hv1, hw1]
    simp
    cases c.cast v <;> cases c.cast w <;> rfl
  have hset : setNumbers [{ x with value := .sc v }, { y with value := .sc w }]
      [(v, x.unit), (w, y.unit)] = [{ x with value := .sc v }, { y with value := .sc w }] := rfl
  have hprep : prepare c op [x, y] = match normalised c op [(v, x.unit), (w, y.unit)] with
      | .error e => .error e
      | .ok (nums, ru) => .ok (setNumbers [{ x with value := .sc v }, { y with value := .sc w }] nums, ru,
          [v, w].findSome? c.cast) := by
    unfold prepare normalised
    simp only [hop.convertIn, if_true, hconv, hnum, hcast]
    cases c.normalise with
    | none => simp only [hset]
    | some f =>
      dsimp only
      split
      · rfl
      · simp only [hset]
  unfold attempt
  rw [hvalid, hprep]
  dsimp only
  cases normalised c op [(v, x.unit), (w, y.unit)] with
  | error e => rfl
  | ok q =>
    obtain ⟨nums, ru⟩ := q
    dsimp only
    rcases op.ref _ s with ⟨r | r, s'⟩ <;> rfl

variable {num? : S → Option Number} {ofNum : Number → S} {asBool : S → Option Bool}
  {ofBool : Bool → S} {ua : UnitAlgebra S U} {Q : S → Prop} {T : Texts S U R} {p : ℕ}

/-- The numbers, truth values, texts and units of a calculator are what they seem.  `Q` holds of the numbers
of some types: of those without a type, and of those to which a type is passed on by such a number. -/
structure Arithmetical (c : Calc S U R K) (num? : S → Option Number) (ofNum : Number → S)
    (asBool : S → Option Bool) (ofBool : Bool → S) (ua : UnitAlgebra S U) (Q : S → Prop)
    (T : Texts S U R) : Prop where
  numbers : HasNumbers c
  logic : HasLogic c asBool
  plain : LeavesPlain c
  isNumber : ∀ n, c.isNumber (ofNum n) = true
  notNumber : ∀ b, c.isNumber (ofBool b) = false
  read : ∀ n, num? (ofNum n) = some n
  same : ∀ w n, num? w = some n → c.number w = some w
  cast : ∀ k w n, num? w = some n → num? (c.setCast k w) = some n
  truth : ∀ b, asBool (ofBool b) = some b
  notUnit : ∀ w n, num? w = some n → ua.unit? w = none
  notUnit' : ∀ w b, asBool w = some b → ua.unit? w = none
  untyped : ∀ n, Q (ofNum n)
  strings : HasStrings c T
  textNum : T.num? = num?
  textOfNum : T.ofNum = ofNum
  textOfBool : T.ofBool = ofBool
  notUnit'' : ∀ w t, T.text? w = some t → ua.unit? w = none
  /-- Truth values are shown as Python shows them. -/
  shown : ∀ w b, asBool w = some b → T.text? w = none ∧
    T.render (.sc w) = .ok (if b then "True".toList else "False".toList)
  lower : ∀ t, Spec.Ascii t → T.lower t = t.map Char.toLower
  upper : ∀ t, Spec.Ascii t → T.upper t = t.map Char.toUpper
  typed : ∀ w k w', Q w → c.cast w = some k → Q w' → Q (c.setCast k w')

/-- The operand is the number `n`, in lowest terms, without a unit, and with a type in `Q`. -/
def PlainNumber (num? : S → Option Number) (Q : S → Prop) (x : Opd S U R) (n : Number) : Prop :=
  x.unit = none ∧ n.Canonical ∧ ∃ w, x.value = .sc w ∧ num? w = some n ∧ Q w

variable (ho : Arithmetical c num? ofNum asBool ofBool ua Q T)
include ho

theorem isNum_of {x : Opd S U R} {n : Number} (h : PlainNumber num? Q x n) :
    ∃ w, IsNum c x w ∧ num? w = some n ∧ Q w := by
  obtain ⟨_, _, w, h1, h2, h3⟩ := h
  exact ⟨w, ⟨w, h1, ho.same w n h2, ho.same w n h2⟩, h2, h3⟩

omit ho in
/-- The type passed on is that of one of the numbers. -/
theorem cast_from {ws : List S} (h : ∀ w ∈ ws, Q w) {k : K} (hk : ws.findSome? c.cast = some k) :
    ∃ w, Q w ∧ c.cast w = some k := by
  obtain ⟨w, h1, h2⟩ := List.exists_of_findSome?_eq_some hk
  exact ⟨w, h w h1, h2⟩

/-- The result that `finishResult` makes of a number. -/
theorem finish_plain (op : Operation S U R σ) {n : Number} (hn : n.Canonical)
    {ws : List S} (hq : ∀ w ∈ ws, Q w) {res : OpResult S U R} (hv : res.value = .sc (ofNum n))
    (hu : res.unit.getD none = none) : PlainNumber num? Q (finishResult c op none (ws.findSome? c.cast) res) n := by
  refine ⟨by simpa [finishResult] using hu, hn, ?_⟩
  unfold finishResult
  rw [hv]
  cases hk : ws.findSome? c.cast with
  | none => exact ⟨_, rfl, ho.read n, ho.untyped n⟩
  | some k =>
    obtain ⟨w, h1, h2⟩ := cast_from hq hk
    dsimp only
    split
    · exact ⟨_, rfl, ho.cast k _ n (ho.read n), ho.typed w k _ h1 h2 (ho.untyped n)⟩
    · exact ⟨_, rfl, ho.read n, ho.untyped n⟩

theorem result_number {x r : Opd S U R} {ws : List S} (hq : ∀ w ∈ ws, Q w) {n : Number} (hu : x.unit = none) (hn : n.Canonical)
    (h : IsResult c ofNum x r ws n) : PlainNumber num? Q r n := by
  obtain ⟨h1, h2, _⟩ := h
  refine ⟨by rw [h2, hu], hn, _, h1, ?_⟩
  split
  · rename_i k hk
    obtain ⟨w, h3, h4⟩ := cast_from hq hk
    exact ⟨ho.cast _ _ _ (ho.read n), ho.typed w k _ h3 h4 (ho.untyped n)⟩
  · exact ⟨ho.read n, ho.untyped n⟩

/-- `+` and `-`: the arithmetic of the numbers. -/
theorem arith_number (op : Operation S U R σ)
    {f : Number → Number → Except Err Number}
    (hop : NumbersOnly op) (h1 : op.minParams = some 2) (h2 : op.maxParams = some 2)
    (href : op.ref = (opArith (σ := σ) num? ofNum "" f).ref) (haf : op.after = fun _ _ s => s)
    {x y : Opd S U R} {a b n : Number} (hx : PlainNumber num? Q x a) (hy : PlainNumber num? Q y b)
    (hf : f a b = .ok n) (hn : n.Canonical) (s : σ) :
    ∃ r, call c op [x, y] s = (.ok r, s) ∧ PlainNumber num? Q r n := by
  obtain ⟨v, hv, hva, hvq⟩ := isNum_of ho hx
  obtain ⟨w, hw, hwb, hwq⟩ := isNum_of ho hy
  rw [call_numbers hop ho.numbers (.cons hv (.cons hw .nil)) (by intro m hm; rw [h1] at hm; cases hm; simp)
    (by intro m hm; rw [h2] at hm; cases hm; simp)]
  simp only [List.map_cons, List.map_nil, List.zip_cons_cons, List.zip_nil_right,
    plain_pair ho.plain hx.1 hy.1, List.zipWith_cons_cons, List.zipWith_nil_right, setNumbers]
  simp only [href, opArith, numOp, two, numberOf, hva, hwb, bind, Except.bind, pure, Except.pure, hf, liftErr, haf]
  exact ⟨_, rfl, finish_plain ho op hn (ws := [v, w]) (by simp [hvq, hwq]) rfl rfl⟩

/-- `*`, `/`, `^`: the arithmetic of the numbers. -/
theorem two_number (op : Operation S U R σ) (hop : TwoNumbers op)
    {g : Opd S U R → Opd S U R → Except Raise (OpResult S U R)} (href : op.ref = two g)
    (haf : op.after = fun _ _ s => s) {x y : Opd S U R} {a b n : Number} (hx : PlainNumber num? Q x a)
    (hy : PlainNumber num? Q y b)
    (hg : ∀ x y : Opd S U R, PlainNumber num? Q x a → PlainNumber num? Q y b → g x y = .ok { value := .sc (ofNum n) })
    (hn : n.Canonical) (s : σ) :
    ∃ r, call c op [x, y] s = (.ok r, s) ∧ PlainNumber num? Q r n := by
  obtain ⟨v, hv, hva, hvq⟩ := isNum_of ho hx
  obtain ⟨w, hw, hwb, hwq⟩ := isNum_of ho hy
  rw [call_two hop ho.numbers hv hw]
  simp only [plain_pair ho.plain hx.1 hy.1, setNumbers]
  simp only [href, two, haf]
  rw [hg _ _ ⟨rfl, hx.2.1, v, rfl, hva, hvq⟩ ⟨rfl, hy.2.1, w, rfl, hwb, hwq⟩]
  exact ⟨_, rfl, finish_plain ho op hn (ws := [v, w]) (by simp [hvq, hwq]) rfl rfl⟩

theorem unitValue_number {x : Opd S U R} {a : Number} (hx : PlainNumber num? Q x a) : unitValue ua x = none := by
  obtain ⟨_, _, w, h1, h2, _⟩ := hx
  rw [unitValue, h1]
  exact ho.notUnit w a h2

theorem quantity_number {x : Opd S U R} {a : Number} (hx : PlainNumber num? Q x a) :
    quantityOf num? ua x = .ok (a, none) := by
  rw [quantityOf, unitValue_number ho hx]
  obtain ⟨hu, _, w, h1, h2, _⟩ := hx
  simp [numberOf, h1, h2, hu, bind, Except.bind, pure, Except.pure]

theorem multiply_number {x y : Opd S U R} {a b n : Number} (hx : PlainNumber num? Q x a) (hy : PlainNumber num? Q y b)
    (h : Number.mul p a b = .ok n) : multiply p num? ofNum ua x y = .ok { value := .sc (ofNum n) } := by
  rw [multiply, unitValue_number ho hx, quantity_number ho hx, quantity_number ho hy]
  simp [h, liftErr, bind, Except.bind, pure, Except.pure]

theorem divide_number {x y : Opd S U R} {a b n : Number} (hx : PlainNumber num? Q x a) (hy : PlainNumber num? Q y b)
    (h : Number.div p a b = .ok n) : divide p num? ofNum ua x y = .ok { value := .sc (ofNum n) } := by
  rw [divide, unitValue_number ho hx, quantity_number ho hx, quantity_number ho hy]
  simp [h, liftErr, bind, Except.bind, pure, Except.pure]

theorem power_number {powF : ℚ → ℚ → Except Err ℚ} {x y : Opd S U R} {a b n : Number}
    (hx : PlainNumber num? Q x a) (hy : PlainNumber num? Q y b)
    (h : Number.pow p powF a b = .ok n) : power p num? ofNum ua powF x y = .ok { value := .sc (ofNum n) } := by
  rw [power, unitValue_number ho hx]
  obtain ⟨hu, _, w, h1, h2, _⟩ := hx
  obtain ⟨hu', _, w', h1', h2', _⟩ := hy
  simp [numberOf, h1, h2, h1', h2', hu, hu', h, liftErr, bind, Except.bind, pure, Except.pure]

end
end MC.Props
