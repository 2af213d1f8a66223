import Verif.Model.Floats
import Verif.Props.Numerical2

/-! # C86: trigonometric and special functions -/

namespace MC.Props
open MC.Strings MC.Numerical MC.Numeric MC.Arrays MC.Boolean MC.Number MC.Spec MC.Floats MC.Functions
open MC.Parse (Text)
set_option linter.unusedSectionVars false

section
variable {S U R K σ F : Type} {c : Calc S U R K} {num? : S → Option Number} {ofNum : Number → S}
  {p : ℕ} {L : Lib F}

/-- The number `n` shown in the type of the first of the given numbers that has one. -/
def shownAs (c : Calc S U R K) (ofNum : Number → S) (ws : List S) (n : Number) : S :=
  match ws.findSome? c.cast with
  | some k => c.setCast k (ofNum n)
  | none => ofNum n

theorem numbersOf_set {xs : List (Opd S U R)} {ws : List S} {vs : List Number}
    (hv : List.Forall₂ (fun w v => num? w = some v) ws vs) (hl : xs.length = ws.length) (us : List (Option U))
    (hu : us.length = ws.length) :
    numbersOf num? (setNumbers (List.zipWith (fun (x : Opd S U R) (w : S) => { x with value := .sc w }) xs ws)
      (ws.zip us)) = .ok vs := by
  induction hv generalizing xs us with
  | nil => cases xs with | nil => rfl | cons x xs => simp at hl
  | cons h hs ih =>
    cases xs with
    | nil => simp at hl
    | cons x xs =>
      cases us with
      | nil => simp at hu
      | cons u us =>
        simp only [List.zipWith_cons_cons, List.zip_cons_cons, setNumbers, numbersOf, numberOf, h]
        rw [ih (by simpa using hl) us (by simpa using hu)]

theorem float_call (hc : HasNumbers c) (hn : ∀ n, c.isNumber (ofNum n) = true) {name lib : Text} {o : Option ℕ}
    {ints : Bool} {xs : List (Opd S U R)} {ws : List S} {vs : List Number} (h : List.Forall₂ (IsNum c) xs ws)
    (hv : List.Forall₂ (fun w v => num? w = some v) ws vs) {us : List (Option U)} {ru : Option U}
    (hu : us.length = ws.length)
    (hnorm : normalised c (opFloat (σ := σ) (R := R) p num? ofNum L name xs.length lib o ints) (ws.zip (xs.map (·.unit)))
      = .ok (ws.zip us, ru)) (s : σ) :
    (∀ n, answer p L lib o ints vs = .ok n →
      call c (opFloat p num? ofNum L name xs.length lib o ints) xs s
        = (.ok ⟨.sc (shownAs c ofNum ws n), ru, none, none⟩, s)) ∧
    (∀ e, answer p L lib o ints vs = .error e →
      ∃ e', call c (opFloat p num? ofNum L name xs.length lib o ints) xs s = (.error e', s)) := by
  rw [call_numbers (op := opFloat p num? ofNum L name xs.length lib o ints) ⟨rfl, rfl, rfl, rfl⟩ hc h
    (by intro m hm; cases hm; simp) (by intro m hm; cases hm; simp), hnorm]
  have hl := h.length_eq
  have key := numbersOf_set (xs := xs) hv hl us hu
  constructor
  · intro n ha
    simp only [opFloat, numOp, floatRef, key, ha]
    congr 2
    unfold finishResult shownAs
    cases ws.findSome? c.cast <;> simp [hn]
  · intro e ha
    simp only [opFloat, numOp, floatRef, key, ha]
    exact ⟨_, rfl⟩

theorem float_arity {name lib : Text} {o : Option ℕ} {ints : Bool} {arity : ℕ} {xs : List (Opd S U R)} {ws : List S}
    (h : List.Forall₂ (IsNum c) xs ws) (hl : xs.length ≠ arity) (s : σ) :
    ∃ e, call c (opFloat p num? ofNum L name arity lib o ints) xs s = (.error e, s) := by
  set op : Operation S U R σ := opFloat p num? ofNum L name arity lib o ints with hop
  have hsc : ∀ x ∈ xs, IsScalar x := by
    intro x hx
    obtain ⟨i, hi, rfl⟩ := List.mem_iff_getElem.mp hx
    exact (List.forall₂_iff_get.mp h |>.2 i hi (h.length_eq ▸ hi)).scalar
  have hmust : op.mustBe 0 "array" none = false := by
    simp [Operation.mustBe, Operation.onlyType, Operation.applies, ObjType.main, hop, opFloat, numOp]
  rw [call_direct (spreads_scalar hsc 0) (by simp [hmust]) rfl
    (by intro x hx; obtain ⟨v, hv⟩ := hsc x hx; rw [hv]; rfl)]
  have hval : ∃ e, validate c op xs = .error e := by
    unfold validate
    rcases Nat.lt_or_gt_of_ne hl with h1 | h1
    · rw [if_pos (by simpa [hop, opFloat, numOp] using h1)]
      exact ⟨_, rfl⟩
    · rw [if_neg (by simpa [hop, opFloat, numOp] using h1.le), if_pos (by simpa [hop, opFloat, numOp] using h1)]
      exact ⟨_, rfl⟩
  obtain ⟨e, he⟩ := hval
  unfold attempt
  rw [he]
  exact ⟨_, rfl⟩

theorem reads_split {xs : List (Opd S U R)} {vs : List Number} (h : List.Forall₂ (Reads c num?) xs vs) :
    ∃ ws, List.Forall₂ (IsNum c) xs ws ∧ List.Forall₂ (fun w v => num? w = some v) ws vs := by
  induction h with
  | nil => exact ⟨[], .nil, .nil⟩
  | cons h _ ih =>
    obtain ⟨w, h1, h2⟩ := h
    obtain ⟨ws, h3, h4⟩ := ih
    exact ⟨w :: ws, .cons h1 h3, .cons h2 h4⟩

/-- The library's function `lib` answers the number `q`, as its output `o`, for the floats nearest to `vs`. -/
def LibAnswers (p : ℕ) (L : Lib F) (lib : Text) (o : ℕ) (vs : List Number) (q : ℚ) : Prop :=
  ∃ outs x, L.fn lib (vs.map (fun v => .float (L.ofDec (Number.toDecimal p v)))) = .ok outs ∧
    outs[o]? = some x ∧ L.toDec x = some q

theorem answer_lib {lib : Text} {o : Option ℕ} {vs : List Number} {q : ℚ} (h : LibAnswers p L lib (o.getD 0) vs q)
    (hq : (q.den : ℤ) < 10 ^ p) : answer p L lib o false vs = .ok ⟨q.num, q.den⟩ := by
  obtain ⟨outs, x, h1, h2, h3⟩ := h
  have : (argOf p L false) = (fun v => .float (L.ofDec (Number.toDecimal p v))) := rfl
  simp only [answer, this, h1, h2, ofFloat, h3, mk'_lit q hq, liftErr]

/-- The operand is the number `q` without unit, shown in the type of the first of the operands `xs` that has
one. -/
def IsPlain (c : Calc S U R K) (ofNum : Number → S) (xs : List (Opd S U R)) (r : Opd S U R) (q : ℚ) : Prop :=
  r.unit = none ∧ r.ref = none ∧ ∃ ws n, List.Forall₂ (IsNum c) xs ws ∧ r.value = .sc (shownAs c ofNum ws n) ∧
    n.val = q

theorem float_plain (hc : HasNumbers c) (hn : ∀ n, c.isNumber (ofNum n) = true) (hl : LeavesPlain c) {name lib : Text}
    {o : Option ℕ} {ints : Bool} {arity : ℕ} {xs : List (Opd S U R)} {vs : List Number}
    (h : List.Forall₂ (Reads c num?) xs vs) (hu : ∀ x ∈ xs, x.unit = none) (s : σ) :
    (∀ q : ℚ, xs.length = arity → answer p L lib o ints vs = .ok ⟨q.num, q.den⟩ →
      ∃ r, call c (opFloat p num? ofNum L name arity lib o ints) xs s = (.ok r, s) ∧ IsPlain c ofNum xs r q) ∧
    (∀ e, answer p L lib o ints vs = .error e →
      ∃ e', call c (opFloat p num? ofNum L name arity lib o ints) xs s = (.error e', s)) ∧
    (xs.length ≠ arity → ∃ e, call c (opFloat p num? ofNum L name arity lib o ints) xs s = (.error e, s)) := by
  obtain ⟨ws, h1, h2⟩ := reads_split h
  have hlen := h1.length_eq
  have hnorm : ∀ op : Operation S U R σ, normalised c op (ws.zip (xs.map (·.unit))) = .ok (ws.zip (xs.map (·.unit)), none) := by
    intro op
    refine normalised_plain hl ?_
    intro q hq
    have := (List.of_mem_zip hq).2
    rw [List.mem_map] at this
    obtain ⟨x, hx, h⟩ := this
    rw [← h]
    exact hu x hx
  refine ⟨?_, ?_, fun h => float_arity h1 h s⟩
  · rintro q rfl ha
    have := (float_call hc hn h1 h2 (name := name) (L := L) (p := p) (by simpa using hlen) (hnorm _) s).1 _ ha
    exact ⟨_, this, rfl, rfl, ws, _, h1, rfl, by rw [Number.val]; exact Rat.num_div_den q⟩
  · intro e ha
    by_cases harity : xs.length = arity
    · subst harity
      exact (float_call hc hn h1 h2 (name := name) (L := L) (p := p) (by simpa using hlen) (hnorm _) s).2 _ ha
    · exact float_arity h1 harity s

/-- **C86**: a trigonometric function of a number without unit is what the mathematical library answers for the
float of this number, exactly; it needs one parameter. -/
theorem C86_trig (hc : HasNumbers c) (hn : ∀ n, c.isNumber (ofNum n) = true) (hl : LeavesPlain c) {name : Text}
    (_ : name ∈ trigNames) {xs : List (Opd S U R)} {vs : List Number} (h : List.Forall₂ (Reads c num?) xs vs)
    (hu : ∀ x ∈ xs, x.unit = none) (s : σ) :
    (∀ q : ℚ, xs.length = 1 → LibAnswers p L name 0 vs q → (q.den : ℤ) < 10 ^ p →
      ∃ r, call c (opTrig p num? ofNum L name) xs s = (.ok r, s) ∧ IsPlain c ofNum xs r q) ∧
    (xs.length ≠ 1 → ∃ e, call c (opTrig p num? ofNum L name) xs s = (.error e, s)) :=
  have h1 := float_plain (p := p) (L := L) (name := name) (lib := name) (o := none) (ints := false) (arity := 1)
    hc hn hl h hu s
  ⟨fun q hlen ha hq => h1.1 q hlen (answer_lib ha hq), h1.2.2⟩

/-- **C86** for special functions of numbers without unit, except those of `C86_integers_partial`: the answer is
what the library's function gives for the floats of the numbers, in their order, exactly; for functions with several outputs
the one that the name tells.  A function needs exactly its parameters.
Missing: the functions that are given whole numbers only, see `C86_integers_violation`. -/
theorem C86_special_partial (hc : HasNumbers c) (hn : ∀ n, c.isNumber (ofNum n) = true) (hl : LeavesPlain c) {e : Entry}
    (_ : e ∈ specialFuncs) (hi : e.ints = false) {xs : List (Opd S U R)} {vs : List Number}
    (h : List.Forall₂ (Reads c num?) xs vs) (hu : ∀ x ∈ xs, x.unit = none) (s : σ) :
    (∀ q : ℚ, xs.length = e.params → LibAnswers p L e.lib (e.out.getD 0) vs q → (q.den : ℤ) < 10 ^ p →
      ∃ r, call c (Entry.op p num? ofNum L e) xs s = (.ok r, s) ∧ IsPlain c ofNum xs r q) ∧
    (xs.length ≠ e.params → ∃ e', call c (Entry.op p num? ofNum L e) xs s = (.error e', s)) := by
  have h1 := float_plain (p := p) (L := L) (name := e.name) (lib := e.lib) (o := e.out) (ints := e.ints) (arity := e.params)
    hc hn hl h hu s
  refine ⟨fun q hlen ha hq => h1.1 q hlen ?_, h1.2.2⟩
  rw [hi]
  exact answer_lib ha hq

/-- **C86**: when the library raises an error, or answers with an infinity or NaN, so does every function: it
reports an error and makes no number up. -/
theorem C86_failure (hc : HasNumbers c) (hn : ∀ n, c.isNumber (ofNum n) = true) (hl : LeavesPlain c)
    {name lib : Text} {arity : ℕ} {o : Option ℕ} {ints : Bool}
    {xs : List (Opd S U R)} {vs : List Number} (h : List.Forall₂ (Reads c num?) xs vs) (hu : ∀ x ∈ xs, x.unit = none)
    (hf : ∀ outs, L.fn lib (vs.map (argOf p L ints)) = .ok outs → ∀ x, outs[o.getD 0]? = some x → L.toDec x = none) (s : σ) :
    ∃ e, call c (opFloat p num? ofNum L name arity lib o ints) xs s = (.error e, s) := by
  have : ∃ e, answer p L lib o ints vs = .error e := by
    unfold answer
    cases h1 : L.fn lib (vs.map (argOf p L ints)) with
    | error e => exact ⟨e, rfl⟩
    | ok outs =>
      dsimp only
      cases h2 : outs[o.getD 0]? with
      | none => exact ⟨_, rfl⟩
      | some x => simp only [ofFloat, hf outs h1 x h2]; exact ⟨_, rfl⟩
  obtain ⟨e, he⟩ := this
  exact (float_plain hc hn hl h hu s).2.1 e he

/-- **C86**, the functions that are given whole numbers: which ones. -/
theorem C86_integers : (specialFuncs.filter (·.ints)).map (fun e => (e.name, e.params))
    = [("sp_kn".toList, 2), ("sp_bdtrc".toList, 3), ("sp_bdtri".toList, 3), ("sp_nbdtri".toList, 3)] := by
  decide +kernel

/-- **C86** for the functions that are given whole numbers, if the arguments are whole numbers: the answer is what the
library's function gives for them.
Missing: arguments that are not whole numbers, see `C86_integers_violation`. -/
theorem C86_integers_partial (hc : HasNumbers c) (hn : ∀ n, c.isNumber (ofNum n) = true) (hl : LeavesPlain c) {e : Entry}
    (_ : e ∈ specialFuncs) (hi : e.ints = true) {xs : List (Opd S U R)} {zs : List ℤ}
    (h : List.Forall₂ (Reads c num?) xs (zs.map (fun z => ⟨z, 1⟩))) (hz : ∀ z ∈ zs, |z| < 10 ^ p)
    (hu : ∀ x ∈ xs, x.unit = none) (s : σ) {outs : List F} {x : F} {q : ℚ} (hlen : xs.length = e.params)
    (hf : L.fn e.lib (zs.map .int) = .ok outs) (hx : outs[e.out.getD 0]? = some x) (hq : L.toDec x = some q)
    (hd : (q.den : ℤ) < 10 ^ p) :
    ∃ r, call c (Entry.op p num? ofNum L e) xs s = (.ok r, s) ∧ IsPlain c ofNum xs r q := by
  refine (float_plain (p := p) (L := L) (name := e.name) (lib := e.lib) (o := e.out) (ints := e.ints) (arity := e.params)
    hc hn hl h hu s).1 q hlen ?_
  have : (zs.map (fun z => (⟨z, 1⟩ : Number))).map (argOf p L e.ints) = zs.map .int := by
    rw [List.map_map]
    refine List.map_congr_left fun z hz' => ?_
    simp only [Function.comp, argOf, hi, if_true, Number.toInt, Number.toDecimal]
    rw [show ((z : ℚ) / ((1 : ℤ) : ℚ)) = (z : ℚ) by simp, rnd_int (hz z hz'), truncQ_intCast]
  simp only [answer, this, hf, hx, ofFloat, hq, mk'_lit q hd, liftErr]

/-- **C86**, violated: the functions that are given whole numbers cut off the fractions of all their arguments, also
of those that are no orders or counts.  So two lists of arguments with the same whole parts get the same answer, whatever
the library would answer for them. -/
theorem C86_integers_violation {e : Entry} (hi : e.ints = true) {vs vs' : List Number}
    (h : vs.map (Number.toInt p) = vs'.map (Number.toInt p)) :
    answer p L e.lib e.out e.ints vs = answer p L e.lib e.out e.ints vs' := by
  have key : ∀ vs : List Number, vs.map (argOf p L e.ints) = (vs.map (Number.toInt p)).map .int := by
    intro vs
    rw [List.map_map]
    refine List.map_congr_left fun v _ => ?_
    simp only [Function.comp, argOf, hi, if_true]
  unfold answer
  rw [key, key, h]

/-- **C86**, violated: a trigonometric function takes no notice of the unit of an angle, and gives its answer this
unit.  `sin(180 degrees)` is the sine of 180 radians, in degrees.  The hypothesis on the normaliser is
`C86_one_input`. -/
theorem C86_angle_violation (hc : HasNumbers c) (hn : ∀ n, c.isNumber (ofNum n) = true)
    (hone : ∀ f, c.normalise = some f → ∀ w u, f [(w, some u)] false false = .ok ([(w, some u)], some u))
    (hs : c.normalise ≠ none) {name : Text} (_ : name ∈ trigNames) {x : Opd S U R} {v : Number} (h : Reads c num? x v)
    {u : U} (hu : x.unit = some u) (s : σ) {q : ℚ} (ha : LibAnswers p L name 0 [v] q) (hq : (q.den : ℤ) < 10 ^ p) :
    ∃ r, call c (opTrig p num? ofNum L name) [x] s = (.ok r, s) ∧
      IsPlain c ofNum [x] { r with unit := none } q ∧ r.unit = some u := by
  obtain ⟨w, h1, h2⟩ := h
  have hnorm : ∀ op : Operation S U R σ, op.unitsNormalise = true → op.unitsMulti = false → op.unitsRelative = false →
      normalised c op ([w].zip (([x] : List (Opd S U R)).map (·.unit))) = .ok ([w].zip [some u], some u) := by
    intro op e1 e2 e3
    simp only [List.map_cons, List.map_nil, hu, List.zip_cons_cons, List.zip_nil_left]
    unfold normalised
    cases hf : c.normalise with
    | none => exact absurd hf hs
    | some f => simp only [e1, e2, e3, if_true]; exact hone f hf w u
  have := (float_call (p := p) (L := L) (name := name) (lib := name) (o := none) (ints := false) hc hn
    (.cons h1 .nil) (.cons h2 .nil) (us := [some u]) (ru := some u) rfl (hnorm _ rfl rfl rfl) s).1 _ (answer_lib ha hq)
  exact ⟨_, this, ⟨rfl, rfl, [w], _, .cons h1 .nil, rfl, by rw [Number.val]; exact Rat.num_div_den q⟩, rfl⟩

end

section
open MC.Unit
variable {U D K : Type} [DecidableEq U] [DecidableEq D] [Field K] {pw : K → ℚ → K} {N : Norm U D K}

/-- What `C86_angle_violation` asks of the normaliser: one input is left alone. -/
theorem C86_one_input (n : ℕ) (relative : Bool) (v : K) (u : PL U) :
    normaliseInputs pw N n false relative [(v, some u)] = some (.ok ([(v, some u)], some u)) := by
  simp [normaliseInputs]
end

/-! ## Concrete cases -/

/-- A library in which floats are rational numbers and every function adds its arguments. -/
def sumLib : Lib ℚ where
  ofDec q := q
  toDec q := some q
  fn _ as := .ok [(as.map (fun | .float x => x | .int n => (n : ℚ))).sum, 0]

/-- `sin(1/2)`, here with a library that answers `1/2`. -/
example : ∃ r, call arrCalc (opTrig (σ := ℕ) 30 AS.num? (fun n => .n n none) sumLib "sin".toList) [fracV 1 2 none] 0 = (.ok r, 0) ∧
    IsPlain arrCalc (fun n => .n n none) [fracV 1 2 none] r (1 / 2) :=
  (C86_trig (p := 30) (σ := ℕ) (L := sumLib) (ofNum := fun n => .n n none) (num? := AS.num?) arrCalc_numbers (fun _ => rfl)
    arrCalc_plain (by decide) (vs := [⟨1, 2⟩]) (.cons ⟨_, ⟨_, rfl, rfl, rfl⟩, rfl⟩ .nil) (by simp [fracV]) 0).1 (1 / 2) rfl
    ⟨_, _, rfl, rfl, by decide +kernel⟩ (by decide +kernel)

/-- `sp_yn(2, 1/2)`. -/
example : ∃ r, call arrCalc (Entry.op (σ := ℕ) 30 AS.num? (fun n => .n n none) sumLib ⟨"sp_yn".toList, 2, "yn".toList, none, false⟩)
      [numV 2, fracV 1 2 none] 0 = (.ok r, 0) ∧
    IsPlain arrCalc (fun n => .n n none) [numV 2, fracV 1 2 none] r (5 / 2) :=
  (C86_special_partial (p := 30) (σ := ℕ) (L := sumLib) (ofNum := fun n => .n n none) (num? := AS.num?) arrCalc_numbers (fun _ => rfl)
    arrCalc_plain (e := ⟨"sp_yn".toList, 2, "yn".toList, none, false⟩) (by decide +kernel) rfl (vs := [⟨2, 1⟩, ⟨1, 2⟩])
    (.cons ⟨_, isNum_numV 2, rfl⟩ (.cons ⟨_, ⟨_, rfl, rfl, rfl⟩, rfl⟩ .nil)) (by simp [fracV, numV]) 0).1 (5 / 2) rfl
    ⟨_, _, rfl, rfl, by decide +kernel⟩ (by decide +kernel)

/-- `sp_kn(1, 1/2)` is answered as `sp_kn(1, 0)`. -/
example : ∃ e ∈ specialFuncs, e.name = "sp_kn".toList ∧ ∀ L : Lib ℚ,
    answer 30 L e.lib e.out e.ints [⟨1, 1⟩, ⟨1, 2⟩] = answer 30 L e.lib e.out e.ints [⟨1, 1⟩, ⟨0, 1⟩] :=
  ⟨⟨"sp_kn".toList, 2, "kn".toList, none, true⟩, by decide +kernel, rfl, fun _ =>
    C86_integers_violation rfl (by decide +kernel)⟩

end MC.Props
