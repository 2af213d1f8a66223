import Verif.Props.Numerical2

/-! # C63, C64: what an error of an operation says, and the number type of a result -/

namespace MC.Spec

/-- How a failure inside an operation is reported: an error that already names an operation as it
is, another error of the calculator with the name and the inputs before it, an internal error of
Python with the name and the inputs alone. -/
inductive Reported (name : String) (args : List String) : Raise → Raise → Prop
  | named (m) : Reported name args (.calc m true) (.calc m true)
  | calculator (m) : Reported name args (.calc m false) (.calc ("Could not execute " ++ name
      ++ " with parameters: " ++ (", ".intercalate args ++ " - " ++ m)) true)
  | execution (x : ExecErr) : Reported name args (.exec x) (.calc ("Could not execute " ++ name
      ++ " with parameters: " ++ (", ".intercalate args ++ " - " ++ x.msg)) true)
  | internal (m) : Reported name args (.py m) (.calc ("Could not execute " ++ name
      ++ " with parameters: " ++ ", ".intercalate args) false)

/-- The inputs are passed to the implementation together: none of them is an array the operation
is applied to element by element, or an error. -/
structure Together {S U R σ : Type} (op : Operation S U R σ) (xs : List (Opd S U R)) : Prop where
  whole : ∀ i x, xs[i]? = some x → ¬ ∃ l, Spreads op i x l
  single : op.maxParams = some 1 → xs.length ≤ 1
  noErrors : op.canBeExc = false
  values : ∀ x ∈ xs, ∀ e, x.value ≠ .exc e

end MC.Spec

namespace MC.Props
open MC.Numerical MC.Numeric MC.Arrays MC.Boolean MC.Number MC.Spec
set_option linter.unusedSectionVars false

section
variable {S U R K σ : Type} {c : Calc S U R K} {op : Operation S U R σ}

theorem call_together {xs : List (Opd S U R)} (h : Together op xs) (s : σ) :
    call c op xs s = match attempt c op xs s with
      | (.ok r, s') => (.ok r, s')
      | (.error e, s') => (.error (wrap c op xs e), s') := by
  refine call_direct ?_ ?_ h.noErrors ?_ s
  · rw [List.eq_nil_iff_forall_not_mem]
    intro l hl
    obtain ⟨j, x, hj, hs⟩ := (mem_spreads op xs 0 l).mp hl
    rw [Nat.zero_add] at hs
    exact h.whole j x hj ⟨l, (spread_iff op j x l).mp hs⟩
  · rintro ⟨h1, -, h2⟩
    have := h.single h1
    omega
  · intro x hx
    have := h.values x hx
    cases hv : x.value with
    | exc e => exact absurd hv (this e)
    | sc v => rfl
    | arr l => rfl

theorem showAll_eq {xs : List (Opd S U R)} {ts : List String}
    (h : List.Forall₂ (fun x t => c.toString x = .ok t) xs ts) : showAll c xs = .ok ts := by
  induction h with
  | nil => rfl
  | cons h _ ih => simp [showAll, h, ih]

theorem wrap_reported {xs : List (Opd S U R)} {ts : List String}
    (h : List.Forall₂ (fun x t => c.toString x = .ok t) xs ts) (e : Raise) :
    Reported op.name ts e (wrap c op xs e) := by
  unfold wrap wrap.named
  cases e with
  | exec x => rw [showAll_eq h]; exact .execution x
  | «calc» m w =>
    cases w with
    | true => exact .named m
    | false => dsimp only; rw [showAll_eq h]; exact .calculator m
  | py m => rw [showAll_eq h]; exact .internal m

/-- **C63**: inputs that are not allowed, units that cannot be brought together, and a failure of
the implementation are all reported with the name of the operation and the inputs as written, once.
-/
theorem C63_reported {xs : List (Opd S U R)} (h : Together op xs) {ts : List String}
    (ht : List.Forall₂ (fun x t => c.toString x = .ok t) xs ts) (s : σ) :
    (∀ e, validate c op xs = .error e →
      ∃ e', call c op xs s = (.error e', s) ∧ Reported op.name ts e e') ∧
    (∀ e, validate c op xs = .ok () → prepare c op xs = .error e →
      ∃ e', call c op xs s = (.error e', s) ∧ Reported op.name ts e e') ∧
    (∀ ys ru k e s', validate c op xs = .ok () → prepare c op xs = .ok (ys, ru, k) →
      op.ref ys s = (.error e, s') →
      ∃ e', call c op xs s = (.error e', s') ∧ Reported op.name ts e e') := by
  refine ⟨?_, ?_, ?_⟩
  · intro e he
    rw [call_together h]
    simp only [attempt, he]
    exact ⟨_, rfl, wrap_reported ht e⟩
  · intro e hv he
    rw [call_together h]
    simp only [attempt, hv, he]
    exact ⟨_, rfl, wrap_reported ht e⟩
  · intro ys ru k e s' hv hp he
    rw [call_together h]
    simp only [attempt, hv, hp, he]
    exact ⟨_, rfl, wrap_reported ht e⟩

/-- **C63**: no internal error of Python leaves such a call, and every error either names this
operation or was named by one it called. -/
theorem C63_always_named {xs : List (Opd S U R)} (h : Together op xs) {ts : List String}
    (ht : List.Forall₂ (fun x t => c.toString x = .ok t) xs ts) {s s' : σ} {e : Raise}
    (he : call c op xs s = (.error e, s')) :
    ∃ m w, e = .calc m w ∧ (w = true ∨
      m = "Could not execute " ++ op.name ++ " with parameters: " ++ ", ".intercalate ts) := by
  rw [call_together h] at he
  rcases ha : attempt c op xs s with ⟨r | r, s1⟩
  · rw [ha] at he
    have hr := wrap_reported (op := op) ht r
    simp only [Prod.mk.injEq, Except.error.injEq] at he
    rw [he.1] at hr
    cases hr with
    | named m => exact ⟨_, _, rfl, .inl rfl⟩
    | calculator m => exact ⟨_, _, rfl, .inl rfl⟩
    | execution x => exact ⟨_, _, rfl, .inl rfl⟩
    | internal m => exact ⟨_, _, rfl, .inr rfl⟩
  · rw [ha] at he; exact absurd he (by simp)

/-- **C63**: an operation that passes on the error of another operation it calls reports that
error unchanged, if the inner one was raised by the calculator.  (An internal error of Python is
reported twice: `C63_twice_violation`.) -/
theorem C63_nested_partial {inner : Operation S U R σ} {xs zs ys : List (Opd S U R)} {ru : Option U}
    {k : Option K} {s s' : σ} {m : String} (h : Together op xs) (hv : validate c op xs = .ok ())
    (hp : prepare c op xs = .ok (ys, ru, k))
    (hi : call c inner zs s = (.error (.calc m true), s'))
    (hpass : ∀ e, call c inner zs s = (.error e, s') → op.ref ys s = (.error e, s')) :
    call c op xs s = (.error (.calc m true), s') := by
  rw [call_together h]
  simp only [attempt, hv, hp, hpass _ hi, wrap]

end

section
variable {S U R K σ : Type} {c : Calc S U R K} {num? : S → Option Number} {ofNum : Number → S} {p : ℕ}

/-- **C63**, a case of the above: when `/` fails with an error of the calculator, `\` fails with
the same error, which names `/` only. -/
theorem C63_integer_division (hc : HasNumbers c) {divide : Operation S U R σ} {x y : Opd S U R}
    {v w : S} (hx : IsNum c x v) (hy : IsNum c y w) (hl : LeavesPlain c) (hux : x.unit = none)
    (huy : y.unit = none) {s s' : σ} {m : String}
    (h : call c divide [⟨.sc v, none, none, none⟩, ⟨.sc w, none, none, none⟩] s
      = (.error (.calc m true), s')) :
    call c (opIntDivide p num? ofNum c divide) [x, y] s = (.error (.calc m true), s') := by
  rw [call_numbers (op := opIntDivide p num? ofNum c divide) ⟨rfl, rfl, rfl, rfl⟩ hc
    (.cons hx (.cons hy .nil)) (by intro m hm; cases hm; simp) (by intro m hm; cases hm; simp)]
  simp only [List.map_cons, List.map_nil, List.zip_cons_cons, List.zip_nil_right,
    plain_pair hl hux huy, List.zipWith_cons_cons, List.zipWith_nil_right, setNumbers]
  simp only [opIntDivide, numOp, h, wrap]

end

/-! ## The number type of a result -/

section
variable {S U R K σ : Type} {c : Calc S U R K} {op : Operation S U R σ}

/-- The numbers `ws` have their first number type, `k`, at some place; `none` if there is none. -/
def FirstType (c : Calc S U R K) (ws : List S) (k : Option K) : Prop :=
  match k with
  | some k => ∃ before w after, ws = before ++ w :: after ∧ (∀ v ∈ before, c.cast v = none) ∧
      c.cast w = some k
  | none => ∀ v ∈ ws, c.cast v = none

theorem firstType_findSome (ws : List S) : FirstType c ws (ws.findSome? c.cast) := by
  unfold FirstType
  cases h : ws.findSome? c.cast with
  | none => simpa [List.findSome?_eq_none_iff] using h
  | some k =>
    obtain ⟨l1, a, l2, h1, h2, h3⟩ := List.findSome?_eq_some_iff.mp h
    exact ⟨l1, a, l2, h1, h3, h2⟩

/-- **C64**: the number an operation on numbers returns is shown in the number type of the first
input that has one (so `0x10 + 5` is hexadecimal), and without one, in the type the implementation
gave it; unless the operation is declared to choose the type itself. -/
theorem C64_result_type (hop : NumbersOnly op) (hc : HasNumbers c) {xs : List (Opd S U R)}
    {ws : List S} (h : List.Forall₂ (IsNum c) xs ws)
    (hmin : ∀ m, op.minParams = some m → m ≤ xs.length)
    (hmax : ∀ m, op.maxParams = some m → xs.length ≤ m) {s s' : σ} {r : Opd S U R}
    (hr : call c op xs s = (.ok r, s')) :
    ∃ ys res s1, op.ref ys s = (.ok res, s1) ∧ ∃ k, FirstType c ws k ∧
      ∀ v, res.value = .sc v → c.isNumber v = true →
        r.value = .sc (match k with
          | some k => if op.convertOut then c.setCast k v else v
          | none => v) := by
  rw [call_numbers hop hc h hmin hmax] at hr
  cases hn : normalised c op (ws.zip (xs.map (·.unit))) with
  | error e => rw [hn] at hr; exact absurd hr (by simp)
  | ok q =>
    obtain ⟨nums, ru⟩ := q
    rw [hn] at hr
    dsimp only at hr
    generalize hys : setNumbers (List.zipWith (fun (x : Opd S U R) (w : S) => { x with value := .sc w }) xs ws)
      nums = ys at hr
    rcases hres : op.ref ys s with ⟨res | res, s1⟩
    · rw [hres] at hr; exact absurd hr (by simp)
    · rw [hres] at hr
      refine ⟨ys, res, s1, hres, _, firstType_findSome ws, ?_⟩
      intro v hv hnum
      cases hr
      unfold finishResult
      rw [hv]
      cases ws.findSome? c.cast with
      | none => rfl
      | some k => cases hco : op.convertOut <;> simp [hnum]

/-- **C64**: an operation declared not to convert its inputs (given no array) keeps the number type
its implementation chose. -/
theorem C64_own_type {xs : List (Opd S U R)} (h : Together op xs) (hci : op.convertIn = false)
    (hsc : ∀ x ∈ xs, Strings.IsScalar x) {s s' : σ} {r : Opd S U R}
    (hr : call c op xs s = (.ok r, s')) :
    ∃ ys res s1, op.ref ys s = (.ok res, s1) ∧ ∀ v, res.value = .sc v → r.value = .sc v := by
  rw [call_together h] at hr
  unfold attempt at hr
  cases hv : validate c op xs with
  | error e => rw [hv] at hr; exact absurd hr (by simp)
  | ok u =>
    rw [hv] at hr
    dsimp only at hr
    cases hp : prepare c op xs with
    | error e => rw [hp] at hr; exact absurd hr (by simp)
    | ok q =>
      obtain ⟨ys, ru, k⟩ := q
      have hk : k = none := by
        unfold prepare at hp
        simp only [hci, Bool.false_eq_true, if_false] at hp
        cases hnum : numbersFrom c op 0 xs with
        | none =>
          rw [hnum] at hp
          dsimp only at hp
          rw [Strings.normaliseArrays_scalar hsc] at hp
          cases hp; rfl
        | some nums =>
          rw [hnum] at hp
          dsimp only at hp
          cases hn : c.normalise with
          | none => rw [hn] at hp; cases hp; rfl
          | some f =>
            rw [hn] at hp
            dsimp only at hp
            split at hp
            · cases hf : f nums op.unitsMulti op.unitsRelative with
              | error e => rw [hf] at hp; exact absurd hp (by simp)
              | ok z => rw [hf] at hp; cases hp; rfl
            · cases hp; rfl
      subst hk
      rw [hp] at hr
      dsimp only at hr
      rcases hres : op.ref ys s with ⟨res | res, s1⟩
      · rw [hres] at hr; exact absurd hr (by simp)
      · rw [hres] at hr
        refine ⟨ys, res, s1, hres, ?_⟩
        intro v hv'
        cases hr
        unfold finishResult
        rw [hv']
end

/-! ## Concrete cases -/

/-- A division that fails as `Number.__truediv__` does, with an error of the decimal module. -/
def demoDivide : Operation AS Bool Unit ℕ :=
  opArith AS.num? (fun n => .n n none) "operator /" (Number.div 30)

theorem div_zero_30 : Number.div 30 ⟨1, 1⟩ ⟨0, 1⟩
    = .error (.py "Cannot create Number with denominator of 0") := by
  decide +kernel

theorem demoDivide_zero (s : ℕ) : call arrCalc demoDivide [numV 1, numV 0] s
    = (.error (.calc "Could not execute operator / with parameters: x, x"), s) := by
  rw [demoDivide, call_numbers (op := opArith AS.num? (fun n => .n n none) "operator /" (Number.div 30))
    ⟨rfl, rfl, rfl, rfl⟩ arrCalc_numbers (.cons (isNum_numV 1) (.cons (isNum_numV 0) .nil))
    (by intro m hm; cases hm; simp) (by intro m hm; cases hm; simp)]
  simp only [List.map_cons, List.map_nil, List.zip_cons_cons, List.zip_nil_right,
    plain_pair arrCalc_plain (show (numV 1).unit = none from rfl) (show (numV 0).unit = none from rfl),
    List.zipWith_cons_cons, List.zipWith_nil_right, setNumbers]
  simp only [opArith, numOp, two, numberOf, AS.num?, bind, Except.bind, div_zero_30, liftErr]
  rfl

/-- **C63 fails** for internal errors of Python: dividing by zero with `\` names two operations,
because the inner message is not marked as naming one. -/
theorem C63_twice_violation :
    call arrCalc (opIntDivide 30 AS.num? (fun n => .n n none) arrCalc demoDivide) [numV 1, numV 0] 0
      = (.error (.calc ("Could not execute operator \\ with parameters: x, x - " ++
          "Could not execute operator / with parameters: x, x") true), 0) := by
  rw [call_numbers (op := opIntDivide 30 AS.num? (fun n => .n n none) arrCalc demoDivide)
    ⟨rfl, rfl, rfl, rfl⟩ arrCalc_numbers (.cons (isNum_numV 1) (.cons (isNum_numV 0) .nil))
    (by intro m hm; cases hm; simp) (by intro m hm; cases hm; simp)]
  simp only [List.map_cons, List.map_nil, List.zip_cons_cons, List.zip_nil_right,
    plain_pair arrCalc_plain (show (numV 1).unit = none from rfl) (show (numV 0).unit = none from rfl),
    List.zipWith_cons_cons, List.zipWith_nil_right, setNumbers]
  have h : call arrCalc demoDivide [⟨.sc (.n ⟨1, 1⟩ none), none, none, none⟩,
      ⟨.sc (.n ⟨0, 1⟩ none), none, none, none⟩] 0
    = (.error (.calc "Could not execute operator / with parameters: x, x"), 0) := demoDivide_zero 0
  simp only [opIntDivide, numOp, h]
  rfl

theorem together_numV (name : String) (f : Number → Number → Except Err Number) (a b : ℤ) :
    Together (opArith (σ := ℕ) AS.num? (fun n => .n n none) name f) [numV a, numV b] where
  whole := by
    rintro i x hx ⟨l, hl, -⟩
    rcases i with _ | _ | i
    · simp only [List.getElem?_cons_zero, Option.some.injEq] at hx; subst hx; simp [numV] at hl
    · simp only [List.getElem?_cons_succ, List.getElem?_cons_zero, Option.some.injEq] at hx
      subst hx; simp [numV] at hl
    · simp at hx
  single := by simp [opArith, numOp]
  noErrors := rfl
  values := by
    intro x hx e
    simp only [List.mem_cons, List.not_mem_nil, or_false] at hx
    rcases hx with rfl | rfl <;> simp [numV]

/-- `1 / 0`: the error names the division. -/
example : ∃ m w, (w = true ∨ m = "Could not execute operator / with parameters: x, x") ∧
    call arrCalc demoDivide [numV 1, numV 0] 0 = (.error (.calc m w), 0) := by
  have hcall : ∃ e, call arrCalc demoDivide [numV 1, numV 0] 0 = (.error e, 0) := ⟨_, demoDivide_zero 0⟩
  obtain ⟨e, he⟩ := hcall
  obtain ⟨m, w, rfl, h⟩ := C63_always_named (together_numV "operator /" (Number.div 30) 1 0)
    (ts := ["x", "x"]) (.cons rfl (.cons rfl .nil)) he
  exact ⟨m, w, h, he⟩

/-- `x \ y` when `/` is declared for something else: the error names `/` alone. -/
example : call arrCalc (opIntDivide 30 AS.num? (fun n => .n n none) arrCalc
      { demoDivide with maxParams := some 1 }) [numV 1, numV 2] 0
    = (.error (.calc ("Could not execute operator / with parameters: x, x - operator / requires at " ++
        "most 1 parameters, was given 2") true), 0) :=
  C63_integer_division arrCalc_numbers (isNum_numV 1) (isNum_numV 2) arrCalc_plain rfl rfl rfl

/-- `5 + 0x10` is shown as hexadecimal (16). -/
example : ∃ r : Opd AS Bool Unit, call arrCalc (opAdd (σ := ℕ) 30 AS.num? (fun n => .n n none))
      [numV 5, fracV 16 1 (some 16)] 0 = (.ok r, 0) ∧ ∃ n, r.value = .sc (.n n (some 16)) :=
  ⟨_, rfl, _, rfl⟩

example : FirstType arrCalc [.n ⟨5, 1⟩ none, .n ⟨16, 1⟩ (some 16), .n ⟨2, 1⟩ (some 2)] (some 16) :=
  ⟨[.n ⟨5, 1⟩ none], _, _, rfl, by simp [arrCalc, bareCalc], rfl⟩

end MC.Props
