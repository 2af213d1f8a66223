import Verif.Props.State2

/-!
# C37, C59: compound assignment, deleting, constants; and concrete cases for C33-C37, C59
-/

namespace MC.Props
open MC MC.State

variable {S U K τ : Type} {c : Calc S U Ref K}

/-! ## C37 -/

/-- **C37**, the part that holds: `x op= v` has the same result and effect as applying the
operator to `x` and `v` and then assigning the result to `x`, for a number `v` whose number
type (hexadecimal, binary...) is none or that of the result.  `x` may hold an array.

Missing: an array `v` (`C37_array_violation`), another number type (`C37_type_violation`). -/
theorem C37_compound_partial (hc : HasVariables c) (hn : HasNumbers c)
    {op : Operation S U Ref (St S U τ)} (hb : RefBlind c op) (symbol : String)
    {n : String} {v0 : Val S U Ref} {u0 : Option U} {v r : Opd S U Ref} {w : S}
    {s s1 : St S U τ} (hvar : s.vars n = some (v0, u0)) (hv0 : ∀ e, v0 ≠ .exc e)
    (hv : v.value = .sc w) (hw : c.number w = some w)
    (hcall : call c op [⟨v0, u0, some (.var n), none⟩, v] s = (.ok r, s1))
    (hr : ∀ e, r.value ≠ .exc e) (hs : Settled r.value)
    (hcast : ∀ k y, c.cast w = some k → r.value = .sc y → c.setCast k y = y) :
    call c (opCompound c symbol op false) [⟨v0, u0, some (.var n), none⟩, v] s
      = call c (opSet false) [⟨v0, u0, some (.var n), none⟩, r] s1 := by
  have hv0' : v0.err? = none := err_none_iff.mpr hv0
  have hr' : r.value.err? = none := err_none_iff.mpr hr
  have hin : call c op [⟨v0, u0, none, none⟩, v] s = (.ok r, s1) := by
    rw [← hcall]
    exact call_blind hb (xs := [⟨v0, u0, none, none⟩, v]) (ys := [⟨v0, u0, some (.var n), none⟩, v])
      (.cons (Or.inr ⟨rfl, rfl, hv0'⟩) (.cons (Or.inl rfl) .nil)) s
  rw [compound_call (n := n) hc hn rfl rfl rfl rfl rfl rfl hv0' hv hw,
    set_call (n := n) hc rfl rfl rfl rfl rfl rfl hv0' hr']
  have htg : target (⟨v0, u0, some (.var n), none⟩ : Opd S U Ref) = .ok n := rfl
  have hf1 : finishResult c (opCompound c symbol op false) none (c.cast w)
      ⟨r.value, some r.unit, none⟩ = ⟨r.value, r.unit, none, none⟩ := by
    unfold finishResult
    cases h : r.value with
    | exc e => exact absurd h (hr e)
    | arr l => simp [map_restore (hs l h)]
    | sc y =>
      cases hk : c.cast w with
      | none => rfl
      | some k => simp [hcast k y hk h]
  have hf2 : finishResult c (opSet false : Operation S U Ref (St S U τ)) none none
      ⟨r.value, some r.unit, none⟩ = ⟨r.value, r.unit, none, none⟩ := by
    unfold finishResult
    cases h : r.value with
    | exc e => exact absurd h (hr e)
    | arr l => simp [map_restore (hs l h)]
    | sc y => rfl
  have h1 : (opCompound c symbol op false).ref [⟨v0, u0, some (.var n), none⟩, v] s
      = (.ok ⟨r.value, some r.unit, none⟩, setVar s1 n r.value r.unit) := by
    simp only [opCompound, assignmentOperator, htg, Bool.false_eq_true, if_false, hvar, hin]
  have h2 : (opSet false).ref [⟨v0, u0, some (.var n), none⟩, r] s1
      = (.ok ⟨r.value, some r.unit, none⟩, setVar s1 n r.value r.unit) := by
    simp only [opSet, htg, Bool.false_eq_true, if_false]
  simp only [h1, h2, hf1, hf2]
  simp only [opCompound, writeBack, htg, Bool.false_eq_true, if_false]
  congr 1
  simp only [setVar, St.mk.injEq, and_true]
  funext m
  split <;> rfl

/-- **C37**: if the operator fails, so does the compound assignment, and the variables are as the
operator left them. -/
theorem C37_failed (hc : HasVariables c) (hn : HasNumbers c)
    {op : Operation S U Ref (St S U τ)} (hb : RefBlind c op) (symbol : String)
    {n : String} {v0 : Val S U Ref} {u0 : Option U} {v : Opd S U Ref} {w : S} {e : Raise}
    {s s1 : St S U τ} (hvar : s.vars n = some (v0, u0)) (hv0 : ∀ e, v0 ≠ .exc e)
    (hv : v.value = .sc w) (hw : c.number w = some w)
    (hcall : call c op [⟨v0, u0, some (.var n), none⟩, v] s = (.error e, s1)) :
    ∃ e', call c (opCompound c symbol op false) [⟨v0, u0, some (.var n), none⟩, v] s
      = (.error e', s1) := by
  have hv0' : v0.err? = none := err_none_iff.mpr hv0
  have hin : call c op [⟨v0, u0, none, none⟩, v] s = (.error e, s1) := by
    rw [← hcall]
    exact call_blind hb (xs := [⟨v0, u0, none, none⟩, v]) (ys := [⟨v0, u0, some (.var n), none⟩, v])
      (.cons (Or.inr ⟨rfl, rfl, hv0'⟩) (.cons (Or.inl rfl) .nil)) s
  rw [compound_call (n := n) hc hn rfl rfl rfl rfl rfl rfl hv0' hv hw]
  have htg : target (⟨v0, u0, some (.var n), none⟩ : Opd S U Ref) = .ok n := rfl
  have h1 : (opCompound c symbol op false).ref [⟨v0, u0, some (.var n), none⟩, v] s
      = (.error e, s1) := by
    simp only [opCompound, assignmentOperator, htg, Bool.false_eq_true, if_false, hvar, hin]
  rw [h1]
  exact ⟨_, rfl⟩

/-- **C37**: a variable that is not set cannot be changed by a compound assignment; it stays
unset. -/
theorem C37_unset (hc : HasVariables c) (hn : HasNumbers c)
    (op : Operation S U Ref (St S U τ)) (symbol : String) {n : String} {v : Opd S U Ref} {w : S}
    (nothing : S) {s : St S U τ} (hvar : s.vars n = none)
    (hv : v.value = .sc w) (hw : c.number w = some w) :
    ∃ e, call c (opCompound c symbol op false) [⟨.sc nothing, none, some (.var n), none⟩, v] s
      = (.error e, s) := by
  rw [compound_call (n := n) hc hn rfl rfl rfl rfl rfl rfl rfl hv hw]
  have htg : target (⟨.sc nothing, none, some (.var n), none⟩ : Opd S U Ref) = .ok n := rfl
  have h1 : (opCompound c symbol op false).ref [⟨.sc nothing, none, some (.var n), none⟩, v] s
      = (.error (.py "KeyError"), s) := by
    simp only [opCompound, assignmentOperator, htg, Bool.false_eq_true, if_false, hvar]
  rw [h1]
  exact ⟨_, rfl⟩

/-! ## C59 -/

/-- **C59**, the part that holds: `delete(x)` removes `x` and nothing else, for a variable that
does not hold an array.  Missing: arrays (`C59_delete_array_violation`). -/
theorem C59_delete_partial (nothing : S) {x : Opd S U Ref} {n : String} (s : St S U τ)
    (hr : x.ref = some (.var n)) (hset : s.vars n ≠ none)
    (ha : ∀ l, x.value ≠ .arr l) (he : ∀ e, x.value ≠ .exc e) :
    ∃ s', call c (funcDelete nothing) [x] s = (.ok ⟨.sc nothing, none, none, none⟩, s') ∧
      s'.vars n = none ∧ (∀ m, m ≠ n → s'.vars m = s.vars m) ∧ s'.rest = s.rest := by
  rw [one_call rfl rfl rfl rfl rfl ha he]
  have htg : target x = .ok n := by simp [target, hr]
  obtain ⟨q, hq⟩ := Option.ne_none_iff_exists'.mp hset
  simp only [funcDelete, htg, hq]
  exact ⟨_, rfl, by simp, fun m hm => by simp [hm], rfl⟩

/-- **C59**: deleting a variable that does not exist raises and changes nothing. -/
theorem C59_delete_missing (nothing : S) (n : String) (s : St S U τ) (h : s.vars n = none) :
    ∃ x e, readVar nothing n s = (.ok x, s) ∧
      call c (funcDelete nothing) [x] s = (.error e, s) := by
  have key : ∃ e, call c (funcDelete nothing) [⟨.sc nothing, none, some (.var n), none⟩] s
      = (.error e, s) := by
    rw [one_call rfl rfl rfl rfl rfl (by simp) (by simp)]
    simp only [funcDelete, target, h]
    exact ⟨_, rfl⟩
  obtain ⟨e, he⟩ := key
  exact ⟨_, e, by simp [readVar, h], he⟩

/-- **C59**: `reset()` removes all variables. -/
theorem C59_reset (hn : EmptyNormal c) (nothing : S) (s : St S U τ) :
    ∃ s', call c (funcReset nothing) [] s = (.ok ⟨.sc nothing, none, none, none⟩, s') ∧
      (∀ n, s'.vars n = none) ∧ s'.rest = s.rest := by
  rw [none_call hn rfl rfl rfl rfl rfl]
  exact ⟨_, rfl, fun _ => rfl, rfl⟩

/-- **C59**: assigning to a constant (or to anything else that is not a variable but an item of
its own) fails and changes nothing, for every assigning operator of two operands. -/
theorem C59_constant (hc : HasVariables c) (v : Val S U Ref) (u : Option U)
    (hv : ∀ e, v ≠ .exc e) {y : Opd S U Ref} (hy : ∀ e, y.value ≠ .exc e)
    {op : Operation S U Ref (St S U τ)} {b : Bool} (hop : op = opSet b ∨ op = opSetIfEmpty b)
    (s : St S U τ) :
    ∃ x e, readConstant v u s = (.ok x, s) ∧ call c op [x, y] s = (.error e, s) := by
  have key : ∀ op : Operation S U Ref (St S U τ), op.values = setTypes → op.minParams = some 2 →
      op.maxParams = some 2 → ∃ e, call c op [⟨v, u, some .other, none⟩, y] s = (.error e, s) := by
    intro op ht h1 h2
    rw [attempt_call (set_spreads ht rfl) (by rw [h2]; simp) (err_none_iff.mpr hv)
      (err_none_iff.mpr hy)]
    obtain ⟨m, hm⟩ := set_invalid (c := c) (v := y) (op := op)
      (x := ⟨v, u, some .other, none⟩) hc ht h1 h2 (by simp)
    unfold attempt
    rw [hm]
    exact ⟨_, rfl⟩
  rcases hop with rfl | rfl
  · obtain ⟨e, he⟩ := key (opSet b) rfl rfl rfl
    exact ⟨_, e, rfl, he⟩
  · obtain ⟨e, he⟩ := key (opSetIfEmpty b) rfl rfl rfl
    exact ⟨_, e, rfl, he⟩

/-! ## A concrete calculator -/

/-- A number with its number type, e.g. 16 for hexadecimal. -/
structure Num where
  n : ℤ
  k : Option ℕ
  deriving DecidableEq

abbrev DemoSt := St Num Unit Unit

/-- Variables and numbers. -/
def varCalc : Calc Num Unit Ref ℕ where
  validator := fun n =>
    if n = "variable" then some validateVariable
    else if n = "number" then some (fun x _ => .ok (match x.value with
      | .sc _ => true
      | _ => false))
    else none
  number := fun x => some x
  isNumber := fun _ => true
  cast := fun x => x.k
  setCast := fun k x => ⟨x.n, some k⟩
  normalise := none
  toString := fun _ => .ok "x"

/-- `+` (`basicarithmetic.py:58-66`). -/
def varAdd : Operation Num Unit Ref DemoSt where
  name := "operator +"
  minParams := some 2
  maxParams := some 2
  values := [⟨0, none, [.ty "number"]⟩]
  units := []
  unitsRelative := true
  ref := fun xs s => match (xs.map (fun x => x.value) : List (Val Num Unit Ref)) with
    | [Val.sc a, Val.sc b] => (.ok { value := .sc ⟨a.n + b.n, none⟩ }, s)
    | _ => (.error (.py "TypeError"), s)

/-- Empty state. -/
def noVars : DemoSt := ⟨fun _ => none, ()⟩
/-- A decimal number. -/
def num (n : ℤ) : Opd Num Unit Ref := ⟨.sc ⟨n, none⟩, none, none, none⟩
/-- The variable `x` holding `v`. -/
def xIs (v : Val Num Unit Ref) : Opd Num Unit Ref := ⟨v, none, some (.var "x"), none⟩
/-- The state in which `x` is `v` and `y` is 5. -/
def stX (v : Val Num Unit Ref) : DemoSt :=
  setVar (setVar noVars "y" (.sc ⟨5, none⟩) none) "x" v none

theorem varCalc_variables : HasVariables varCalc := rfl
theorem varCalc_numbers : HasNumbers varCalc := by
  unfold HasNumbers varCalc
  simp only [String.reduceEq, if_false, if_true, Option.some.injEq]
  funext x _
  cases x.value <;> rfl
theorem varAdd_blind : RefBlind varCalc varAdd where
  types := by
    intro r hr t ht x y h _
    simp only [varAdd, List.mem_singleton] at hr
    subst hr
    simp only [List.mem_singleton] at ht
    subst ht
    simp [validateInput, varCalc, h]
  run := by
    intro ys zs h
    have h' := congrArg (List.map Prod.fst) h
    simp only [List.map_map] at h'
    have h'' : ys.map (fun x => x.value) = zs.map (fun x => x.value) := h'
    simp only [varAdd, h'']
  shows := fun _ _ _ _ => rfl
  after := rfl
  noVariable := by
    intro i
    simp [Operation.canBe, varAdd, Operation.applies, ObjType.main]
  two := by simp [varAdd]
theorem varAdd_ordinary : Ordinary varAdd where
  noExc := rfl
  vars := by
    intro ys s
    simp only [varAdd]
    split <;> rfl
  after := rfl
  result := by
    intro ys s r s' h e
    simp only [varAdd] at h
    split at h
    · obtain ⟨h1, -⟩ := Prod.mk.inj h
      rw [← Except.ok.inj h1]
      simp
    · simp at h

/-- **C37 fails for arrays**: with `x` being 1, `x += [1, 2]` adds 1 and then 2, so that `x`
is 4 and the result `[2, 4]`; `x = x + [1, 2]` makes `x` the array `[2, 3]`. -/
theorem C37_array_violation :
    (∃ s, call varCalc (opCompound varCalc "+=" varAdd false)
        [xIs (.sc ⟨1, none⟩), ⟨.arr [num 1, num 2], none, none, none⟩] (stX (.sc ⟨1, none⟩))
        = (.ok ⟨.arr [num 2, num 4], none, none, none⟩, s) ∧
      s.vars "x" = some (.sc ⟨4, none⟩, none)) ∧
    (call varCalc varAdd
        [xIs (.sc ⟨1, none⟩), ⟨.arr [num 1, num 2], none, none, none⟩] (stX (.sc ⟨1, none⟩))).1
      = .ok ⟨.arr [num 2, num 3], none, none, none⟩ := by
  exact ⟨⟨_, rfl, rfl⟩, rfl⟩

/-- **C37 fails for number types**: with `x` being hexadecimal 16, `x += 0b1` makes `x` binary,
while `x + 0b1` is hexadecimal. -/
theorem C37_type_violation :
    (∃ s, call varCalc (opCompound varCalc "+=" varAdd false)
        [xIs (.sc ⟨16, some 16⟩), ⟨.sc ⟨1, some 2⟩, none, none, none⟩] (stX (.sc ⟨16, some 16⟩))
        = (.ok ⟨.sc ⟨17, some 2⟩, none, none, none⟩, s) ∧
      s.vars "x" = some (.sc ⟨17, some 2⟩, none)) ∧
    (call varCalc varAdd
        [xIs (.sc ⟨16, some 16⟩), ⟨.sc ⟨1, some 2⟩, none, none, none⟩]
        (stX (.sc ⟨16, some 16⟩))).1
      = .ok ⟨.sc ⟨17, some 16⟩, none, none, none⟩ := by
  exact ⟨⟨_, rfl, rfl⟩, rfl⟩

/-- **C59 fails for arrays**: when `x` holds an array whose only element was read from `y`
(`x = [y]`), `delete(x)` deletes `y` and leaves `x`. -/
theorem C59_delete_array_violation :
    let y : Opd Num Unit Ref := ⟨.sc ⟨5, none⟩, none, some (.var "y"), none⟩
    let s := stX (.arr [y])
    let s' := (call varCalc (funcDelete ⟨0, none⟩) [xIs (.arr [y])] s).2
    s.vars "y" ≠ none ∧ s'.vars "y" = none ∧ s'.vars "x" ≠ none := by
  refine ⟨by simp [stX, setVar], rfl, ?_⟩
  have : (call varCalc (funcDelete ⟨0, none⟩)
      [xIs (.arr [⟨.sc ⟨5, none⟩, none, some (.var "y"), none⟩])]
      (stX (.arr [⟨.sc ⟨5, none⟩, none, some (.var "y"), none⟩]))).2.vars "x"
      = some (.arr [⟨.sc ⟨5, none⟩, none, some (.var "y"), none⟩], none) := rfl
  rw [this]
  simp

/-- An error can get into a variable as an element of an array, though: `[1, 2] + [1, false]`
assigned to `x`.  `C36` is about the value of the variable itself. -/
theorem C36_element_note (e : Raise) :
    (call varCalc (opSet false) [xIs (.sc ⟨0, none⟩),
        ⟨.arr [num 1, ⟨.exc e, none, none, none⟩], none, none, none⟩] (stX (.sc ⟨0, none⟩))).2.vars "x"
      = some (.arr [num 1, ⟨.exc e, none, none, none⟩], none) := rfl

/-! ## Non-vacuity -/

/-- `x = 3` when `x` holds an array: `x` becomes 3 and `y` stays 5. -/
example : ∃ s', call varCalc (opSet false) [xIs (.arr [num 1, num 2]), num 3]
      (stX (.arr [num 1, num 2])) = (.ok (num 3), s') ∧
    s'.vars "x" = some (.sc ⟨3, none⟩, none) ∧ s'.vars "y" = some (.sc ⟨5, none⟩, none) := by
  obtain ⟨s', h1, h2, -⟩ := C33_assign varCalc_variables (n := "x") rfl (x := xIs (.arr [num 1, num 2]))
    (v := num 3) (by simp [xIs]) (by simp [num]) (by simp [num, Settled]) ⟨0, none⟩
    (stX (.arr [num 1, num 2]))
  exact ⟨s', h1, h2.1, by rw [h2.2.1 "y" (by simp)]; rfl⟩

/-- `x ||= 3` changes nothing when `x` is set. -/
example : ∃ s', call varCalc (opSetIfEmpty false) [xIs (.sc ⟨1, none⟩), num 3]
    (stX (.sc ⟨1, none⟩)) = (.ok (num 3), s') ∧ s' = stX (.sc ⟨1, none⟩) := by
  obtain ⟨s', h1, -, h2⟩ := C33_if_empty varCalc_variables (n := "x") rfl (x := xIs (.sc ⟨1, none⟩))
    (v := num 3) (by simp [xIs]) (by simp [num]) (by simp [num, Settled]) (stX (.sc ⟨1, none⟩))
  exact ⟨s', h1, h2 (by simp [stX, setVar])⟩

/-- `x += 2` with `x` being 1. -/
example : call varCalc (opCompound varCalc "+=" varAdd false) [xIs (.sc ⟨1, none⟩), num 2]
      (stX (.sc ⟨1, none⟩))
    = call varCalc (opSet false) [xIs (.sc ⟨1, none⟩), num 3] (stX (.sc ⟨1, none⟩)) :=
  C37_compound_partial varCalc_variables varCalc_numbers varAdd_blind "+=" (n := "x")
    (u0 := none) (w := ⟨2, none⟩) rfl (by simp) rfl rfl rfl (by simp [num]) (by simp [num, Settled])
    (by simp [varCalc])

/-- A table with `+`, `=` and `+=`. -/
def varConfig : Config (Opd Num Unit Ref) DemoSt where
  ops := [⟨("+", ⟨[none], [none], false, call varCalc varAdd⟩), []⟩,
    ⟨("=", ⟨[none], [none], false, call varCalc (opSet false)⟩),
      [("+=", ⟨[none], [none], false, call varCalc (opCompound varCalc "+=" varAdd false)⟩)]⟩]
  divideOp := none
  implicitMul := none
  unitAssign := none
  unitMul := none
  unitDiv := none
  isUnit := fun _ => false
  mkErr := fun e => ⟨.exc (.exec e), none, none, none⟩
  getErr := fun x => x.value.err?
  funcs := fun n => if n = "reset" then some ⟨false, call varCalc (funcReset ⟨0, none⟩)⟩ else none

theorem varConfig_ops {o : String} {d : OpDef (Opd Num Unit Ref) DemoSt}
    (h : opsList varConfig o = some d) : KnownEffect varCalc d.call := by
  simp only [opsList, varConfig, Level.entries, List.flatMap_cons, List.flatMap_nil,
    List.cons_append, List.nil_append, List.append_nil, List.reverse_cons, List.reverse_nil,
    List.lookup_cons] at h
  split at h
  · rw [← Option.some.inj h]; exact .operator (.compound "+=" varAdd varAdd_ordinary)
  · split at h
    · rw [← Option.some.inj h]; exact .operator (b := false) .set
    · split at h
      · rw [← Option.some.inj h]
        exact .none (fun xs s => call_keeps (rel := SameVars) sameVars_refl sameVars_trans
          (ordinary_keeps varAdd_ordinary) xs s)
      · simp at h

/-- The hypotheses of `C36_history` hold for this calculator: whatever is calculated, no
variable ever holds an error. -/
example (texts : List (List (List (Node (Opd Num Unit Ref))))) :
    Clean (afterAll varConfig (fun a s => (.ok a, s)) (fun v s => (.ok v, s)) texts noVars) := by
  refine C36_history (c := varCalc) (fun o d h => varConfig_ops h) ?_ (fun _ _ => rfl)
    (fun _ _ => rfl) texts noVars (by intro n v u h; simp [noVars] at h)
  intro n f h
  simp only [varConfig] at h
  split at h
  · rw [← Option.some.inj h]; exact .reset _
  · simp at h

/-- `=` qualifies for `C33_expression`. -/
theorem varConfig_set : Binary varConfig "=" ⟨[none], [none], false, call varCalc (opSet false)⟩ where
  found := rfl
  left := rfl
  right := rfl
  plain := by simp [varConfig]
  heads := by
    intro l hl
    simp only [varConfig, List.mem_cons, List.not_mem_nil, or_false] at hl
    rcases hl with rfl | rfl
    · rw [show opsList varConfig "+" = some ⟨[none], [none], false, call varCalc varAdd⟩ from rfl]
      simp
    · rw [show opsList varConfig "=" = some ⟨[none], [none], false, call varCalc (opSet false)⟩
        from rfl]
      simp

/-- `{PARAM1}` is a body for which `C35_inline_partial` applies. -/
example : (doInline [readVar (⟨0, none⟩ : Num) "PARAM1"] [num 7] (stX (.sc ⟨1, none⟩))).2.vars
      = (stX (.sc ⟨1, none⟩)).vars ∧
    (doInline [readVar (⟨0, none⟩ : Num) "PARAM1"] [num 7] (stX (.sc ⟨1, none⟩))).1
      = .ok ⟨.sc ⟨7, none⟩, some none, none⟩ := by
  refine ⟨C35_inline_partial _ (by simp) ?_ _ _, rfl⟩
  intro run hr s e s' h
  simp only [List.mem_singleton] at hr
  subst hr
  unfold readVar at h
  split at h <;> simp at h

/-- `reset()` on a state with variables. -/
example : EmptyNormal varCalc := by intro f h; simp [varCalc] at h

/-- `delete(x)` with `x` being 1. -/
example : ∃ s', call varCalc (funcDelete ⟨0, none⟩) [xIs (.sc ⟨1, none⟩)] (stX (.sc ⟨1, none⟩))
    = (.ok (num 0), s') ∧ s'.vars "x" = none ∧ s'.vars "y" = some (.sc ⟨5, none⟩, none) := by
  obtain ⟨s', h1, h2, h3, -⟩ := C59_delete_partial (c := varCalc) (⟨0, none⟩ : Num)
    (x := xIs (.sc ⟨1, none⟩)) (n := "x") (stX (.sc ⟨1, none⟩)) rfl (by simp [stX, setVar])
    (by simp [xIs]) (by simp [xIs])
  exact ⟨s', h1, h2, by rw [h3 "y" (by simp)]; rfl⟩

end MC.Props
