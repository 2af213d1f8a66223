import Verif.Props.Engine4
import Verif.Spec.UnitPhrase

/-! # How the engine evaluates phrases with units -/

namespace MC.Props
open MC MC.Spec

section
variable {V σ : Type} {isUnit : V → Bool} {f : String → List V → Except String V}

/-! ## Phrases -/

theorem phrase_le {j k : ℕ} {b e : Bool} {T : List (Tok V)} {v : V}
    (h : PhraseFrom isUnit f j k b e T v) : j ≤ k := by
  induction h <;> omega

theorem phrase_base {j k : ℕ} {b e : Bool} {T : List (Tok V)} {v : V}
    (h : PhraseFrom isUnit f j k b e T v) (hk : k = j) : T = [.val v] ∧ b = isUnit v ∧ e = isUnit v := by
  cases h with
  | atom => exact ⟨rfl, rfl, rfl⟩
  | up h => have := phrase_le h; omega
  | left _ _ _ h => have := phrase_le h; omega
  | pref h => omega
  | tern _ _ h => have := phrase_le h; omega
  | times _ h => have := phrase_le h; omega
  | per _ h => have := phrase_le h; omega
  | of _ h => have := phrase_le h; omega
  | next _ h => have := phrase_le h; omega

theorem prefixes_row {k : ℕ} {ops : List String} (h : documented[k]? = some (.prefixes ops)) : k = 1 := by
  have hk := (List.getElem?_eq_some_iff.mp h).1
  have : ∀ k < 16, (match documented[k]? with | some (RowKind.prefixes _) => decide (k = 1) | _ => true) = true := by
    decide
  have := this k hk
  rw [h] at this
  simpa using this

theorem ternary_row {k : ℕ} {o s : String} (h : documented[k]? = some (.ternary o s)) :
    k = 14 ∧ o = "then" ∧ s = "else" := by
  have hk := (List.getElem?_eq_some_iff.mp h).1
  have : ∀ k < 16, (match documented[k]? with
      | some (RowKind.ternary o s) => decide (k = 14 ∧ o = "then" ∧ s = "else") | _ => true) = true := by
    decide
  have := this k hk
  rw [h] at this
  simpa using this

/-- From row 3 on, a phrase begins and ends with an operand. -/
theorem phrase_ends {j k : ℕ} {b e : Bool} {T : List (Tok V)} {v : V}
    (h : PhraseFrom isUnit f j k b e T v) (hj : 3 ≤ j) :
    (∃ x R, T = .val x :: R ∧ isUnit x = b) ∧ ∃ y R, T = R ++ [.val y] ∧ isUnit y = e := by
  have hedge : ∀ k b (x : V), j ≤ k → edge isUnit k b x = b := by
    intro k b x hk
    rw [edge, if_neg (by omega)]
  induction h with
  | atom v => exact ⟨⟨v, [], rfl, rfl⟩, v, [], rfl, rfl⟩
  | up _ ih => exact ih
  | @left _ _ o _ _ _ _ _ _ _ _ _ _ _ _ h _ _ _ iht ihu =>
    rw [hedge _ _ _ (phrase_le h), hedge _ _ _ (phrase_le h)]
    obtain ⟨⟨x, R, rfl, hx⟩, -⟩ := iht
    obtain ⟨-, y, R', rfl, hy⟩ := ihu
    exact ⟨⟨x, _, rfl, hx⟩, y, .val x :: R ++ .op o :: R', by simp, hy⟩
  | pref h hd => have := prefixes_row hd; omega
  | tern _ _ _ _ _ iht _ ihr =>
    obtain ⟨⟨x, R, rfl, hx⟩, -⟩ := iht
    obtain ⟨-, y, R', rfl, hy⟩ := ihr
    exact ⟨⟨x, _, rfl, hx⟩, y, _, by rw [← List.cons_append, ← List.append_assoc, ← List.cons_append, ← List.append_assoc], hy⟩
  | times _ _ _ _ _ iht ihu =>
    obtain ⟨⟨x, R, rfl, hx⟩, -⟩ := iht
    obtain ⟨-, y, R', rfl, hy⟩ := ihu
    exact ⟨⟨x, _, rfl, hx⟩, y, .val x :: R ++ R', by simp, hy⟩
  | per _ _ _ _ _ iht ihu =>
    obtain ⟨⟨x, R, rfl, hx⟩, -⟩ := iht
    obtain ⟨-, y, R', rfl, hy⟩ := ihu
    exact ⟨⟨x, _, rfl, hx⟩, y, .val x :: R ++ .op "/" :: R', by simp, hy⟩
  | of _ _ _ _ _ _ iht ihu =>
    obtain ⟨⟨x, R, rfl, hx⟩, -⟩ := iht
    obtain ⟨-, y, R', rfl, hy⟩ := ihu
    exact ⟨⟨x, _, rfl, hx⟩, y, .val x :: R ++ R', by simp, hy⟩
  | next _ _ _ _ iht ihu =>
    obtain ⟨⟨x, R, rfl, hx⟩, -⟩ := iht
    obtain ⟨-, y, R', rfl, hy⟩ := ihu
    exact ⟨⟨x, _, rfl, hx⟩, y, .val x :: R ++ R', by simp, hy⟩

/-- A phrase always ends with an operand. -/
theorem phrase_last {j k : ℕ} {b e : Bool} {T : List (Tok V)} {v : V}
    (h : PhraseFrom isUnit f j k b e T v) : ∃ y R, T = R ++ [.val y] := by
  induction h with
  | atom v => exact ⟨v, [], rfl⟩
  | up _ ih => exact ih
  | left _ _ _ _ _ _ _ _ ih => obtain ⟨y, R, rfl⟩ := ih; exact ⟨y, _, by rw [← List.cons_append, ← List.append_assoc]⟩
  | pref _ _ _ _ _ ih => obtain ⟨y, R, rfl⟩ := ih; exact ⟨y, _, by rw [← List.cons_append]⟩
  | tern _ _ _ _ _ _ _ ih =>
    obtain ⟨y, R, rfl⟩ := ih
    exact ⟨y, _, by rw [← List.cons_append, ← List.append_assoc, ← List.cons_append, ← List.append_assoc]⟩
  | times _ _ _ _ _ _ ih => obtain ⟨y, R, rfl⟩ := ih; exact ⟨y, _, by rw [← List.append_assoc]⟩
  | per _ _ _ _ _ _ ih => obtain ⟨y, R, rfl⟩ := ih; exact ⟨y, _, by rw [← List.cons_append, ← List.append_assoc]⟩
  | of _ _ _ _ _ _ _ ih => obtain ⟨y, R, rfl⟩ := ih; exact ⟨y, _, by rw [← List.append_assoc]⟩
  | next _ _ _ _ _ ih => obtain ⟨y, R, rfl⟩ := ih; exact ⟨y, _, by rw [← List.append_assoc]⟩

/-! ## The rows of the shipped table -/

/-- Row `i` of the shipped table has this operator. -/
def hasS (i : ℕ) (o : String) : Bool := (shippedRows[i]?).any (fun r => (r.1 :: r.2).any (fun e => e.1 == o))

theorem infixes_has {k i : ℕ} {ops : List String} {o : String} (h : documented[k]? = some (.infixes ops))
    (ho : o ∈ ops) (hi : i < 17) : hasS i o = decide (i = k) ∧ (o = "/" → k = 6) ∧ o ≠ "UNIT_MULTIPLY" ∧
      o ≠ "UNIT_DIVIDE" ∧ o ≠ "IMPLICIT_MULTIPLY" := by
  have hk := (List.getElem?_eq_some_iff.mp h).1
  have key : ∀ k < 16, (match documented[k]? with
      | some (RowKind.infixes ops) => ops.all (fun o => (List.range 17).all (fun i => hasS i o == decide (i = k)) &&
          decide ((o = "/" → k = 6) ∧ o ≠ "UNIT_MULTIPLY" ∧ o ≠ "UNIT_DIVIDE" ∧ o ≠ "IMPLICIT_MULTIPLY"))
      | _ => true) = true := by
    decide +kernel
  have := key k hk
  rw [h] at this
  simp only [List.all_eq_true, Bool.and_eq_true, beq_iff_eq, decide_eq_true_eq, List.mem_range] at this
  exact ⟨(this o ho).1 i hi, (this o ho).2⟩

theorem prefixes_has {k i : ℕ} {ops : List String} {o : String} (h : documented[k]? = some (.prefixes ops))
    (ho : o ∈ ops) (hi : i < 17) : hasS i o = decide (i = 1) ∧ o ≠ "/" ∧ o ≠ "UNIT_MULTIPLY" ∧
      o ≠ "UNIT_DIVIDE" ∧ o ≠ "IMPLICIT_MULTIPLY" := by
  have hk := (List.getElem?_eq_some_iff.mp h).1
  have key : ∀ k < 16, (match documented[k]? with
      | some (RowKind.prefixes ops) => ops.all (fun o => (List.range 17).all (fun i => hasS i o == decide (i = 1)) &&
          decide (o ≠ "/" ∧ o ≠ "UNIT_MULTIPLY" ∧ o ≠ "UNIT_DIVIDE" ∧ o ≠ "IMPLICIT_MULTIPLY"))
      | _ => true) = true := by
    decide +kernel
  have := key k hk
  rw [h] at this
  simp only [List.all_eq_true, Bool.and_eq_true, beq_iff_eq, decide_eq_true_eq, List.mem_range] at this
  exact ⟨(this o ho).1 i hi, (this o ho).2⟩

theorem special_has {i : ℕ} (hi : i < 17) : hasS i "then" = decide (i = 14) ∧ hasS i "else" = false ∧
    hasS i "/" = decide (i = 6) ∧ hasS i "UNIT_MULTIPLY" = decide (i = 3) ∧ hasS i "UNIT_DIVIDE" = decide (i = 3) ∧
    hasS i "UNIT_ASSIGNMENT" = decide (i = 4) ∧ hasS i "IMPLICIT_MULTIPLY" = decide (i = 5) := by
  revert i
  decide +kernel

variable {call : String → List V → Act σ V} {mkErr : ExecErr → V}
  {getErr : V → Option Raise} {funcs : String → Option (FuncDef V σ)}

/-- `prec` is row `i` of the shipped table. -/
def IsRow (call : String → List V → Act σ V) (isUnit : V → Bool) (mkErr : ExecErr → V)
    (getErr : V → Option Raise) (funcs : String → Option (FuncDef V σ)) (i : ℕ) (prec : Level V σ) : Prop :=
  i < 17 ∧ (shipped call isUnit mkErr getErr funcs).ops[i]? = some prec

theorem IsRow.has {i : ℕ} {prec : Level V σ} (h : IsRow call isUnit mkErr getErr funcs i prec) (s : String) :
    prec.has s = hasS i s := by
  obtain ⟨_, h⟩ := h
  simp only [shipped, List.getElem?_map] at h
  unfold hasS
  cases hr : shippedRows[i]? with
  | none => rw [hr] at h; cases h
  | some r =>
    rw [hr] at h
    simp only [Option.map_some, Option.some.injEq] at h
    subst h
    simp [Level.has, Level.entries, List.any_map, Function.comp_def]

/-- The row that joins two adjacent operands, by whether they are units. -/
def joins (p b : Bool) : ℕ := if b then (if p then 3 else 4) else 5

/-- The operator that joins them. -/
def joinOp : ℕ → String
  | 3 => "UNIT_MULTIPLY"
  | 4 => "UNIT_ASSIGNMENT"
  | _ => "IMPLICIT_MULTIPLY"

theorem rule_adjacent {i : ℕ} {prec : Level V σ} (h : IsRow call isUnit mkErr getErr funcs i prec) (p x : V)
    (nx : Option (Tok V)) :
    ruleAt (shipped call isUnit mkErr getErr funcs) prec (some (.val p)) (.val x) nx =
      if joins (isUnit p) (isUnit x) = i then some (joinOp i, 0) else none := by
  obtain ⟨h1, h2, h3⟩ := C67_adjacent (C67_shipped call isUnit mkErr getErr funcs) prec p x nx
  obtain ⟨-, -, -, s1, -, s2, s3⟩ := special_has h.1
  have e : (shipped call isUnit mkErr getErr funcs).isUnit = isUnit := rfl
  rw [e] at h1 h2 h3
  unfold joins
  cases hx : isUnit x with
  | false =>
    rw [h3 hx, h.has, s3]
    by_cases hi : i = 5
    · subst hi; simp [joinOp]
    · simp [hi, Ne.symm hi]
  | true =>
    cases hp : isUnit p with
    | false =>
      rw [h1 hp hx, h.has, s2]
      by_cases hi : i = 4
      · subst hi; simp [joinOp]
      · simp [hi, Ne.symm hi]
    | true =>
      rw [h2 hp hx, h.has, s1]
      by_cases hi : i = 3
      · subst hi; simp [joinOp]
      · simp [hi, Ne.symm hi]

theorem rule_first (prec : Level V σ) {prev : Option (Tok V)} (hp : ∀ p, prev ≠ some (.val p)) (x : V)
    (nx : Option (Tok V)) :
    ruleAt (shipped call isUnit mkErr getErr funcs) prec prev (.val x) nx = none := by
  cases prev with
  | none => simp [ruleAt, shipped, Tok.isUnit, Tok.isOp, Option.filter]
  | some t =>
    cases t with
    | op o => simp [ruleAt, shipped, Tok.isUnit, Tok.isOp, Option.filter]
    | val p => exact absurd rfl (hp p)

theorem rule_sign {i : ℕ} {prec : Level V σ} (h : IsRow call isUnit mkErr getErr funcs i prec) {o : String}
    (ho : o ≠ "UNIT_MULTIPLY" ∧ o ≠ "UNIT_DIVIDE" ∧ o ≠ "IMPLICIT_MULTIPLY") (hd : o ≠ "/")
    (prev nx : Option (Tok V)) :
    ruleAt (shipped call isUnit mkErr getErr funcs) prec prev (.op o) nx =
      if hasS i o then some (o, 1) else none := by
  rw [← h.has]
  simp [ruleAt, shipped, Tok.isUnit, Tok.isOp, Option.filter, ho, hd]

theorem rule_divide {i : ℕ} {prec : Level V σ} (h : IsRow call isUnit mkErr getErr funcs i prec) {p q : V} :
    ruleAt (shipped call isUnit mkErr getErr funcs) prec (some (.val p)) (.op "/") (some (.val q)) =
      if (isUnit p && isUnit q) = true then (if i = 3 then some ("UNIT_DIVIDE", 1) else none)
      else if i = 6 then some ("/", 1) else none := by
  obtain ⟨h1, h2⟩ := C67_division (C67_shipped call isUnit mkErr getErr funcs) prec (some (.val p)) (some (.val q))
  obtain ⟨-, -, s0, -, s1, -, -⟩ := special_has h.1
  have e : ∀ v, (some (Tok.val v)).any (Tok.isUnit (shipped call isUnit mkErr getErr funcs)) = isUnit v := fun _ => rfl
  rw [e, e] at h1 h2
  cases hp : isUnit p with
  | false =>
    rw [h2 (Or.inl hp), h.has, s0]
    simp
  | true =>
    cases hq : isUnit q with
    | false =>
      rw [h2 (Or.inr hq), h.has, s0]
      simp
    | true =>
      rw [h1 hp hq, h.has, s1]
      simp

/-! ## Where nothing applies -/

/-- No operator of this level applies in `T`, between `prev` and `nx`. -/
def Still (cfg : Config V σ) (prec : Level V σ) : Option (Tok V) → List (Tok V) → Option (Tok V) → Prop
  | _, [], _ => True
  | prev, x :: T, nx => ruleAt cfg prec prev x (T.head?.or nx) = none ∧ Still cfg prec (some x) T nx

/-- The last token, or the one before. -/
def lastOr (prev : Option (Tok V)) (T : List (Tok V)) : Option (Tok V) := T.getLast?.or prev

theorem lastOr_cons (prev : Option (Tok V)) (x : Tok V) (T : List (Tok V)) :
    lastOr prev (x :: T) = lastOr (some x) T := by
  unfold lastOr
  cases T with
  | nil => rfl
  | cons y T => rw [List.getLast?_cons_cons]; cases h : (y :: T).getLast? <;> simp_all

theorem lastOr_append (prev : Option (Tok V)) (T : List (Tok V)) (x : Tok V) : lastOr prev (T ++ [x]) = some x := by
  simp [lastOr]

theorem still_append {cfg : Config V σ} {prec : Level V σ} : ∀ (A B : List (Tok V)) (prev nx : Option (Tok V)),
    Still cfg prec prev (A ++ B) nx ↔ Still cfg prec prev A (B.head?.or nx) ∧ Still cfg prec (lastOr prev A) B nx
  | [], B, prev, nx => by simp [Still, lastOr]
  | x :: A, B, prev, nx => by
    rw [List.cons_append, Still, still_append A B, lastOr_cons, Still, and_assoc]
    have : (A ++ B).head?.or nx = A.head?.or (B.head?.or nx) := by
      cases A with
      | nil => simp
      | cons a A => simp
    rw [this]

theorem still_next {cfg : Config V σ} {prec : Level V σ} {A : List (Tok V)} {prev nx nx' : Option (Tok V)} {y : V}
    (hr : ∀ p, ruleAt cfg prec p (.val y) nx' = ruleAt cfg prec p (.val y) nx) 
    (h : Still cfg prec prev (A ++ [.val y]) nx) : Still cfg prec prev (A ++ [.val y]) nx' := by
  rw [still_append] at h ⊢
  refine ⟨by simpa using h.1, ?_, trivial⟩
  have := h.2.1
  simp only [List.head?_nil, Option.none_or] at this ⊢
  rw [hr]; exact this

theorem rule_next (prec : Level V σ) (prev nx nx' : Option (Tok V)) (x : V) :
    ruleAt (shipped call isUnit mkErr getErr funcs) prec prev (.val x) nx
      = ruleAt (shipped call isUnit mkErr getErr funcs) prec prev (.val x) nx' := by
  simp [ruleAt]

/-- Row `i` does not join an operand that is a unit if `b` to what is before it. -/
def Fresh (isUnit : V → Bool) (i : ℕ) (prev : Option (Tok V)) (b : Bool) : Prop :=
  ∀ p, prev = some (.val p) → joins (isUnit p) b ≠ i

theorem joins_ge (p b : Bool) : 3 ≤ joins p b := by cases p <;> cases b <;> simp [joins]

theorem fresh_small {i : ℕ} (hi : i < 3) (prev : Option (Tok V)) (b : Bool) : Fresh isUnit i prev b := by
  intro p _
  have := joins_ge (isUnit p) b
  omega

theorem fresh_op {i : ℕ} (o : String) (b : Bool) : Fresh isUnit i (some (.op o) : Option (Tok V)) b := by
  intro p h; cases h

theorem fresh_none {i : ℕ} (b : Bool) : Fresh isUnit i (none : Option (Tok V)) b := by
  intro p h; cases h

theorem rule_fresh {i : ℕ} {prec : Level V σ} (h : IsRow call isUnit mkErr getErr funcs i prec)
    {prev : Option (Tok V)} {x : V} (hf : i < 3 ∨ Fresh isUnit i prev (isUnit x)) (nx : Option (Tok V)) :
    ruleAt (shipped call isUnit mkErr getErr funcs) prec prev (.val x) nx = none := by
  have hf : Fresh isUnit i prev (isUnit x) := hf.elim (fun h => fresh_small h _ _) id
  rcases prev with _ | (o | p)
  · exact rule_first prec (by simp) x nx
  · exact rule_first prec (by simp) x nx
  · rw [rule_adjacent h, if_neg (hf p rfl)]

/-- An operator that is not in row `i`, and not `/` between units. -/
theorem rule_other {i k : ℕ} {prec : Level V σ} (h : IsRow call isUnit mkErr getErr funcs i prec)
    {ops : List String} {o : String} (hd : documented[k]? = some (.infixes ops)) (ho : o ∈ ops) (hk : i ≠ k)
    {p q : V} (hdiv : o = "/" → i = 3 → (isUnit p && isUnit q) = false) :
    ruleAt (shipped call isUnit mkErr getErr funcs) prec (some (.val p)) (.op o) (some (.val q)) = none := by
  obtain ⟨h1, h2, h3⟩ := infixes_has hd ho h.1
  by_cases he : o = "/"
  · subst he
    have := h2 rfl
    rw [rule_divide h]
    split
    · rename_i hu
      rw [if_neg]
      intro hi
      rw [hdiv rfl hi] at hu
      cases hu
    · rw [if_neg (by omega)]
  · rw [rule_sign h h3 he, h1]
    simp [hk]

theorem rule_small {i k : ℕ} {prec : Level V σ} (h : IsRow call isUnit mkErr getErr funcs i prec)
    {ops : List String} {o : String} (hd : documented[k]? = some (.infixes ops)) (ho : o ∈ ops) (hk : i ≠ k)
    (hi : i < 3) (prev nx : Option (Tok V)) :
    ruleAt (shipped call isUnit mkErr getErr funcs) prec prev (.op o) nx = none := by
  obtain ⟨h1, h2, h3⟩ := infixes_has hd ho h.1
  obtain ⟨-, -, -, -, s1, -, -⟩ := special_has h.1
  have e1 : prec.has o = false := by rw [h.has, h1]; simp [hk]
  have e2 : prec.has "UNIT_DIVIDE" = false := by rw [h.has, s1]; simp; omega
  simp [ruleAt, shipped, Tok.isUnit, Tok.isOp, Option.filter, e1, e2]

theorem rule_slash {i : ℕ} {prec : Level V σ} (h : IsRow call isUnit mkErr getErr funcs i prec)
    (hi : i < 3) (prev nx : Option (Tok V)) :
    ruleAt (shipped call isUnit mkErr getErr funcs) prec prev (.op "/") nx = none :=
  rule_small h (k := 6) rfl (by simp) (by omega) hi prev nx

theorem head_or {T : List (Tok V)} {x : V} {R : List (Tok V)} (h : T = .val x :: R) (nx : Option (Tok V)) :
    T.head?.or nx = some (.val x) := by subst h; rfl

theorem last_or {T : List (Tok V)} {x : V} {R : List (Tok V)} (h : T = R ++ [.val x]) (prev : Option (Tok V)) :
    lastOr prev T = some (.val x) := by subst h; exact lastOr_append _ _ _

/-- `op o` between the phrases `t` and `u` does nothing in row `i`. -/
theorem rule_between {i j k a c : ℕ} {prec : Level V σ} (h : IsRow call isUnit mkErr getErr funcs i prec)
    {ops : List String} {o : String} (hd : documented[k]? = some (.infixes ops)) (ho : o ∈ ops) (hk : i ≠ k)
    {j' : ℕ} {b e b' e' : Bool} {t u : List (Tok V)} {v w : V} (ht : PhraseFrom isUnit f j' a b e t v)
    (hu : PhraseFrom isUnit f j c b' e' u w) (hj' : i ≤ j') (hj : i ≤ j) (hdiv : o = "/" → (e && b') = false)
    (prev nx : Option (Tok V)) :
    ruleAt (shipped call isUnit mkErr getErr funcs) prec (lastOr prev t) (.op o) (u.head?.or nx) = none := by
  by_cases hi : i < 3
  · exact rule_small h hd ho hk hi _ _
  · obtain ⟨-, y, R, rfl, hy⟩ := phrase_ends ht (by omega)
    obtain ⟨⟨x, R', rfl, hx⟩, -⟩ := phrase_ends hu (by omega)
    rw [lastOr_append]
    refine rule_other h hd ho hk ?_
    intro e1 _
    rw [hy, hx]; exact hdiv e1

theorem rule_then {i : ℕ} {prec : Level V σ} (h : IsRow call isUnit mkErr getErr funcs i prec) (hi : i ≠ 14)
    (prev nx : Option (Tok V)) :
    ruleAt (shipped call isUnit mkErr getErr funcs) prec prev (.op "then") nx = none := by
  rw [rule_sign h (by decide) (by decide), (special_has h.1).1]
  simp [hi]

theorem rule_other_branch {i : ℕ} {prec : Level V σ} (h : IsRow call isUnit mkErr getErr funcs i prec)
    (prev nx : Option (Tok V)) :
    ruleAt (shipped call isUnit mkErr getErr funcs) prec prev (.op "else") nx = none := by
  rw [rule_sign h (by decide) (by decide), (special_has h.1).2.1]
  simp

/-- In a phrase of the rows from `j` on no earlier row applies. -/
theorem phrase_still {i j k : ℕ} {prec : Level V σ} (h : IsRow call isUnit mkErr getErr funcs i prec)
    {b e : Bool} {T : List (Tok V)} {v : V} (hp : PhraseFrom isUnit f j k b e T v) (hi : i < j) :
    ∀ (prev nx : Option (Tok V)), Fresh isUnit i prev b →
      Still (shipped call isUnit mkErr getErr funcs) prec prev T nx := by
  induction hp with
  | atom v => exact fun prev nx hf => ⟨rule_fresh h (Or.inr hf) _, trivial⟩
  | up _ ih => exact ih
  | @left k ops o t u v w x b e b' e' hd ho ht hu hx hdiv _ iht ihu =>
    intro prev nx hf
    have hk := phrase_le hu
    rw [still_append, Still]
    refine ⟨iht _ _ ?_, rule_between h hd ho (by omega) ht hu (by omega) (by omega) hdiv prev nx, ihu _ _ (fresh_op _ _)⟩
    unfold edge at hf
    split at hf
    · exact fresh_small (by omega) _ _
    · exact hf
  | @pref k ops o u w x b e hk hd ho _ _ ih =>
    intro prev nx _
    obtain ⟨h1, h2, h3⟩ := prefixes_has hd ho h.1
    have := prefixes_row hd
    refine ⟨?_, ih _ _ (fresh_op _ _)⟩
    rw [rule_sign h h3 h2, h1]
    simp; omega
  | @tern k o s t u r v w y x b e b' e' b'' e'' hd ht hu hr hx iht ihu ihr =>
    intro prev nx hf
    have hk := phrase_le hu
    obtain ⟨rfl, rfl, rfl⟩ := ternary_row hd
    rw [still_append, Still, still_append, Still]
    exact ⟨iht _ _ hf, rule_then h (by omega) _ _, ihu _ _ (fresh_op _ _), rule_other_branch h _ _, ihr _ _ (fresh_op _ _)⟩
  | times _ hu _ _ _ iht ihu =>
    intro prev nx hf
    have hk := phrase_le hu
    rw [still_append]
    exact ⟨iht _ _ hf, ihu _ _ (fresh_small (by omega) _ _)⟩
  | per _ hu _ _ _ iht ihu =>
    intro prev nx hf
    have hk := phrase_le hu
    rw [still_append, Still]
    exact ⟨iht _ _ hf, rule_slash h (by omega) _ _, ihu _ _ (fresh_op _ _)⟩
  | @of t u v w x b e b' e' ht hu hv _ _ _ iht ihu =>
    intro prev nx hf
    have hk := phrase_le hu
    rw [still_append]
    refine ⟨iht _ _ hf, ihu _ _ ?_⟩
    by_cases h3 : i < 3
    · exact fresh_small h3 _ _
    · obtain ⟨rfl, -, -⟩ := phrase_base ht (by omega)
      intro p hp
      cases hp
      rw [hv]
      unfold joins
      split <;> simp <;> omega
  | @next t u v w x b e e' ht hu _ _ iht ihu =>
    intro prev nx hf
    have hk := phrase_le hu
    rw [still_append]
    refine ⟨iht _ _ hf, ihu _ _ ?_⟩
    intro p _
    simp [joins]; omega

/-! ## The first place where something applies -/

/-- Row `prec`, from left to right, first applies an operator at the beginning of `T` after `A`, and
that makes `T'` of `T`. -/
inductive Applies (cfg : Config V σ) (f : String → List V → Except String V) (prec : Level V σ)
    (prev : Option (Tok V)) : List (Tok V) → List (Tok V) → Prop
  | infix {A B : List (Tok V)} {x y z : V} {o sym : String} : Still cfg prec prev (A ++ [.val x]) (some (.op o)) →
      ruleAt cfg prec (some (.val x)) (.op o) (some (.val y)) = some (sym, 1) → f sym [x, y] = .ok z →
      inputsS sym = some ([none], [none]) ∨ sym = "UNIT_DIVIDE" →
      Applies cfg f prec prev (A ++ .val x :: .op o :: .val y :: B) (A ++ .val z :: B)
  | next {A B : List (Tok V)} {x y z : V} {sym : String} : Still cfg prec prev (A ++ [.val x]) (some (.val y)) →
      (∀ nx, ruleAt cfg prec (some (.val x)) (.val y) nx = some (sym, 0)) → f sym [x, y] = .ok z →
      sym ∈ ["UNIT_MULTIPLY", "UNIT_ASSIGNMENT", "IMPLICIT_MULTIPLY"] →
      Applies cfg f prec prev (A ++ .val x :: .val y :: B) (A ++ .val z :: B)
  | ternary {A B : List (Tok V)} {x y w z : V} : Still cfg prec prev (A ++ [.val x]) (some (.op "then")) →
      ruleAt cfg prec (some (.val x)) (.op "then") (some (.val y)) = some ("then", 1) → f "then" [x, y, w] = .ok z →
      Applies cfg f prec prev (A ++ .val x :: .op "then" :: .val y :: .op "else" :: .val w :: B) (A ++ .val z :: B)

theorem applies_left {cfg : Config V σ} {prec : Level V σ} {prev : Option (Tok V)} {T T' : List (Tok V)}
    (h : Applies cfg f prec prev T T') (R : List (Tok V)) : Applies cfg f prec prev (T ++ R) (T' ++ R) := by
  cases h with
  | @«infix» A B x y z o sym h1 h2 h3 h4 =>
    rw [List.append_assoc, List.append_assoc]
    exact .infix h1 h2 h3 h4
  | next h1 h2 h3 h4 =>
    rw [List.append_assoc, List.append_assoc]
    exact .next h1 h2 h3 h4
  | ternary h1 h2 h3 =>
    rw [List.append_assoc, List.append_assoc]
    exact .ternary h1 h2 h3

theorem applies_right {cfg : Config V σ} {prec : Level V σ} {prev : Option (Tok V)} {T T' S : List (Tok V)}
    (hs : Still cfg prec prev S T.head?) (h : Applies cfg f prec (lastOr prev S) T T') :
    Applies cfg f prec prev (S ++ T) (S ++ T') := by
  have key : ∀ (A R : List (Tok V)) (x : V) (nx : Option (Tok V)), T = A ++ .val x :: R →
      Still cfg prec (lastOr prev S) (A ++ [.val x]) nx → Still cfg prec prev (S ++ A ++ [.val x]) nx := by
    intro A R x nx hT h
    rw [List.append_assoc, still_append]
    refine ⟨?_, h⟩
    have : (A ++ [Tok.val x]).head?.or nx = T.head? := by
      subst hT
      cases A <;> simp
    rw [this]; exact hs
  cases h with
  | @«infix» A B x y z o sym h1 h2 h3 h4 =>
    rw [← List.append_assoc, ← List.append_assoc]
    exact .infix (key _ _ _ _ rfl h1) h2 h3 h4
  | next h1 h2 h3 h4 =>
    rw [← List.append_assoc, ← List.append_assoc]
    exact .next (key _ _ _ _ rfl h1) h2 h3 h4
  | ternary h1 h2 h3 =>
    rw [← List.append_assoc, ← List.append_assoc]
    exact .ternary (key _ _ _ _ rfl h1) h2 h3

/-- What one application in row `j` leaves. -/
def LeavesPhrase (isUnit : V → Bool) (f : String → List V → Except String V) (j k : ℕ) (b e : Bool)
    (T' : List (Tok V)) (v : V) : Prop :=
  ∃ b' e', PhraseFrom isUnit f j k b' e' T' v ∧ (j ≤ 6 → (b' = true → b = true) ∧ (e' = true → e = true))

theorem and_le {e b e' b' : Bool} (he : e' = true → e = true) (hb : b' = true → b = true) (h : (e && b) = false) : (e' && b') = false := by
  cases e <;> cases b <;> cases e' <;> cases b' <;> simp_all

theorem edge_le {k : ℕ} {b b' : Bool} (x : V) (h : b' = true → b = true) : edge isUnit k b' x = true → edge isUnit k b x = true := by
  unfold edge
  split
  · exact id
  · exact h

theorem fresh_edge {i j k : ℕ} {prev : Option (Tok V)} {b : Bool} {x : V} (hij : i ≤ j) (hk : j ≤ k)
    (h : Fresh isUnit i prev (edge isUnit k b x)) : Fresh isUnit i prev b := by
  unfold edge at h
  split at h
  · exact fresh_small (by omega) _ _
  · exact h

theorem infixes_inputs {k : ℕ} {ops : List String} {o : String} (h : documented[k]? = some (.infixes ops))
    (ho : o ∈ ops) : inputsS o = some ([none], [none]) ∧ k ≠ 1 ∧ k ≠ 3 ∧ k ≠ 4 ∧ k ≠ 5 := by
  have hk := (List.getElem?_eq_some_iff.mp h).1
  have key : ∀ k < 16, (match documented[k]? with
      | some (RowKind.infixes ops) => ops.all (fun o => inputsS o == some ([none], [none])) &&
          decide (k ≠ 1 ∧ k ≠ 3 ∧ k ≠ 4 ∧ k ≠ 5)
      | _ => true) = true := by
    decide +kernel
  have := key k hk
  rw [h] at this
  simp only [List.all_eq_true, Bool.and_eq_true, beq_iff_eq, decide_eq_true_eq] at this
  exact ⟨this.1 o ho, this.2⟩

/-- In a phrase of the rows from `j` on, either row `j` is not used, or its first use can be applied
and leaves such a phrase. -/
theorem phrase_applies {j k : ℕ} {prec : Level V σ} (h : IsRow call isUnit mkErr getErr funcs j prec)
    (hj1 : j ≠ 1) {b e : Bool} {T : List (Tok V)} {v : V} (hp : PhraseFrom isUnit f j k b e T v) (hjk : j < k) :
    ∀ (prev : Option (Tok V)), Fresh isUnit j prev b →
      PhraseFrom isUnit f (j + 1) k b e T v ∨
      ∃ T', Applies (shipped call isUnit mkErr getErr funcs) f prec prev T T' ∧ LeavesPhrase isUnit f j k b e T' v := by
  induction hp with
  | atom v => omega
  | @up k b e t v ht ih =>
    intro prev hf
    by_cases hk : k = j
    · obtain ⟨rfl, rfl, rfl⟩ := phrase_base ht hk
      subst hk
      exact .inl (.atom v)
    · have := phrase_le ht
      rcases ih (by omega) prev hf with h | ⟨T', h1, b', e', h2, h3⟩
      · exact .inl (.up h)
      · exact .inr ⟨T', h1, b', e', .up h2, h3⟩
  | @left k ops o t u v w x b e b' e' hd ho ht hu hx hdiv h6 iht ihu =>
    intro prev hf
    have hk := phrase_le hu
    obtain ⟨hin, hk1, hk3, hk4, hk5⟩ := infixes_inputs hd ho
    have hsl : o = "/" → j ≤ 6 := fun e => by have := (infixes_has hd ho h.1).2.1 e; omega
    have hft := fresh_edge (Nat.le_refl j) hk hf
    rcases iht (by omega) prev hft with h1 | ⟨t', h1, b1, e1, h2, h3⟩
    · by_cases hkj : k = j
      · subst hkj
        obtain ⟨rfl, rfl, rfl⟩ := phrase_base h1 rfl
        obtain ⟨rfl, rfl, rfl⟩ := phrase_base hu rfl
        refine .inr ⟨[.val x], .infix (A := []) (B := []) ⟨rule_fresh h (Or.inr hft) _, trivial⟩ ?_ hx (Or.inl hin), _, _,
          .up (.atom x), ?_⟩
        · obtain ⟨g1, g2, g3⟩ := infixes_has hd ho h.1
          by_cases hs : o = "/"
          · subst hs
            rw [rule_divide h, hdiv rfl, g2 rfl]
            simp
          · rw [rule_sign h g3 hs, g1]
            simp
        · intro h6'
          unfold edge
          split
          · exact ⟨id, id⟩
          · by_cases hk6 : k = 6
            · exact ⟨fun g => (h6 hk6 g).1, fun g => (h6 hk6 g).2⟩
            · exfalso; omega
      · rcases ihu (by omega) (some (.op o)) (fresh_op _ _) with h2 | ⟨u', h2, b2, e2, h3, h4⟩
        · exact .inl (.left hd ho h1 h2 hx hdiv h6)
        · refine .inr ⟨t ++ .op o :: u', ?_, _, _, .left hd ho ht h3 hx ?_ h6, ?_⟩
          · have := applies_right (S := t ++ [.op o]) (prev := prev) (T := u) (T' := u') (f := f)
              (cfg := shipped call isUnit mkErr getErr funcs) (prec := prec) ?_ (by rw [lastOr_append]; exact h2)
            · simpa using this
            · rw [still_append]
              refine ⟨phrase_still h h1 (by omega) prev _ hft, ?_, trivial⟩
              have := rule_between h hd ho (by omega) h1 hu (by omega) (by omega) hdiv prev none
              simpa using this
          · exact fun e => and_le (id) (h4 (hsl e)).1 (hdiv e)
          · exact fun e => ⟨id, edge_le x (h4 e).2⟩
    · refine .inr ⟨t' ++ .op o :: u, applies_left h1 _, _, _, .left hd ho h2 hu hx ?_ h6, ?_⟩
      · exact fun e => and_le (h3 (hsl e)).2 (id) (hdiv e)
      · exact fun e => ⟨edge_le x (h3 e).1, id⟩
  | @pref k ops o u w x b e hk hd ho hu hx ih =>
    intro prev _
    obtain ⟨h1, h2, h3⟩ := prefixes_has hd ho h.1
    have := prefixes_row hd
    rcases ih (by omega) (some (.op o)) (fresh_op _ _) with g | ⟨u', g1, b1, e1, g2, g3⟩
    · exact .inl (.pref (by omega) hd ho g hx)
    · refine .inr ⟨.op o :: u', ?_, _, _, .pref hk hd ho g2 hx, fun _ => ⟨id, id⟩⟩
      refine applies_right (S := [.op o]) ⟨?_, trivial⟩ g1
      rw [rule_sign h h3 h2, h1]
      simp; omega
  | @tern k o s t u r v w y x b e b' e' b'' e'' hd ht hu hr hx iht ihu ihr =>
    intro prev hf
    have hk := phrase_le hu
    obtain ⟨rfl, rfl, rfl⟩ := ternary_row hd
    rcases iht (by omega) prev hf with h1 | ⟨t', h1, b1, e1, h2, h3⟩
    · by_cases hkj : 14 = j
      · subst hkj
        obtain ⟨rfl, rfl, rfl⟩ := phrase_base h1 rfl
        obtain ⟨rfl, rfl, rfl⟩ := phrase_base hu rfl
        obtain ⟨rfl, rfl, rfl⟩ := phrase_base hr rfl
        refine .inr ⟨[.val x], .ternary (A := []) (B := []) ⟨rule_fresh h (Or.inr hf) _, trivial⟩ ?_ hx, _, _,
          .up (.atom x), fun h => by omega⟩
        rw [rule_sign h (by decide) (by decide), (special_has h.1).1]
        simp
      · have hS : Still (shipped call isUnit mkErr getErr funcs) prec prev (t ++ [.op "then"]) u.head? := by
          rw [still_append]
          exact ⟨phrase_still h h1 (by omega) prev _ hf, rule_then h (Ne.symm hkj) _ _, trivial⟩
        rcases ihu (by omega) (some (.op "then")) (fresh_op _ _) with h2 | ⟨u', h2, b2, e2, h3, h4⟩
        · rcases ihr (by omega) (some (.op "else")) (fresh_op _ _) with h5 | ⟨r', h5, b5, e5, h6, h7⟩
          · exact .inl (.tern hd h1 h2 h5 hx)
          · refine .inr ⟨t ++ .op "then" :: (u ++ .op "else" :: r'), ?_, _, _, .tern hd ht hu h6 hx,
              fun e => ⟨id, (h7 e).2⟩⟩
            have := applies_right (S := t ++ [.op "then"] ++ u ++ [.op "else"]) (prev := prev) (T := r) (T' := r')
              (f := f) (cfg := shipped call isUnit mkErr getErr funcs) (prec := prec) ?_
              (by rw [lastOr_append]; exact h5)
            · simpa using this
            · rw [still_append, still_append]
              refine ⟨⟨?_, ?_⟩, rule_other_branch h _ _, trivial⟩
              · obtain ⟨y, R, e⟩ : ∃ y R, u = y :: R := by
                  obtain ⟨y, R, rfl⟩ := phrase_last hu
                  cases R with
                  | nil => exact ⟨_, _, rfl⟩
                  | cons a R => exact ⟨_, _, rfl⟩
                rw [e] at hS ⊢
                exact hS
              · rw [lastOr_append]
                exact phrase_still h h2 (by omega) _ _ (fresh_op _ _)
        · refine .inr ⟨t ++ .op "then" :: (u' ++ .op "else" :: r), ?_, _, _, .tern hd ht h3 hr hx,
              fun e => ⟨id, id⟩⟩
          have := applies_right (S := t ++ [.op "then"]) (prev := prev) (T := u ++ .op "else" :: r)
            (T' := u' ++ .op "else" :: r) (f := f) (cfg := shipped call isUnit mkErr getErr funcs) (prec := prec) ?_
            (by rw [lastOr_append]; exact applies_left h2 _)
          · simpa using this
          · obtain ⟨y, R, e⟩ : ∃ y R, u = y :: R := by
              obtain ⟨y, R, rfl⟩ := phrase_last hu
              cases R with
              | nil => exact ⟨_, _, rfl⟩
              | cons a R => exact ⟨_, _, rfl⟩
            rw [e] at hS ⊢
            exact hS
    · exact .inr ⟨t' ++ .op "then" :: (u ++ .op "else" :: r), applies_left h1 _, _, _, .tern hd h2 hu hr hx,
        fun e => ⟨(h3 e).1, id⟩⟩
  | @times t u v w x b e b' e' ht hu hv hw hx iht ihu =>
    intro prev hf
    have hk := phrase_le hu
    rcases iht (by omega) prev hf with h1 | ⟨t', h1, b1, e1, h2, h3⟩
    · by_cases hkj : 3 = j
      · subst hkj
        obtain ⟨rfl, rfl, rfl⟩ := phrase_base h1 rfl
        obtain ⟨rfl, rfl, rfl⟩ := phrase_base hu rfl
        refine .inr ⟨[.val x], .next (A := []) (B := []) ⟨rule_fresh h (Or.inr hf) _, trivial⟩ ?_ hx (by simp), _, _,
          .up (.atom x), ?_⟩
        · intro nx
          rw [rule_adjacent h, hv, hw]
          simp [joins, joinOp]
        · rw [hv, hw]
          exact fun _ => ⟨fun _ => rfl, fun _ => rfl⟩
      · rcases ihu (by omega) (lastOr prev t) (fresh_small (by omega) _ _) with h2 | ⟨u', h2, b2, e2, h3, h4⟩
        · exact .inl (.times h1 h2 hv hw hx)
        · exact .inr ⟨t ++ u', applies_right (phrase_still h h1 (by omega) prev _ hf) h2, _, _,
            .times ht h3 hv hw hx, fun e => ⟨id, (h4 e).2⟩⟩
    · exact .inr ⟨t' ++ u, applies_left h1 _, _, _, .times h2 hu hv hw hx, fun e => ⟨(h3 e).1, id⟩⟩
  | @per t u v w x b e b' e' ht hu hv hw hx iht ihu =>
    intro prev hf
    have hk := phrase_le hu
    rcases iht (by omega) prev hf with h1 | ⟨t', h1, b1, e1, h2, h3⟩
    · by_cases hkj : 3 = j
      · subst hkj
        obtain ⟨rfl, rfl, rfl⟩ := phrase_base h1 rfl
        obtain ⟨rfl, rfl, rfl⟩ := phrase_base hu rfl
        refine .inr ⟨[.val x], .infix (A := []) (B := []) ⟨rule_fresh h (Or.inr hf) _, trivial⟩ ?_ hx (.inr rfl), _, _,
          .up (.atom x), ?_⟩
        · rw [rule_divide h, hv, hw]
          simp
        · rw [hv, hw]
          exact fun _ => ⟨fun _ => rfl, fun _ => rfl⟩
      · rcases ihu (by omega) (some (.op "/")) (fresh_op _ _) with h2 | ⟨u', h2, b2, e2, h3, h4⟩
        · exact .inl (.per h1 h2 hv hw hx)
        · refine .inr ⟨t ++ .op "/" :: u', ?_, _, _, .per ht h3 hv hw hx, fun e => ⟨id, (h4 e).2⟩⟩
          have := applies_right (S := t ++ [.op "/"]) (prev := prev) (T := u) (T' := u') (f := f)
              (cfg := shipped call isUnit mkErr getErr funcs) (prec := prec) ?_ (by rw [lastOr_append]; exact h2)
          · simpa using this
          · rw [still_append]
            exact ⟨phrase_still h h1 (by omega) prev _ hf, rule_slash h (by omega) _ _, trivial⟩
    · exact .inr ⟨t' ++ .op "/" :: u, applies_left h1 _, _, _, .per h2 hu hv hw hx, fun e => ⟨(h3 e).1, id⟩⟩
  | @of t u v w x b e b' e' ht hu hv hw hx hxu iht ihu =>
    intro prev hf
    have hk := phrase_le hu
    by_cases hkj : 4 = j
    · subst hkj
      obtain ⟨rfl, rfl, rfl⟩ := phrase_base ht rfl
      obtain ⟨rfl, rfl, rfl⟩ := phrase_base hu rfl
      refine .inr ⟨[.val x], .next (A := []) (B := []) ⟨rule_fresh h (Or.inr hf) _, trivial⟩ ?_ hx (by simp), _, _,
        .up (.atom x), ?_⟩
      · intro nx
        rw [rule_adjacent h, hv, hw]
        simp [joins, joinOp]
      · rw [hxu]
        exact fun _ => ⟨nofun, nofun⟩
    · rcases iht (by omega) prev hf with h1 | ⟨t', h1, b1, e1, h2, h3⟩
      · have hfu : Fresh isUnit j (lastOr prev t) b' := by
          by_cases h3 : j < 3
          · exact fresh_small h3 _ _
          · obtain ⟨rfl, -, -⟩ := phrase_base h1 (by omega)
            intro p hp
            cases hp
            rw [hv]
            unfold joins
            split <;> simp <;> omega
        rcases ihu (by omega) (lastOr prev t) hfu with h2 | ⟨u', h2, b2, e2, h3, h4⟩
        · exact .inl (.of h1 h2 hv hw hx hxu)
        · exact .inr ⟨t ++ u', applies_right (phrase_still h h1 (by omega) prev _ hf) h2, _, _,
            .of ht h3 hv hw hx hxu, fun e => ⟨id, (h4 e).2⟩⟩
      · exact .inr ⟨t' ++ u, applies_left h1 _, _, _, .of h2 hu hv hw hx hxu, fun e => ⟨(h3 e).1, id⟩⟩
  | @next t u v w x b e e' ht hu hx hxu iht ihu =>
    intro prev hf
    have hk := phrase_le hu
    rcases iht (by omega) prev hf with h1 | ⟨t', h1, b1, e1, h2, h3⟩
    · by_cases hkj : 5 = j
      · subst hkj
        obtain ⟨rfl, rfl, rfl⟩ := phrase_base h1 rfl
        obtain ⟨rfl, hw, rfl⟩ := phrase_base hu rfl
        refine .inr ⟨[.val x], .next (A := []) (B := []) ⟨rule_fresh h (Or.inr hf) _, trivial⟩ ?_ hx (by simp), _, _,
          .up (.atom x), ?_⟩
        · intro nx
          rw [rule_adjacent h, ← hw]
          simp [joins, joinOp]
        · rw [hxu]
          exact fun _ => ⟨nofun, nofun⟩
      · rcases ihu (by omega) (lastOr prev t) (by intro p _; simp [joins]; omega) with
          h2 | ⟨u', h2, b2, e2, h3, h4⟩
        · exact .inl (.next h1 h2 hx hxu)
        · have hb : b2 = false := by
            have := (h4 (by omega)).1
            cases b2 <;> simp_all
          subst hb
          exact .inr ⟨t ++ u', applies_right (phrase_still h h1 (by omega) prev _ hf) h2, _, _,
            .next ht h3 hx hxu, fun e => ⟨id, (h4 e).2⟩⟩
    · exact .inr ⟨t' ++ u, applies_left h1 _, _, _, .next h2 hu hx hxu, fun e => ⟨(h3 e).1, id⟩⟩

end
end MC.Props
