import Mathlib.Data.List.Basic
import Mathlib.Data.List.Nodup
import Mathlib.Data.List.Flatten
import Mathlib.Tactic.Common
import Verif.Spec.Engine

/-! # Lemmas about the operator loop -/

namespace MC
open Spec

variable {V σ : Type} (cfg : Config V σ)

/-- The row of an operator: the first level that has its symbol. -/
def rowOf (s : String) : Option ℕ := cfg.ops.findIdx? (fun l => l.has s)

/-- Whether row `k` is evaluated from right to left: the flag of its first operator. -/
def rtlOf (k : ℕ) : Bool := (cfg.ops[k]?).any (fun l => l.head.2.rtl)

/-- The inputs of the operators that can be written; the symbols of the invisible operators
cannot. -/
def inputsOf (s : String) : Option (List (Option String) × List (Option String)) :=
  if some s ∈ [cfg.unitMul, cfg.unitDiv, cfg.implicitMul] then none
  else (opsList cfg s).map (fun d => (d.linputs, d.rinputs))

/-- What the precedence theorem asks of a table.  `f` is what the operators do; `P` is a
property of values (such as "not a unit") that operators preserve. -/
structure PlainTable (f : String → List V → Except String V) (P : V → Prop) : Prop where
  /-- no symbol occurs twice -/
  nodup : ((cfg.ops.flatMap Level.entries).map Prod.fst).Nodup
  /-- operators compute `f` and leave the state alone -/
  sem : ∀ s d, opsList cfg s = some d → ∀ ins st, (∀ v ∈ ins, P v) →
    d.call ins st = ((f s ins).mapError (fun m => Raise.calc m), st)
  closed : ∀ s ins v, (∀ x ∈ ins, P x) → f s ins = .ok v → P v
  err : ∀ e, P (cfg.mkErr e)
  notUnit : ∀ v, P v → cfg.isUnit v = false
  /-- the symbols inside an operator (such as `else`) are not operators themselves -/
  syms : ∀ s d, opsList cfg s = some d → ∀ x, some x ∈ d.rinputs → rowOf cfg x = none
  /-- two operands of an operator are separated by a symbol -/
  apart : ∀ s d, opsList cfg s = some d →
    d.rinputs.IsChain (fun a b => ¬ (a = none ∧ b = none))
  /-- the invisible operator joins two operands -/
  juxt : ∀ s d, cfg.implicitMul = some s → opsList cfg s = some d →
    d.linputs = [none] ∧ d.rinputs = [none]

section table
variable {cfg}

theorem Level.has_iff (l : Level V σ) (s : String) :
    l.has s = true ↔ ∃ d, (s, d) ∈ l.entries := by
  unfold Level.has
  simp only [List.any_eq_true, beq_iff_eq]
  constructor
  · rintro ⟨⟨a, d⟩, h, rfl⟩; exact ⟨d, h⟩
  · rintro ⟨d, h⟩; exact ⟨(s, d), h, rfl⟩

theorem row_unique (hn : ((cfg.ops.flatMap Level.entries).map Prod.fst).Nodup)
    {j k : ℕ} {a b : Level V σ} {s : String} (ha : cfg.ops[j]? = some a)
    (hb : cfg.ops[k]? = some b) (has : a.has s) (hbs : b.has s) : j = k := by
  rw [List.map_flatMap, List.nodup_flatMap] at hn
  obtain ⟨_, hp⟩ := hn
  rw [List.pairwise_iff_getElem] at hp
  obtain ⟨hj, rfl⟩ := List.getElem?_eq_some_iff.mp ha
  obtain ⟨hk, rfl⟩ := List.getElem?_eq_some_iff.mp hb
  obtain ⟨d, hd⟩ := (Level.has_iff _ _).mp has
  obtain ⟨e, he⟩ := (Level.has_iff _ _).mp hbs
  have m1 : s ∈ (cfg.ops[j].entries.map Prod.fst) := List.mem_map.mpr ⟨_, hd, rfl⟩
  have m2 : s ∈ (cfg.ops[k].entries.map Prod.fst) := List.mem_map.mpr ⟨_, he, rfl⟩
  rcases Nat.lt_trichotomy j k with h | h | h
  · exact absurd m2 (List.disjoint_left.mp (hp j k hj hk h) m1)
  · exact h
  · exact absurd m1 (List.disjoint_left.mp (hp k j hk hj h) m2)

theorem rowOf_some {s : String} {k : ℕ} (h : rowOf cfg s = some k) :
    ∃ l, cfg.ops[k]? = some l ∧ l.has s = true := by
  unfold rowOf at h
  rw [List.findIdx?_eq_some_iff_getElem] at h
  obtain ⟨hk, hs, _⟩ := h
  exact ⟨_, List.getElem?_eq_getElem hk, hs⟩

theorem has_row (hn : ((cfg.ops.flatMap Level.entries).map Prod.fst).Nodup)
    {k : ℕ} {l : Level V σ} {s : String} (hl : cfg.ops[k]? = some l) :
    l.has s = true ↔ rowOf cfg s = some k := by
  constructor
  · intro h
    cases hr : rowOf cfg s with
    | none =>
      unfold rowOf at hr
      rw [List.findIdx?_eq_none_iff] at hr
      have := hr l (List.mem_of_getElem? hl)
      simp [h] at this
    | some j =>
      obtain ⟨l', hl', hs'⟩ := rowOf_some hr
      rw [row_unique hn hl' hl hs' h]
  · intro h
    obtain ⟨l', hl', hs'⟩ := rowOf_some h
    rw [hl] at hl'; injection hl' with e; rw [e]; exact hs'

theorem mem_lookup_nodup {α : Type} {s : String} {d : α} : ∀ {l : List (String × α)},
    (l.map Prod.fst).Nodup → (s, d) ∈ l → l.lookup s = some d
  | [], _, h => by simp at h
  | (a, b) :: l, hn, h => by
    rw [List.map_cons, List.nodup_cons] at hn
    rw [List.lookup_cons]
    rcases List.mem_cons.mp h with e | e
    · injection e with e1 e2; subst e1; subst e2; simp
    · have : s ≠ a := by
        rintro rfl
        exact hn.1 (List.mem_map.mpr ⟨_, e, rfl⟩)
      have hb : (s == a) = false := by simpa using this
      rw [hb]; exact mem_lookup_nodup hn.2 e

theorem opsList_of_mem (hn : ((cfg.ops.flatMap Level.entries).map Prod.fst).Nodup)
    {l : Level V σ} {s : String} {d : OpDef V σ} (hl : l ∈ cfg.ops) (hd : (s, d) ∈ l.entries) :
    opsList cfg s = some d := by
  unfold opsList
  apply mem_lookup_nodup
  · rw [List.map_reverse, List.nodup_reverse]; exact hn
  · rw [List.mem_reverse, List.mem_flatMap]; exact ⟨l, hl, hd⟩

theorem opsList_head (hn : ((cfg.ops.flatMap Level.entries).map Prod.fst).Nodup)
    {l : Level V σ} (hl : l ∈ cfg.ops) : opsList cfg l.head.1 = some l.head.2 :=
  opsList_of_mem hn hl (List.mem_cons_self ..)

end table

/-! ## The rule without units -/

/-- The rule of one level when no item is a unit. -/
def rule0 (prec : Level V σ) (prev : Option (Tok V)) (item : Tok V) : Option (String × ℕ) :=
  match item with
  | .op o =>
    if prec.has o && !(decide (some o ∈ [cfg.unitMul, cfg.unitDiv, cfg.implicitMul]))
    then some (o, 1) else none
  | .val _ =>
    match prev with
    | some (.val _) => (cfg.implicitMul.filter (fun s => prec.has s)).map (fun s => (s, 0))
    | _ => none

/-- Not a unit. -/
def plain (t : Tok V) : Prop := t.isUnit cfg = false

theorem ruleAt_eq (prec : Level V σ) (prev : Option (Tok V)) (item : Tok V)
    (next : Option (Tok V)) (h1 : ∀ t ∈ prev, plain cfg t) (h2 : plain cfg item) :
    ruleAt cfg prec prev item next = rule0 cfg prec prev item := by
  unfold plain at h1 h2
  have hp : prev.any (Tok.isUnit cfg) = false := by
    cases prev with
    | none => rfl
    | some t => simpa using h1 t rfl
  unfold ruleAt rule0
  simp only [hp, h2]
  cases item with
  | op o =>
    cases cfg.unitAssign <;> cases cfg.unitMul <;> cases cfg.unitDiv <;> cases cfg.implicitMul <;>
      simp [Option.filter, Tok.isOp]
  | val v =>
    rcases prev with _ | (_ | _) <;>
    cases cfg.unitAssign <;> cases cfg.unitMul <;> cases cfg.unitDiv <;> cases cfg.implicitMul <;>
      simp [Option.filter, Tok.isOp] <;> split <;> simp_all <;>
      grind

/-- Left to right scan without units. -/
def scanL0 (prec : Level V σ) : Option (Tok V) → List (Item V) → Option (ℕ × String × ℕ)
  | _, [] => none
  | prev, it :: rest =>
    match rule0 cfg prec prev it.tok with
    | some r => some (0, r)
    | none => (scanL0 prec (some it.tok) rest).map (fun x => (x.1 + 1, x.2))

/-- Right to left scan without units. -/
def scanR0 (prec : Level V σ) : Option (Tok V) → List (Item V) → Option (ℕ × String × ℕ)
  | _, [] => none
  | prev, it :: rest =>
    match scanR0 prec (some it.tok) rest with
    | some x => some (x.1 + 1, x.2)
    | none => (rule0 cfg prec prev it.tok).map (fun r => (0, r))

theorem scanL_eq (prec : Level V σ) : ∀ (items : List (Item V)) (prev : Option (Tok V)),
    (∀ t ∈ prev, plain cfg t) → (∀ it ∈ items, plain cfg it.tok) →
    scanL cfg prec prev items = scanL0 cfg prec prev items
  | [], _, _, _ => rfl
  | it :: rest, prev, h1, h2 => by
    have hi := h2 it (List.mem_cons_self ..)
    unfold scanL scanL0
    rw [ruleAt_eq cfg prec prev it.tok _ h1 hi,
      scanL_eq prec rest (some it.tok) (by simpa using hi)
        (fun x hx => h2 x (List.mem_cons_of_mem _ hx))]
    cases rule0 cfg prec prev it.tok <;> rfl

theorem scanR_eq (prec : Level V σ) : ∀ (items : List (Item V)) (prev : Option (Tok V)),
    (∀ t ∈ prev, plain cfg t) → (∀ it ∈ items, plain cfg it.tok) →
    scanR cfg prec prev items = scanR0 cfg prec prev items
  | [], _, _, _ => rfl
  | it :: rest, prev, h1, h2 => by
    have hi := h2 it (List.mem_cons_self ..)
    unfold scanR scanR0
    rw [ruleAt_eq cfg prec prev it.tok _ h1 hi,
      scanR_eq prec rest (some it.tok) (by simpa using hi)
        (fun x hx => h2 x (List.mem_cons_of_mem _ hx))]
    rfl

/-- The token before a list's end. -/
def lastTok (prev : Option (Tok V)) : List (Item V) → Option (Tok V)
  | [] => prev
  | it :: rest => lastTok (some it.tok) rest

@[simp] theorem lastTok_append (prev : Option (Tok V)) : ∀ (a b : List (Item V)),
    lastTok prev (a ++ b) = lastTok (lastTok prev a) b
  | [], _ => rfl
  | it :: a, b => by simp only [List.cons_append, lastTok]; exact lastTok_append _ a b

/-- Nothing applies anywhere in the list. -/
def Quiet (prec : Level V σ) : Option (Tok V) → List (Item V) → Prop
  | _, [] => True
  | prev, it :: rest => rule0 cfg prec prev it.tok = none ∧ Quiet prec (some it.tok) rest

theorem quiet_append (prec : Level V σ) : ∀ (a b : List (Item V)) (prev : Option (Tok V)),
    Quiet cfg prec prev (a ++ b) ↔ Quiet cfg prec prev a ∧ Quiet cfg prec (lastTok prev a) b
  | [], b, prev => by simp [Quiet, lastTok]
  | it :: a, b, prev => by
    simp only [List.cons_append, Quiet, lastTok]
    rw [quiet_append prec a b]; tauto

/-- Move a found position by `n`. -/
def shift (n : ℕ) (x : ℕ × String × ℕ) : ℕ × String × ℕ := (x.1 + n, x.2)

theorem scanL0_append (prec : Level V σ) : ∀ (a b : List (Item V)) (prev : Option (Tok V)),
    scanL0 cfg prec prev (a ++ b) = match scanL0 cfg prec prev a with
      | some x => some x
      | none => (scanL0 cfg prec (lastTok prev a) b).map (shift a.length)
  | [], b, prev => by
    have : shift 0 = id := by funext x; simp [shift]
    simp [scanL0, lastTok, this]
  | it :: a, b, prev => by
    simp only [List.cons_append, scanL0, lastTok]
    cases rule0 cfg prec prev it.tok with
    | some r => rfl
    | none =>
      simp only
      rw [scanL0_append prec a b]
      cases scanL0 cfg prec (some it.tok) a with
      | some r => rfl
      | none =>
        simp only [Option.map_none, Option.map_map, List.length_cons]
        congr 1

theorem scanR0_append (prec : Level V σ) : ∀ (a b : List (Item V)) (prev : Option (Tok V)),
    scanR0 cfg prec prev (a ++ b) = match scanR0 cfg prec (lastTok prev a) b with
      | some x => some (shift a.length x)
      | none => scanR0 cfg prec prev a
  | [], b, prev => by
    simp only [List.nil_append, scanR0, lastTok]
    cases scanR0 cfg prec prev b <;> simp [shift]
  | it :: a, b, prev => by
    simp only [List.cons_append, scanR0, lastTok]
    rw [scanR0_append prec a b]
    cases scanR0 cfg prec (lastTok (some it.tok) a) b with
    | some r => simp [shift, Nat.add_assoc]
    | none => rfl

theorem scanL0_none (prec : Level V σ) : ∀ (a : List (Item V)) (prev : Option (Tok V)),
    Quiet cfg prec prev a → scanL0 cfg prec prev a = none
  | [], _, _ => rfl
  | it :: a, prev, h => by
    simp only [scanL0, h.1, scanL0_none prec a _ h.2]; rfl

theorem scanR0_none (prec : Level V σ) : ∀ (a : List (Item V)) (prev : Option (Tok V)),
    Quiet cfg prec prev a → scanR0 cfg prec prev a = none
  | [], _, _ => rfl
  | it :: a, prev, h => by
    simp only [scanR0, h.1, scanR0_none prec a _ h.2]; rfl

end MC
