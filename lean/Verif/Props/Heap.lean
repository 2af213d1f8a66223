import Verif.Lemmas.EngineRel
import Verif.Spec.Heap

/-! # C57: evaluating an expression without assignment leaves the variables alone -/

namespace MC.Props
open MC.Heap MC.Spec
set_option linter.unusedSectionVars false

variable {K U R : Type} {c : HSt K U R → Calc (HS K) U R K}
  {op : Operation (HS K) U R (HSt K U R)}

/-- The implementation does not change the variables or any object. -/
def Leaves (op : Operation (HS K) U R (HSt K U R)) : Prop := ∀ ys s, (op.ref ys s).2 = s

section keeps
variable {rel : HSt K U R → HSt K U R → Prop} (hr : ∀ s, rel s s)
  (ht : ∀ {a b c}, rel a b → rel b c → rel a c)
include hr

theorem callScalarH_keeps (hl : Leaves op) (h : ∀ s xs ys ru k res x,
      prepare (c s) op xs = .ok (ys, ru, some k) → op.ref ys s = (.ok res, s) →
      res.value = .sc x → op.convertOut = true → rel s (assignCast x k s))
    (xs : List (Opd (HS K) U R)) : Keeps rel (callScalarH c op xs) := by
  intro s
  have h1 : rel s (attemptH c op xs s).2 := by
    unfold attemptH
    cases hv : validate (c s) op xs with
    | error e => exact hr s
    | ok u =>
      simp only
      cases hp : prepare (c s) op xs with
      | error e => exact hr s
      | ok q =>
        obtain ⟨ys, ru, k⟩ := q
        simp only
        have h2 := hl ys s
        cases ho : op.ref ys s with
        | mk res s' =>
          rw [ho] at h2
          simp only at h2
          subst h2
          cases res with
          | error e => exact hr _
          | ok res =>
            simp only
            split
            · rename_i x k hx
              split
              · rename_i hc
                exact h _ xs ys ru k res x hp ho hx (by
                  rw [Bool.and_eq_true] at hc; exact hc.1)
              · exact hr _
            · exact hr _
  unfold callScalarH
  split
  · exact hr s
  · cases ha : attemptH c op xs s with
    | mk res s' => rw [ha] at h1; cases res <;> exact h1

include ht

theorem callH_keeps (h : ∀ xs, Keeps rel (callScalarH c op xs)) (xs : List (Opd (HS K) U R)) :
    Keeps rel (callH c op xs) := by
  have last : ∀ (f : ℕ) (xs : List (Opd (HS K) U R)) (s : HSt K U R), spreads op 0 xs = [] →
      rel s (callFH c op f xs s).2 := by
    intro f xs s hs
    rw [callFH, hs]
    simp only
    split
    · split
      · split
        · exact h _ s
        · rename_i l ls _
          have h1 := eachCollected_keeps hr ht h (fun k => collect k xs) (List.range l.length) s
          cases hb : eachCollected (callScalarH c op) (fun k => collect k xs)
              (List.range l.length) s with
          | mk res s' => rw [hb] at h1; cases res <;> exact h1
      · exact hr s
    · exact h _ s
  have all : ∀ (f : ℕ) (xs : List (Opd (HS K) U R)), Keeps rel (callFH c op f xs) := by
    intro f
    induction f with
    | zero =>
      intro xs s
      rw [callFH]
      cases hs : spreads op 0 xs with
      | nil => have := last 0 xs s hs; rw [callFH, hs] at this; exact this
      | cons l ls => simp only; split <;> exact hr s
    | succ f ih =>
      intro xs s
      rw [callFH]
      cases hs : spreads op 0 xs with
      | nil => have := last (f + 1) xs s hs; rw [callFH, hs] at this; exact this
      | cons l ls =>
        simp only
        split
        · have h1 := eachRow_keeps hr ht ih (fun k => row op k 0 xs) (List.range l.length) s
          cases hb : eachRow (callFH c op f) (fun k => row op k 0 xs) (List.range l.length) s with
          | mk res s' => rw [hb] at h1; cases res <;> exact h1
        · exact hr s
  exact all _ xs
end keeps

/-! ## Values -/

/-- The variables are the same and every object has the same number. -/
def SameValues (s s' : HSt K U R) : Prop :=
  s'.vars = s.vars ∧ s'.heap.map Cell.num = s.heap.map Cell.num

theorem sameValues_refl (s : HSt K U R) : SameValues s s := ⟨rfl, rfl⟩
theorem sameValues_trans {a b d : HSt K U R} (h1 : SameValues a b) (h2 : SameValues b d) :
    SameValues a d := ⟨h2.1.trans h1.1, h2.2.trans h1.2⟩

theorem modify_map {l : List (Cell K)} (a : ℕ) (k : K) :
    (l.modify a (fun c => { c with cast := some k })).map Cell.num = l.map Cell.num := by
  induction l generalizing a with
  | nil => simp
  | cons x l ih =>
    cases a with
    | zero => simp
    | succ a => simp [ih]

theorem assignCast_values (x : HS K) (k : K) (s : HSt K U R) :
    SameValues s (assignCast x k s) := by
  cases x with
  | obj a => exact ⟨rfl, modify_map a k⟩
  | new n k' => exact sameValues_refl s
  | flag b => exact sameValues_refl s

theorem numIn_same {h h' : List (Cell K)} (hh : h'.map Cell.num = h.map Cell.num) :
    numIn h' = numIn h := by
  funext x
  cases x with
  | obj a =>
    have := congrArg (fun l => l[a]?) hh
    simpa [numIn] using this
  | new n k => rfl
  | flag b => rfl

theorem valueOf_same {s s' : HSt K U R} (h : SameValues s s') (name : String) :
    valueOf s' name = valueOf s name := by
  have h2 : (scalarOf s'.heap : HS K → _) = scalarOf s.heap := by
    funext x
    simp only [scalarOf, numIn_same h.2]
  simp only [valueOf, h.1, h2]

/-- An operation without effects keeps all values, whatever its inputs. -/
theorem C57_operation_values (hl : Leaves op) (xs : List (Opd (HS K) U R)) (s : HSt K U R)
    (name : String) : valueOf (callH c op xs s).2 name = valueOf s name :=
  valueOf_same (callH_keeps sameValues_refl sameValues_trans
    (callScalarH_keeps sameValues_refl hl (fun s _ _ _ k _ x _ _ _ _ => assignCast_values x k s))
    xs s) name

section calculation
variable {A : Type} {cfg : Config (Opd (HS K) U R) (HSt K U R)}
  {atomVal : A → Act (HSt K U R) (Opd (HS K) U R)}
  {finalize : Opd (HS K) U R → Act (HSt K U R) (Opd (HS K) U R)}

/-- **C57**, values: a calculation made of operations without effects (all but assignments,
`reset`, `delete`, and functions that call them) leaves every variable with the value it had. -/
theorem C57_values
    (hops : ∀ o d, opsList cfg o = some d → ∃ op, Leaves op ∧ d.call = callH c op)
    (hfuncs : ∀ n f, cfg.funcs n = some f → ∃ op, Leaves op ∧ f.call = callH c op)
    (hatoms : ∀ a s, (atomVal a s).2 = s) (hfin : ∀ v s, (finalize v s).2 = s)
    (statements : List (List (Node A))) (i : ℕ) (s : HSt K U R) (name : String) :
    valueOf (calculate cfg atomVal finalize i statements s).2.2 name = valueOf s name := by
  have hcall : ∀ op : Operation (HS K) U R (HSt K U R), Leaves op → ∀ ins,
      Keeps SameValues (callH c op ins) := fun op hl ins =>
    callH_keeps sameValues_refl sameValues_trans
      (callScalarH_keeps sameValues_refl hl (fun s _ _ _ k _ x _ _ _ _ => assignCast_values x k s))
      ins
  refine valueOf_same (calculate_keeps (rel := SameValues) sameValues_refl sameValues_trans
    ?_ ?_ ?_ ?_ statements i s) name
  · intro o d ho ins
    obtain ⟨op, hl, he⟩ := hops o d ho
    rw [he]; exact hcall op hl ins
  · intro n f hf ins
    obtain ⟨op, hl, he⟩ := hfuncs n f hf
    rw [he]; exact hcall op hl ins
  · intro a s; rw [hatoms]; exact sameValues_refl s
  · intro v s; rw [hfin]; exact sameValues_refl s
end calculation

/-! ## Display -/

/-- The implementation never returns a number object that is stored in a variable: it makes a new
one, or returns something else. -/
def ReturnsNew (op : Operation (HS K) U R (HSt K U R)) : Prop :=
  ∀ ys s res s', op.ref ys s = (.ok res, s') → ∀ a, res.value ≠ .sc (.obj a)

/-- The operation does not set the display type of its result: it says so, or none of its inputs
is declared to be a number or an array of numbers. -/
def SetsNoType (op : Operation (HS K) U R (HSt K U R)) : Prop :=
  op.convertOut = false ∨
    ∀ r ∈ op.values, ∀ t ∈ r.types, t.main ≠ some "number" ∧ t.subType ≠ some "number"

theorem convertFrom_none (hn : ∀ r ∈ op.values, ∀ t ∈ r.types,
    t.main ≠ some "number" ∧ t.subType ≠ some "number") (cc : Calc (HS K) U R K)
    (xs : List (Opd (HS K) U R)) : castOf cc op xs = none := by
  unfold castOf
  rw [List.findSome?_eq_none_iff]
  intro r hr'
  rw [if_neg]
  intro hc
  exact (hn r hr' _ (List.contains_iff_mem.mp hc)).1 rfl

theorem mustBe_not (hn : ∀ r ∈ op.values, ∀ t ∈ r.types,
    t.main ≠ some "number" ∧ t.subType ≠ some "number") (i : ℕ) :
    op.mustBe i "array" (some "number") = false := by
  rw [Bool.eq_false_iff]
  intro h
  rw [Operation.mustBe, Bool.and_eq_true, List.any_eq_true, List.all_eq_true] at h
  obtain ⟨⟨r, hr1, hr2⟩, h2⟩ := h
  have h3 := h2 r hr1
  rw [hr2] at h3
  simp only [Bool.not_true, Bool.false_or, Operation.onlyType, Bool.and_eq_true] at h3
  obtain ⟨_, h4⟩ := h3
  obtain ⟨t, ht1, ht2⟩ := List.mem_map.mp (List.contains_iff_mem.mp h4)
  exact (hn r hr1 t ht1).2 ht2

theorem normaliseArrays_none (hn : ∀ r ∈ op.values, ∀ t ∈ r.types,
    t.main ≠ some "number" ∧ t.subType ≠ some "number") (cc : Calc (HS K) U R K) :
    ∀ (xs : List (Opd (HS K) U R)) (i : ℕ) (ru : Option U) {ys ru' k'},
    normaliseArrays cc op i ru none xs = .ok (ys, ru', k') → k' = none
  | [], i, ru, ys, ru', k', h => by
    rw [normaliseArrays] at h
    cases h; rfl
  | x :: xs, i, ru, ys, ru', k', h => by
    have ih := @normaliseArrays_none hn cc xs (i + 1) ru
    rw [normaliseArrays] at h
    split at h
    · rw [mustBe_not hn i] at h
      simp only [Bool.false_eq_true, if_false] at h
      split at h
      · cases h
      · rename_i h'
        cases h
        exact ih h'
    · split at h
      · cases h
      · rename_i h'
        cases h
        exact ih h'

theorem prepare_none (hn : ∀ r ∈ op.values, ∀ t ∈ r.types,
    t.main ≠ some "number" ∧ t.subType ≠ some "number") (cc : Calc (HS K) U R K)
    {xs ys : List (Opd (HS K) U R)} {ru : Option U} {k : Option K}
    (h : prepare cc op xs = .ok (ys, ru, k)) : k = none := by
  have hk : (if op.convertIn then castOf cc op xs else none) = none := by
    split
    · exact convertFrom_none hn cc xs
    · rfl
  unfold prepare at h
  rw [hk] at h
  simp only at h
  split at h
  · split at h
    · split at h
      · split at h
        · cases h
        · cases h; rfl
      · cases h; rfl
    · cases h; rfl
  · exact normaliseArrays_none hn cc _ _ _ h

/-- Such operations change nothing at all. -/
theorem callH_same (hl : Leaves op) (h : ReturnsNew op ∨ SetsNoType op)
    (xs : List (Opd (HS K) U R)) (s : HSt K U R) : (callH c op xs s).2 = s := by
  refine callH_keeps (rel := fun a b => b = a) (fun _ => rfl) (fun h1 h2 => h2.trans h1)
    (callScalarH_keeps (fun _ => rfl) hl ?_) xs s
  intro s xs ys ru k res x hp ho hx hco
  rcases h with h | h | h
  · cases x with
    | obj a => exact (h ys s res s ho a hx).elim
    | new n k' => rfl
    | flag b => rfl
  · rw [h] at hco; cases hco
  · exact absurd (prepare_none h (c s) hp) (by simp)

/-- **C57**, the part of the display that holds: a calculation made of operations that return new
objects, or set no display type, leaves the display of every variable as it was.  What is missing:
`element` with an index that has a type, and `min` and `max` of numbers of different types, return
an object of the variable and set its type. -/
theorem C57_display_partial {A : Type} {cfg : Config (Opd (HS K) U R) (HSt K U R)}
    {atomVal : A → Act (HSt K U R) (Opd (HS K) U R)}
    {finalize : Opd (HS K) U R → Act (HSt K U R) (Opd (HS K) U R)}
    (hops : ∀ o d, opsList cfg o = some d →
      ∃ op, Leaves op ∧ (ReturnsNew op ∨ SetsNoType op) ∧ d.call = callH c op)
    (hfuncs : ∀ n f, cfg.funcs n = some f →
      ∃ op, Leaves op ∧ (ReturnsNew op ∨ SetsNoType op) ∧ f.call = callH c op)
    (hatoms : ∀ a s, (atomVal a s).2 = s) (hfin : ∀ v s, (finalize v s).2 = s)
    (statements : List (List (Node A))) (i : ℕ) (s : HSt K U R) (name : String) :
    displayOf (calculate cfg atomVal finalize i statements s).2.2 name = displayOf s name := by
  have h := calculate_keeps (rel := fun a b => b = a) (cfg := cfg) (atomVal := atomVal)
    (finalize := finalize) (fun _ => rfl) (fun h1 h2 => h2.trans h1)
    (fun o d ho ins s => by
      obtain ⟨op, hl, hd, he⟩ := hops o d ho
      rw [he]; exact callH_same hl hd ins s)
    (fun n f hf ins s => by
      obtain ⟨op, hl, hd, he⟩ := hfuncs n f hf
      rw [he]; exact callH_same hl hd ins s)
    hatoms hfin statements i s
  rw [h]

end MC.Props
