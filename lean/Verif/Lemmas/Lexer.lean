import Verif.Model.Terminator
import Verif.Lemmas.Parse3

/-!
# The shipped parsers keep the contract of a parser
-/

namespace MC.Parse

open Spec

variable (x : Lex)

theorem leafOf_ok {k : Kind} {next : Text} {n : ℕ} (h : n ≤ next.length) :
    match leafOf k next n with
    | none => True
    | some (it, m) => 1 ≤ m ∧ m ≤ next.length ∧ Covers [it] (next.take m) := by
  unfold leafOf
  by_cases h0 : n = 0
  · rw [if_pos h0]; trivial
  · rw [if_neg h0]; exact ⟨by omega, h, covers_leaf _ _⟩

/-- The contract for a parser that never raises. -/
theorem leafOk_of {f : LeafParser}
    (h : ∀ items next, next ≠ [] → ∃ v, f items next = .ok v ∧
      match v with
      | none => True
      | some (it, m) => 1 ≤ m ∧ m ≤ next.length ∧ Covers [it] (next.take m)) : LeafOk f := by
  intro items next hne
  obtain ⟨v, hv, hk⟩ := h items next hne
  rw [hv]
  cases v with
  | none => trivial
  | some v => exact hk

theorem takeWhile_le (q : Char → Bool) (s : Text) : (s.takeWhile q).length ≤ s.length :=
  (List.takeWhile_prefix q).length_le

theorem parseSpace_ok : LeafOk parseSpace := by
  refine leafOk_of fun items next hne => ?_
  cases next with
  | nil => exact absurd rfl hne
  | cons c t => exact ⟨_, rfl, leafOf_ok (by simp; split <;> omega)⟩

theorem parseComment_ok : LeafOk (parseComment x) := by
  refine leafOk_of fun items next hne => ?_
  cases next with
  | nil => exact absurd rfl hne
  | cons c t =>
    simp only [parseComment]
    split
    · exact ⟨_, rfl, leafOf_ok (takeWhile_le _ _)⟩
    · exact ⟨none, rfl, trivial⟩

theorem lower_length (s : Text) : (lowerText s).length = s.length := by simp [lowerText]

theorem parseBoolean_ok : LeafOk (parseBoolean x) := by
  refine leafOk_of fun items next hne => ?_
  simp only [parseBoolean]
  split
  · rename_i h
    simp only [Bool.and_eq_true, decide_eq_true_eq] at h
    have := congrArg List.length h.1
    rw [lower_length, List.length_take] at this
    exact ⟨_, rfl, leafOf_ok (by simp at this; omega)⟩
  · split
    · rename_i h
      simp only [Bool.and_eq_true, decide_eq_true_eq] at h
      have := congrArg List.length h.1
      rw [lower_length, List.length_take] at this
      exact ⟨_, rfl, leafOf_ok (by simp at this; omega)⟩
    · exact ⟨none, rfl, trivial⟩

theorem digitsLen_le (q : Char → Bool) (s : Text) : digitsLen q s ≤ s.length := by
  unfold digitsLen
  have h1 := takeWhile_le q s
  dsimp only
  split
  · omega
  · split
    · rename_i r hd
      have h2 := takeWhile_le q r
      have := congrArg List.length hd
      simp only [List.length_drop, List.length_cons] at this
      split <;> omega
    · exact h1

theorem signLen_le (s : Text) : signLen s ≤ s.length := by
  unfold signLen
  split
  · rename_i h
    cases s with
    | nil => simp at h
    | cons a t => simp
  · omega

theorem basedLen_le (pre : Text) (q : Char → Bool) (s : Text) : basedLen pre q s ≤ s.length := by
  unfold basedLen
  have h0 := signLen_le s
  dsimp only
  split
  · rename_i hp
    have hp := (List.isPrefixOf_iff_prefix.1 hp).length_le
    have h1 := digitsLen_le q ((lowerText (s.drop (signLen s))).drop pre.length)
    simp only [lower_length, List.length_drop] at hp h1
    split <;> omega
  · omega

theorem decimalLen_le (s : Text) : decimalLen s ≤ s.length := by
  unfold decimalLen
  have h0 := signLen_le s
  have h1 := digitsLen_le Char.isDigit (s.drop (signLen s))
  simp only [List.length_drop] at h1
  dsimp only
  split <;> omega

theorem expLen_le (s : Text) : expLen s ≤ s.length := by
  unfold expLen
  have h0 := decimalLen_le s
  dsimp only
  split
  · omega
  · split
    · rename_i e r hd
      have hl := congrArg List.length hd
      simp only [List.length_drop, List.length_cons] at hl
      have h1 := takeWhile_le Char.isDigit (r.drop (signLen r))
      have h2 := signLen_le r
      simp only [List.length_drop] at h1
      repeat' split
      all_goals omega
    · omega

theorem percentLen_le (s : Text) : percentLen s ≤ s.length := by
  unfold percentLen
  have h0 := decimalLen_le s
  dsimp only
  split
  · omega
  · split
    · rename_i r hd
      have hl := congrArg List.length hd
      simp only [List.length_drop, List.length_cons] at hl
      omega
    · omega

theorem arbLen_le (s : Text) : arbLen s ≤ s.length := by
  unfold arbLen
  have h0 := signLen_le s
  have h1 := takeWhile_le Char.isDigit (lowerText (s.drop (signLen s)))
  simp only [lower_length, List.length_drop] at h1
  dsimp only
  split
  · omega
  · split
    · rename_i r hd
      have hl := congrArg List.length hd
      simp only [List.length_drop, List.length_cons, lower_length] at hl
      have h2 := digitsLen_le (fun c => c.isDigit || ('a' ≤ c && c ≤ 'z')) r
      split <;> omega
    · omega

theorem literal_ok {len : Text → ℕ} (conv : Text → Except Err Bool)
    (h : ∀ s, len s ≤ s.length) : LeafOk (literal len conv) := by
  intro items next hne
  unfold literal
  cases numberAllowed items with
  | false => trivial
  | true =>
    simp only [if_true]
    by_cases h0 : len next = 0
    · rw [if_pos h0]; trivial
    · rw [if_neg h0]
      cases conv (next.take (len next)) with
      | error e => cases e <;> trivial
      | ok b =>
        cases b with
        | false => trivial
        | true =>
          simp only [leafOf, if_neg h0]
          exact ⟨by omega, h next, covers_leaf _ _⟩

theorem firstOp_mem {next : Text} : ∀ {ops : List Text} {op : Text},
    firstOp x next ops = some op → op ∈ ops
  | [], _, h => by simp [firstOp] at h
  | o :: ops, op, h => by
    unfold firstOp at h
    split at h
    · split at h
      · simp only [Option.some.injEq] at h; simp [h]
      · exact List.mem_cons_of_mem _ (firstOp_mem h)
    · simp only [Option.some.injEq] at h; simp [h]

theorem mem_opCandidates {next op : Text} :
    op ∈ opCandidates x next ↔ op ∈ x.ops ∧ op <+: next := by
  unfold opCandidates
  rw [List.mem_insertionSort, List.mem_filter, List.isPrefixOf_iff_prefix]

theorem parseOperator_ok (h0 : ([] : Text) ∉ x.ops) : LeafOk (parseOperator x) := by
  refine leafOk_of fun items next hne => ?_
  simp only [parseOperator]
  cases hf : firstOp x next (opCandidates x next) with
  | none => exact ⟨none, rfl, trivial⟩
  | some op =>
    have hm := (mem_opCandidates x).1 (firstOp_mem x hf)
    refine ⟨_, rfl, ?_, hm.2.length_le, ?_⟩
    · cases op with
      | nil => exact absurd hm.1 h0
      | cons a t => simp
    · rw [take_of_prefix hm.2]; exact covers_leaf _ _

theorem stringLoop_le (sym esc : Char) : ∀ (s : Text) (e : Bool) (t : Text) (n : ℕ),
    stringLoop sym esc e s = some (t, n) → n + 1 ≤ s.length := by
  intro s
  induction s with
  | nil => intro e t n h; simp [stringLoop] at h
  | cons c s ih =>
    intro e t n h
    unfold stringLoop at h
    split at h
    · dsimp only at h
      cases hr : stringLoop sym esc (if c = esc then !e else false) s with
      | none => rw [hr] at h; simp at h
      | some v =>
        obtain ⟨t1, n1⟩ := v
        have := ih _ _ _ hr
        rw [hr] at h
        simp only [Option.some.injEq, Prod.mk.injEq] at h
        simp; omega
    · simp only [Option.some.injEq, Prod.mk.injEq] at h
      simp [← h.2]

theorem parseString_ok : LeafOk (parseString x) := by
  intro items next hne
  unfold parseString readString
  cases next with
  | nil => exact absurd rfl hne
  | cons c rest =>
    simp only
    by_cases hc : c = x.strSym
    · rw [if_pos hc]
      cases hs : stringLoop x.strSym x.escChar false rest with
      | none => exact ⟨[], covers_nil, rfl⟩
      | some v =>
        obtain ⟨t, n⟩ := v
        have := stringLoop_le _ _ _ _ _ _ hs
        exact ⟨by omega, by simp; omega, covers_leaf _ _⟩
    · rw [if_neg hc]; trivial

theorem nameLen_le (s : Text) : nameLen s ≤ s.length := by
  unfold nameLen
  cases s with
  | nil => simp
  | cons c t =>
    have := takeWhile_le (fun c => isLetter c || c.isDigit || c = '_') t
    simp only [List.length_cons]
    split <;> omega

theorem parseConstant_ok : LeafOk (parseConstant x) := by
  refine leafOk_of fun items next hne => ?_
  simp only [parseConstant]
  split
  · exact ⟨_, rfl, leafOf_ok (takeWhile_le _ _)⟩
  · exact ⟨none, rfl, trivial⟩

theorem unitLoop_ok (next : Text) : ∀ n, n ≤ next.length →
    match unitLoop x next n with
    | none => True
    | some (it, m) => 1 ≤ m ∧ m ≤ next.length ∧ Covers [it] (next.take m) := by
  intro n
  induction n with
  | zero => intro _; trivial
  | succ n ih =>
    intro h
    unfold unitLoop
    by_cases h1 : (lowerText (next.take (n + 1)) ∈ x.unitNames && unitEnd x next (n + 1)) = true
    · rw [if_pos h1]; exact leafOf_ok h
    · rw [if_neg h1]
      by_cases h2 : (x.unitSymbolsEnabled && next.take (n + 1) ∈ x.unitSymbols &&
          unitEnd x next (n + 1)) = true
      · rw [if_pos h2]; exact leafOf_ok h
      · rw [if_neg h2]; exact ih (by omega)

theorem parseUnits_ok : LeafOk (parseUnits x) :=
  leafOk_of fun _ next _ => ⟨_, rfl, unitLoop_ok x next _ (Nat.min_le_right _ _)⟩

theorem firstWord_mem {next : Text} : ∀ {ws : List Text} {w : Text},
    firstWord x next ws = some w → w ∈ ws ∧ w <+: next
  | [], _, h => by simp [firstWord] at h
  | o :: ws, w, h => by
    unfold firstWord at h
    split at h
    · rename_i hc
      rw [Bool.and_eq_true, List.isPrefixOf_iff_prefix] at hc
      simp only [Option.some.injEq] at h
      exact ⟨by simp [h], h ▸ hc.1⟩
    · have := firstWord_mem h
      exact ⟨List.mem_cons_of_mem _ this.1, this.2⟩

theorem parseWord_ok {words : List Text} (h0 : ([] : Text) ∉ words) :
    LeafOk (parseWord x words) := by
  refine leafOk_of fun items next hne => ?_
  simp only [parseWord]
  cases hf : firstWord x next words with
  | none => exact ⟨none, rfl, trivial⟩
  | some w =>
    have hm := firstWord_mem x hf
    refine ⟨_, rfl, ?_, hm.2.length_le, ?_⟩
    · cases w with
      | nil => exact absurd hm.1 h0
      | cons a t => simp
    · rw [take_of_prefix hm.2]; exact covers_leaf _ _

theorem parseVar_ok : LeafOk parseVar :=
  leafOk_of fun _ next _ => ⟨_, rfl, leafOf_ok (nameLen_le next)⟩

theorem callName_prefix {next name : Text} (h : callName next = some name) :
    (name ++ ['(']) <+: next := by
  unfold callName at h
  dsimp only at h
  split at h
  · rename_i hc
    simp only [Option.some.injEq] at h
    subst h
    cases hd : next.drop (nameLen next) with
    | nil => simp [hd] at hc
    | cons a t =>
      rw [hd] at hc
      simp only [List.head?_cons, Option.some.injEq] at hc
      refine ⟨t, ?_⟩
      have := List.take_append_drop (nameLen next) next
      rw [hd, hc.2] at this
      simpa using this
  · simp at h

/-- The shipped calculator keeps the contract, if no operator, unit system or number type has an
empty name. -/
theorem shipped_ok (funcs : List Text) (inc : List Item → Bool) (h1 : ([] : Text) ∉ x.ops)
    (h2 : ([] : Text) ∉ x.systems) (h3 : ([] : Text) ∉ x.numTypes) :
    Ok (shippedCfg x funcs inc) where
  leaf := by
    intro f hf
    simp only [shippedCfg, shippedParsers, List.mem_cons, Parser.leaf.injEq, reduceCtorEq,
      false_or, or_false, List.not_mem_nil] at hf
    rcases hf with rfl | rfl | rfl | rfl | rfl | rfl | rfl | rfl | rfl | rfl | rfl | rfl | rfl |
      rfl | rfl | rfl | rfl
    · exact parseSpace_ok
    · exact parseComment_ok x
    · exact parseBoolean_ok x
    · exact literal_ok _ (basedLen_le _ _)
    · exact literal_ok _ (basedLen_le _ _)
    · exact literal_ok _ (basedLen_le _ _)
    · exact literal_ok _ arbLen_le
    · exact literal_ok _ expLen_le
    · exact literal_ok _ percentLen_le
    · exact literal_ok _ decimalLen_le
    · exact parseOperator_ok x h1
    · exact parseString_ok x
    · exact parseConstant_ok x
    · exact parseUnits_ok x
    · exact parseWord_ok x h2
    · exact parseWord_ok x h3
    · exact parseVar_ok
  term := by simp [shippedCfg]
  func := by
    intro next name h
    simp only [shippedCfg, Option.filter_eq_some_iff] at h
    exact callName_prefix h.1
  pointer := by
    intro next name h
    simp only [shippedCfg] at h
    split at h
    · rename_i rest
      cases hc : callName rest with
      | none => simp [hc] at h
      | some nm =>
        simp only [hc, Option.map_some, Option.some.injEq] at h
        subst h
        obtain ⟨t, ht⟩ := callName_prefix hc
        exact ⟨t, by simp [← ht]⟩
    · simp at h
  open_ := by simp [shippedCfg]

end MC.Parse
