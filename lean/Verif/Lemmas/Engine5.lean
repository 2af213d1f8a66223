import Verif.Lemmas.Engine4
import Verif.Model.Shipped

/-! # The loop ends; non-functional items; the shipped table -/

namespace MC
open Spec

variable {V σ : Type} (cfg : Config V σ)

/-- Every operator consumes at least one input besides its own symbol, and an invisible one
at least two. -/
def Consumes : Prop :=
  (∀ s d, opsList cfg s = some d → 1 ≤ d.linputs.length + d.rinputs.length) ∧
  (∀ s d, some s ∈ [cfg.unitAssign, cfg.unitMul, cfg.implicitMul] → opsList cfg s = some d →
    2 ≤ d.linputs.length + d.rinputs.length)

variable {cfg}

theorem ruleAt_width {prec : Level V σ} {prev : Option (Tok V)} {item : Tok V}
    {next : Option (Tok V)} {s : String} {w : ℕ}
    (h : ruleAt cfg prec prev item next = some (s, w)) :
    w = 1 ∨ (w = 0 ∧ some s ∈ [cfg.unitAssign, cfg.unitMul, cfg.implicitMul]) := by
  unfold ruleAt at h
  simp only at h
  split at h
  · rename_i x hx
    injection h with h; injection h with h1 h2; subst h1; subst h2
    right; refine ⟨rfl, ?_⟩
    have := Option.eq_some_of_filter_eq_some hx
    simp [this]
  · split at h
    · rename_i x hx
      injection h with h; injection h with h1 h2; subst h1; subst h2
      right; refine ⟨rfl, ?_⟩
      have := Option.eq_some_of_filter_eq_some hx
      simp [this]
    · split at h
      · injection h with h; injection h with h1 h2; left; exact h2.symm
      · split at h
        · rename_i x hx
          injection h with h; injection h with h1 h2; subst h1; subst h2
          right; refine ⟨rfl, ?_⟩
          have := Option.eq_some_of_filter_eq_some hx
          simp [this]
        · split at h
          · split at h
            · injection h with h; injection h with h1 h2; left; exact h2.symm
            · cases h
          · cases h

theorem scanL_width {prec : Level V σ} : ∀ {items : List (Item V)} {prev : Option (Tok V)}
    {i : ℕ} {s : String} {w : ℕ}, scanL cfg prec prev items = some (i, s, w) →
    i < items.length ∧
    (w = 1 ∨ (w = 0 ∧ some s ∈ [cfg.unitAssign, cfg.unitMul, cfg.implicitMul]))
  | [], _, _, _, _, h => by simp [scanL] at h
  | it :: rest, prev, i, s, w, h => by
    unfold scanL at h
    split at h
    · rename_i r hr
      obtain ⟨a, b⟩ := r
      simp only [Option.some.injEq, Prod.mk.injEq] at h
      obtain ⟨rfl, rfl, rfl⟩ := h
      exact ⟨by simp, ruleAt_width hr⟩
    · cases hs : scanL cfg prec (some it.tok) rest with
      | none => rw [hs] at h; cases h
      | some x =>
        obtain ⟨a, b, c⟩ := x
        rw [hs] at h
        simp only [Option.map_some, Option.some.injEq, Prod.mk.injEq] at h
        obtain ⟨rfl, rfl, rfl⟩ := h
        obtain ⟨h1, h2⟩ := scanL_width hs
        exact ⟨by simpa using h1, h2⟩

theorem scanR_width {prec : Level V σ} : ∀ {items : List (Item V)} {prev : Option (Tok V)}
    {i : ℕ} {s : String} {w : ℕ}, scanR cfg prec prev items = some (i, s, w) →
    i < items.length ∧
    (w = 1 ∨ (w = 0 ∧ some s ∈ [cfg.unitAssign, cfg.unitMul, cfg.implicitMul]))
  | [], _, _, _, _, h => by simp [scanR] at h
  | it :: rest, prev, i, s, w, h => by
    unfold scanR at h
    split at h
    · rename_i x hx
      obtain ⟨a, b, c⟩ := x
      simp only [Option.some.injEq, Prod.mk.injEq] at h
      obtain ⟨rfl, rfl, rfl⟩ := h
      obtain ⟨h1, h2⟩ := scanR_width hx
      exact ⟨by simpa using h1, h2⟩
    · cases hs : ruleAt cfg prec prev it.tok (rest.head?.map Item.tok) with
      | none => rw [hs] at h; cases h
      | some x =>
        obtain ⟨a, b⟩ := x
        rw [hs] at h
        simp only [Option.map_some, Option.some.injEq, Prod.mk.injEq] at h
        obtain ⟨rfl, rfl, rfl⟩ := h
        exact ⟨by simp, ruleAt_width hs⟩

theorem findRedex_width {items : List (Item V)} {i : ℕ} {s : String} {w : ℕ}
    (h : findRedex cfg items = some (i, s, w)) : i < items.length ∧
    (w = 1 ∨ (w = 0 ∧ some s ∈ [cfg.unitAssign, cfg.unitMul, cfg.implicitMul])) := by
  unfold findRedex at h
  obtain ⟨prec, _, hp⟩ := List.exists_of_findSome?_eq_some h
  unfold scanLevel at hp
  split at hp
  · split at hp
    · exact scanR_width hp
    · exact scanL_width hp
  · cases hp

/-- The shape of what `execute_operator` returns. -/
theorem execOp_ok {sym : String} {items : List (Item V)} {i : ℕ} {item : Item V} {w : ℕ}
    {s s' : σ} {items' : List (Item V)} (hi : i < items.length)
    (h : execOp cfg sym items i item w s = (.ok items', s')) :
    ∃ d v, opsList cfg sym = some d ∧
      items' = items.take (i - d.linputs.length) ++ ⟨.val v, item.index⟩ ::
        items.drop (i + d.rinputs.length + w) ∧
      items'.length + d.linputs.length + d.rinputs.length + w = items.length + 1 := by
  unfold execOp at h
  split at h
  · cases h
  · rename_i d hd
    split at h
    · cases h
    · split at h
      · cases h
      · rename_i h1 h2
        have key : ∀ v, (items.take (i - d.linputs.length) ++ (⟨.val v, item.index⟩ : Item V) ::
            items.drop (i + d.rinputs.length + w)).length + d.linputs.length + d.rinputs.length
            + w = items.length + 1 := by
          intro v
          simp only [List.length_append, List.length_take, List.length_cons, List.length_drop]
          omega
        simp only at h
        split at h
        · cases h
        · split at h
          · injection h with h _; injection h with h; subst h
            exact ⟨d, _, hd, rfl, key _⟩
          · cases h
          · injection h with h _; injection h with h; subst h
            exact ⟨d, _, hd, rfl, key _⟩

theorem step_shorter (hc : Consumes cfg) {items items' : List (Item V)} {s s' : σ}
    {act : Act σ (List (Item V))} (h : step cfg items = some act)
    (ha : act s = (.ok items', s')) : items'.length < items.length ∧ 0 < items'.length := by
  unfold step at h
  split at h
  · cases h
  · rename_i i sym w hr
    obtain ⟨hi, hw⟩ := findRedex_width hr
    split at h
    · cases h
    · rename_i item hit
      injection h with h; subst h
      obtain ⟨d, v, hd, he, hl⟩ := execOp_ok hi ha
      have : 0 < items'.length := by rw [he]; simp only [List.length_append, List.length_cons]; omega
      refine ⟨?_, this⟩
      rcases hw with rfl | ⟨rfl, hm⟩
      · have := hc.1 sym d hd; omega
      · have := hc.2 sym d hm hd; omega

/-- More fuel does not change a result. -/
theorem loop_mono : ∀ {n m : ℕ} {items : List (Item V)} {s : σ} {r : Except Raise V × σ},
    n ≤ m → loop cfg n items s = some r → loop cfg m items s = some r
  | n, m, items, s, r, hnm, h => by
    unfold loop at h ⊢
    split at h
    · exact h
    · rename_i act ha
      cases n with
      | zero => cases h
      | succ n =>
        cases m with
        | zero => omega
        | succ m =>
          simp only at h ⊢
          cases hs : act s with
          | mk res s' =>
            rw [hs] at h
            cases res with
            | ok its => exact loop_mono (by omega) h
            | error e => exact h

theorem loop_ends (hc : Consumes cfg) : ∀ (n : ℕ) (items : List (Item V)) (s : σ),
    items.length ≤ n → ∃ r, loop cfg n items s = some r
  | n, items, s, hn => by
    unfold loop
    cases hs : step cfg items with
    | none => exact ⟨_, rfl⟩
    | some act =>
      cases n with
      | zero =>
        exfalso
        have h0 : items = [] := List.length_eq_zero_iff.mp (by omega)
        subst h0
        unfold step at hs
        split at hs
        · cases hs
        · rename_i i sym w hr
          have := (findRedex_width hr).1
          simp at this
      | succ n =>
        simp only
        cases ha : act s with
        | mk res s' =>
          cases res with
          | error e => exact ⟨_, rfl⟩
          | ok its =>
            simp only
            have := step_shorter hc hs ha
            exact loop_ends hc n its s' (by omega)

theorem execOperands_length : ∀ (items : List (Src V σ)) (i : ℕ) (s s' : σ)
    (its : List (Item V)), execOperands cfg i items s = (.ok its, s') →
    its.length = items.length
  | [], i, s, s', its, h => by
    simp only [execOperands, Prod.mk.injEq, Except.ok.injEq] at h
    rw [← h.1]; rfl
  | .op o :: rest, i, s, s', its, h => by
    simp only [execOperands] at h
    cases hr : execOperands cfg (i + 1) rest s with
    | mk res s1 =>
      rw [hr] at h
      cases res with
      | error e => cases h
      | ok its1 =>
        simp only [Prod.mk.injEq, Except.ok.injEq] at h
        rw [← h.1]
        simp [execOperands_length rest _ _ _ _ hr]
  | .operand r :: rest, i, s, s', its, h => by
    simp only [execOperands] at h
    cases h1 : execOperand cfg i r s with
    | mk res s1 =>
      rw [h1] at h
      cases res with
      | error e => cases h
      | ok v =>
        simp only at h
        cases hr : execOperands cfg (i + 1) rest s1 with
        | mk res s2 =>
          rw [hr] at h
          cases res with
          | error e => cases h
          | ok its1 =>
            simp only [Prod.mk.injEq, Except.ok.injEq] at h
            rw [← h.1]
            simp [execOperands_length rest _ _ _ _ hr]

/-- `execute` never runs out of fuel. -/
theorem executeF_eq (hc : Consumes cfg) (items : List (Src V σ)) (s : σ) :
    executeF cfg items.length items s = some (execute cfg items s) := by
  unfold execute
  cases hx : executeF cfg items.length items s with
  | some r => rfl
  | none =>
    exfalso
    unfold executeF at hx
    split at hx
    · cases hx
    · cases he : execOperands cfg 0 items s with
      | mk res s' =>
        rw [he] at hx
        cases res with
        | error e => cases hx
        | ok its =>
          simp only at hx
          have hl := execOperands_length items 0 s s' its he
          obtain ⟨r, hr⟩ := loop_ends hc items.length its s' (by omega)
          rw [hr] at hx; cases hx

end MC
