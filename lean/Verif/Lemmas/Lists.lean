import Verif.Model.ArrayLit
import Verif.Lemmas.Operation
import Verif.Props.Range
import Verif.Spec.Lists

/-! # Lemmas about arrays: their items, ranges, and rows -/

namespace MC
open Range Spec

section split

/-- Items that do not separate elements. -/
def NoArrayParts (its : List Parse.Item) : Prop :=
  ∀ it ∈ its, ∀ k ∈ [Parse.Kind.arrStart, .arrEnd, .arrRange, .arrStep, .arrParam], hasKind k it = false

theorem split_none {k : Parse.Kind} {its : List Parse.Item} (h : ∀ it ∈ its, hasKind k it = false) :
    splitAtKind k its = [its] ∧ ∀ t rest, splitAtKind k (its ++ .leaf k t :: rest) = its :: splitAtKind k rest := by
  induction its with
  | nil => exact ⟨rfl, fun t rest => by simp [splitAtKind, hasKind]⟩
  | cons it its ih =>
    obtain ⟨h1, h2⟩ := ih (fun x hx => h x (by simp [hx]))
    have hn := h it (by simp)
    refine ⟨by rw [splitAtKind, hn, h1]; rfl, fun t rest => ?_⟩
    rw [List.cons_append, splitAtKind, hn, h2]
    rfl

theorem NoArrayParts.kind {its : List Parse.Item} (h : NoArrayParts its) {k : Parse.Kind}
    (hk : k ∈ [Parse.Kind.arrStart, .arrEnd, .arrRange, .arrStep, .arrParam]) : ∀ it ∈ its, hasKind k it = false :=
  fun it hit => h it hit k hk

theorem elementItems_one {its : List Parse.Item} (h : NoArrayParts its) : elementItems its = ⟨its, none, none⟩ := by
  unfold elementItems
  rw [(split_none (h.kind (k := .arrRange) (by decide))).1]

theorem elementItems_range {its its' : List Parse.Item} (h : NoArrayParts its) (h' : NoArrayParts its') (t : Parse.Text) :
    elementItems (its ++ .leaf .arrRange t :: its') = ⟨its, some its', none⟩ := by
  unfold elementItems
  rw [(split_none (h.kind (k := .arrRange) (by decide))).2, (split_none (h'.kind (k := .arrRange) (by decide))).1]
  simp only
  rw [(split_none (h'.kind (k := .arrStep) (by decide))).1]

theorem elementItems_step {its its' its'' : List Parse.Item} (h : NoArrayParts its) (h' : NoArrayParts its')
    (h'' : NoArrayParts its'') (hne : its'' ≠ []) (t t' : Parse.Text) :
    elementItems (its ++ .leaf .arrRange t :: (its' ++ .leaf .arrStep t' :: its''))
      = ⟨its, some its', some its''⟩ := by
  have hn : ∀ it ∈ its' ++ .leaf .arrStep t' :: its'', hasKind .arrRange it = false := by
    intro it hit
    rcases List.mem_append.1 hit with hit | hit
    · exact h' it hit _ (by decide)
    · rcases List.mem_cons.1 hit with rfl | hit
      · rfl
      · exact h'' it hit _ (by decide)
  unfold elementItems
  rw [(split_none (h.kind (k := .arrRange) (by decide))).2, (split_none hn).1]
  simp only
  rw [(split_none (h'.kind (k := .arrStep) (by decide))).2, (split_none (h''.kind (k := .arrStep) (by decide))).1]
  simp [hne]

theorem stands_noArrayParts {V : Type} {lit : Parse.Item → V → Prop} {f g : String → List V → Except String V}
    {its : List Parse.Item} {toks : List (Tok V)} (h : Stands lit f g its toks) : NoArrayParts its := by
  refine Stands.rec
    (motive_1 := fun its _ _ => NoArrayParts its) (motive_2 := fun _ _ _ => True) (motive_3 := fun _ _ _ => True)
    ?_ ?_ ?_ ?_ ?_ ?_ ?_ ?_ ?_ ?_ h
  · intro it hit; cases hit
  · intro k t its toks hk _ ih it hit
    rcases List.mem_cons.1 hit with rfl | hit
    · intro j hj
      simp only [emptyKinds, List.mem_cons, List.not_mem_nil, or_false] at hk hj
      rcases hk with rfl | rfl | rfl <;> rcases hj with rfl | rfl | rfl | rfl | rfl <;> rfl
    · exact ih it hit
  · intro o its toks _ ih it hit
    rcases List.mem_cons.1 hit with rfl | hit
    · intro j hj
      simp only [List.mem_cons, List.not_mem_nil, or_false] at hj
      rcases hj with rfl | rfl | rfl | rfl | rfl <;> rfl
    · exact ih it hit
  · intro it v its toks hop _ _ ih it' hit
    rcases List.mem_cons.1 hit with rfl | hit
    · intro j hj
      simp only [List.mem_cons, List.not_mem_nil, or_false] at hj
      cases it' with
      | nest => rfl
      | leaf k t =>
        rcases hj with rfl | rfl | rfl | rfl | rfl <;> cases k <;> first
          | rfl
          | (simp [isOperand, valueKinds] at hop)
    · exact ih it' hit
  · intro t inner v its toks _ _ _ ih it hit
    rcases List.mem_cons.1 hit with rfl | hit
    · intro j _; rfl
    · exact ih it hit
  · intro t w args vs v its toks _ _ _ _ ih it hit
    rcases List.mem_cons.1 hit with rfl | hit
    · intro j _; rfl
    · exact ih it hit
  all_goals intros; trivial

theorem means_noArrayParts {V : Type} {lit : Parse.Item → V → Prop} {f g : String → List V → Except String V}
    {its : List Parse.Item} {v : V} (h : Means lit f g its v) : NoArrayParts its := by
  obtain ⟨hs, _⟩ := h
  exact stands_noArrayParts hs

end split

section range
variable {U σ : Type} {p : ℕ}

/-- A loop needs no more rounds than there are elements. -/
theorem rangeLoop_enough {stop step : Number} : ∀ (m : ℕ) (n : Number) (l : List Number),
    rangeLoop p stop step m n = some (.ok l) → ∀ m', l.length ≤ m' → rangeLoop p stop step m' n = some (.ok l) := by
  intro m
  induction m with
  | zero =>
    intro n l h m' _
    unfold rangeLoop at h ⊢
    split at h
    · simp at h
    · rename_i hc
      rw [if_neg hc]
      exact h
  | succ m ih =>
    intro n l h m' hm'
    unfold rangeLoop at h ⊢
    by_cases hc : more p stop step n = true
    · rw [if_pos hc] at h ⊢
      dsimp only at h
      cases ha : lift (n.add p step) with
      | error e => rw [ha] at h; simp at h
      | ok n' =>
        rw [ha] at h
        dsimp only at h
        cases hl : rangeLoop p stop step m n' with
        | none => rw [hl] at h; simp at h
        | some q =>
          rw [hl] at h
          cases q with
          | error e => simp [Except.map] at h
          | ok l0 =>
            simp only [Option.map_some, Except.map, Option.some.injEq, Except.ok.injEq] at h
            subst h
            simp only [List.length_cons] at hm'
            obtain ⟨m'', rfl⟩ : ∃ j, m' = j + 1 := ⟨m' - 1, by omega⟩
            dsimp only
            rw [ih n' l0 hl m'' (by omega)]
            rfl
    · rw [if_neg hc] at h ⊢; exact h

theorem progression_enough {m m' : ℕ} {a b s : Number} {l : List Number} (h : progression p m a b s = some (.ok l))
    (hm : l.length ≤ m') : progression p m' a b s = some (.ok l) := by
  unfold progression at h ⊢
  split at h
  · cases h
  · split at h
    · cases h
    · rename_i hd hn
      simp only [if_neg hn]
      exact rangeLoop_enough m _ _ h m' hm

theorem rangeFinish_enough {conv : Number × U → Number × U → Except Raise Number} {m m' : ℕ}
    {a b s : Number × Option U} {l : List (RRes U)} (h : rangeFinish p conv m a b s = some (.ok l))
    (hm : l.length ≤ m') : rangeFinish p conv m' a b s = some (.ok l) := by
  unfold rangeFinish at h ⊢
  split at h
  · cases h
  · rename_i b' s' hu
    cases hp : progression p m a.1 b' s' with
    | none => rw [hp] at h; cases h
    | some r =>
      rw [hp] at h
      cases r with
      | error e => simp [Except.map] at h
      | ok l0 =>
        simp only [Option.map_some, Except.map, Option.some.injEq, Except.ok.injEq] at h
        subst h
        rw [progression_enough hp (by simpa using hm)]
        rfl

/-- A range needs no more rounds than it has elements. -/
theorem element_enough {conv : Number × U → Number × U → Except Raise Number} {m m' : ℕ}
    {start stop : Act σ (RRes U)} {step : Option (Act σ (RRes U))} {s : σ} {x y : RRes U}
    (h1 : start s = (.ok x, s)) (h2 : stop s = (.ok y, s)) (h3 : ∀ st, step = some st → ∃ z, st s = (.ok z, s))
    {l : List (RRes U)} {s' : σ}
    (h : elementValue p conv m start (some stop) step s = some (.ok l, s')) (hm : l.length ≤ m') :
    elementValue p conv m' start (some stop) step s = some (.ok l, s') := by
  have key : ∀ {a b c : Number × Option U} {s : σ},
      (rangeFinish p conv m a b c).map (fun r => (r, s)) = some (.ok l, s') →
      (rangeFinish p conv m' a b c).map (fun r => (r, s)) = some (.ok l, s') := by
    intro a b c s h
    rw [Option.map_eq_some_iff] at h ⊢
    obtain ⟨r, h1, h2⟩ := h
    cases h2
    exact ⟨_, rangeFinish_enough h1 hm, rfl⟩
  unfold elementValue at h ⊢
  simp only [h1] at h ⊢
  split
  · rename_i e he; simp [he] at h
  · rename_i a ha
    simp only [ha, h2] at h ⊢
    split
    · rename_i e he; simp [he] at h
    · rename_i b hb
      simp only [hb] at h ⊢
      cases a with
      | none => simp at h
      | some a =>
        cases b with
        | none => simp at h
        | some b =>
          cases step with
          | none => exact key h
          | some st =>
            obtain ⟨z, hz⟩ := h3 st rfl
            simp only [hz] at h ⊢
            split
            · rename_i e he; simp [he] at h
            · rename_i he; simp [he] at h
            · rename_i c he
              simp only [he] at h
              exact key h

/-- There is only one progression. -/
theorem isRange_unique {a b s : ℚ} {l l' : List ℚ} (h : IsRange a b s l) (h' : IsRange a b s l') : l = l' := by
  apply List.ext_getElem?
  intro i
  cases hx : l[i]? with
  | some x => exact ((h' i x).2 ((h i x).1 hx)).symm
  | none =>
    cases hy : l'[i]? with
    | none => rfl
    | some y =>
      have := (h i y).2 ((h' i y).1 hy)
      rw [hx] at this
      cases this

end range

section fits

theorem commonDen_pos : ∀ qs : List ℚ, 0 < commonDen qs
  | [] => Nat.one_pos
  | q :: qs => Nat.lcm_pos q.pos (commonDen_pos qs)

theorem den_dvd {qs : List ℚ} {q : ℚ} (h : q ∈ qs) : q.den ∣ commonDen qs := by
  induction qs with
  | nil => cases h
  | cons r qs ih =>
    rcases List.mem_cons.1 h with rfl | h
    · exact Nat.dvd_lcm_left _ _
    · exact (ih h).trans (Nat.dvd_lcm_right _ _)

theorem multiple_of {q : ℚ} {D : ℕ} (h : q.den ∣ D) : ∃ N : ℤ, q * D = N := by
  obtain ⟨e, rfl⟩ := h
  refine ⟨q.num * e, ?_⟩
  push_cast
  rw [← mul_assoc, Rat.mul_den_eq_num]

/-- The numerators over a common denominator. -/
theorem numerators {qs : List ℚ} {D : ℕ} (h : ∀ q ∈ qs, q.den ∣ D) :
    ∃ Ns : List ℤ, List.Forall₂ (fun (q : ℚ) (N : ℤ) => q * D = N) qs Ns := by
  induction qs with
  | nil => exact ⟨[], .nil⟩
  | cons q qs ih =>
    obtain ⟨N, hN⟩ := multiple_of (h q (by simp))
    obtain ⟨Ns, hNs⟩ := ih (fun q hq => h q (by simp [hq]))
    exact ⟨N :: Ns, .cons hN hNs⟩

theorem numerators_sum {qs : List ℚ} {D : ℕ} {Ns : List ℤ}
    (h : List.Forall₂ (fun (q : ℚ) (N : ℤ) => q * D = N) qs Ns) :
    (qs.map (fun q : ℚ => |q * D|)).sum = (((Ns.map (fun N => |N|)).sum : ℤ) : ℚ) := by
  induction h with
  | nil => simp
  | cons h _ ih => simp only [List.map_cons, List.sum_cons, ih, h]; push_cast; rfl

/-- What fits, as whole numbers. -/
theorem Spec.Fits.grid {k : ℕ} {qs : List ℚ} (h : Fits k qs) : ∃ Ns : List ℤ,
    List.Forall₂ (fun (q : ℚ) (N : ℤ) => q * commonDen qs = N) qs Ns ∧
    ((Ns.map (fun N => |N|)).sum + 1) * (commonDen qs : ℤ) < 10 ^ k := by
  obtain ⟨Ns, hNs⟩ := numerators (fun q hq => den_dvd (qs := qs) hq)
  refine ⟨Ns, hNs, ?_⟩
  have := h
  unfold Fits at this
  rw [numerators_sum hNs] at this
  exact_mod_cast this

theorem abs_sum_nonneg (Ns : List ℤ) : 0 ≤ (Ns.map (fun N => |N|)).sum := List.sum_nonneg (by
  intro x hx; simp only [List.mem_map] at hx; obtain ⟨y, -, rfl⟩ := hx; exact abs_nonneg y)

theorem abs_le_sum {Ns : List ℤ} {N : ℤ} (h : N ∈ Ns) : |N| ≤ (Ns.map (fun N => |N|)).sum := by
  induction Ns with
  | nil => cases h
  | cons M Ns ih =>
    have := abs_sum_nonneg Ns
    have := abs_nonneg M
    simp only [List.map_cons, List.sum_cons]
    rcases List.mem_cons.1 h with rfl | h
    · omega
    · have := ih h; omega

/-- Each number that fits is on the grid. -/
theorem Spec.Fits.onGrid {k : ℕ} {qs : List ℚ} (h : Fits k qs) {n : Number} (hn : n.Canonical) (hq : n.val ∈ qs) :
    Props.OnGrid (commonDen qs) k n := by
  obtain ⟨Ns, h1, h2⟩ := h.grid
  have hD : (0:ℤ) < commonDen qs := by exact_mod_cast commonDen_pos qs
  obtain ⟨i, hi, e⟩ := List.mem_iff_getElem.mp hq
  have hi' : i < Ns.length := h1.length_eq ▸ hi
  have := (List.forall₂_iff_get.mp h1).2 i hi hi'
  simp only [List.get_eq_getElem] at this
  refine ⟨hn, Ns[i], ?_, ?_⟩
  · have hq0 : ((commonDen qs : ℤ) : ℚ) ≠ 0 := by exact_mod_cast hD.ne'
    rw [eq_div_iff hq0, ← this, e]
    push_cast
    rfl
  · have h3 := abs_le_sum (List.getElem_mem hi')
    have h4 := abs_sum_nonneg Ns
    nlinarith

theorem Spec.Fits.den {k : ℕ} {qs : List ℚ} (h : Fits k qs) : (0:ℤ) < commonDen qs ∧ (commonDen qs : ℤ) < 10 ^ k := by
  obtain ⟨Ns, h1, h2⟩ := h.grid
  have hD : (0:ℤ) < commonDen qs := by exact_mod_cast commonDen_pos qs
  refine ⟨hD, ?_⟩
  have h4 := abs_sum_nonneg Ns
  nlinarith

end fits

section rows
variable {S U R K σ : Type} {c : Calc S U R K} {op : Operation S U R σ}

/-- The operation takes no arrays. -/
def Elementwise (op : Operation S U R σ) : Prop := ∀ i, op.canBe i "array" = false ∧ op.canBe i "variable" = false

theorem spread_each (h : Elementwise op) (i : ℕ) (x : Opd S U R) : spread op i x = x.value.arr? := by
  unfold spread
  cases x.value with
  | arr l => simp [(h i).1, (h i).2, Val.arr?]
  | _ => rfl

/-- All rows have results. -/
theorem eachRow_ok {f : List (Opd S U R) → Act σ (Opd S U R)} {mk : ℕ → List (Opd S U R)} {P : ℕ → Opd S U R → Prop}
    {s : σ} : ∀ {ks : List ℕ}, (∀ k ∈ ks, ∃ r, f (mk k) s = (.ok r, s) ∧ P k r) →
    ∃ rs, eachRow f mk ks s = (.ok rs, s) ∧ List.Forall₂ P ks rs
  | [], _ => ⟨[], rfl, .nil⟩
  | k :: ks, h => by
    obtain ⟨r, h1, h2⟩ := h k (by simp)
    obtain ⟨rs, h3, h4⟩ := eachRow_ok (ks := ks) (fun j hj => h j (by simp [hj]))
    exact ⟨r :: rs, by rw [eachRow, h1]; simp only [h3], .cons h2 h4⟩

/-- What a call gives has no value that it had before, or is an error. -/
theorem call_orig {xs : List (Opd S U R)} {s s' : σ} {r : Opd S U R} (h : call c op xs s = (.ok r, s')) :
    r.orig = none ∨ r.value.err?.isSome = true := by
  have hsc : ∀ {ys : List (Opd S U R)} {r : Opd S U R} {s s' : σ}, callScalar c op ys s = (.ok r, s') →
      r.orig = none ∨ r.value.err?.isSome = true := by
    intro ys r s s' h
    unfold callScalar at h
    split at h
    · rename_i x hx
      cases h
      right
      split at hx
      · cases hx
      · simpa using List.find?_some hx
    · split at h
      · rename_i r0 s0 ha
        cases h
        left
        unfold attempt at ha
        split at ha
        · cases ha
        · split at ha
          · cases ha
          · split at ha
            · cases ha
            · cases ha; rfl
      · cases h
  unfold call at h
  rw [callF] at h
  split at h
  · split at h
    · split at h
      · cases h
      · split at h
        · cases h; exact .inl rfl
        · cases h
    · cases h
  · split at h
    · dsimp only at h
      split at h
      · split at h
        · exact hsc h
        · split at h
          · cases h; exact .inl rfl
          · cases h
      · cases h
    · exact hsc h

end rows

end MC
