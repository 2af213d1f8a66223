import Verif.Lemmas.SimplifyRound
import Verif.Lemmas.UnitConserve
import Mathlib.Tactic.Linarith
import Mathlib.Algebra.Order.Floor.Semiring

/-! # The loops over units come to an end -/

set_option linter.unusedSectionVars false

namespace MC.Unit
open Spec

section
variable {A : Type} [DecidableEq A]

/-- A weight of a list of powers. -/
def pot (f : A → ℚ → ℚ) (l : PL A) : ℚ := (l.map (fun o => f o.1 o.2)).sum

/-- The power of a unit in a list. -/
def powAt (k : A) (l : PL A) : ℚ := (find k l).getD 0

theorem find_cons (k : A) (o : A × ℚ) (l : PL A) : find k (o :: l) = if o.1 = k then some o.2 else find k l := by
  unfold find
  by_cases h : o.1 = k
  · simp [h]
  · simp [h]

theorem find_append_ne {k : A} {l m : PL A} (h : find k l ≠ none) : find k (l ++ m) = find k l := by
  induction l with
  | nil => simp [find] at h
  | cons o l ih =>
    rw [List.cons_append, find_cons, find_cons]
    rw [find_cons] at h
    split
    · rfl
    · rename_i hk
      rw [if_neg hk] at h
      exact ih h

theorem pot_bump {f : A → ℚ → ℚ} {k : A} (hf : f k 0 = 0) {p q : ℚ} {l : PL A} (h : find k l = some p) :
    pot f (bump k q l) = pot f l - f k p + f k (p + q) := by
  induction l with
  | nil => simp [find] at h
  | cons o l ih =>
    rw [find_cons] at h
    unfold bump
    by_cases hk : o.1 = k
    · rw [if_pos hk] at h
      cases h
      rw [if_pos hk]
      split
      · rename_i hz
        rw [hz, hf]
        simp [pot, hk]
      · simp [pot, hk]
        ring
    · rw [if_neg hk] at h
      rw [if_neg hk]
      have := ih h
      simp only [pot, List.map_cons, List.sum_cons] at this ⊢
      rw [this]
      ring

theorem pot_add {f : A → ℚ → ℚ} {k : A} (hf : f k 0 = 0) (q : ℚ) (l : PL A) :
    pot f (add k q l) = pot f l - f k (powAt k l) + f k (powAt k l + q) := by
  unfold add powAt
  cases h : find k l with
  | none => simp [pot, hf]
  | some p => simpa using pot_bump hf h

theorem find_bump_ne {k x : A} (hx : k ≠ x) (q : ℚ) (l : PL A) : find x (bump k q l) = find x l := by
  induction l with
  | nil => rfl
  | cons o l ih =>
    unfold bump
    split
    · rename_i hk
      have hox : ¬ o.1 = x := fun h => hx (hk.symm.trans h)
      split
      · rw [find_cons, if_neg hox]
      · rw [find_cons, find_cons]; simp [hox]
    · rw [find_cons, find_cons, ih]

theorem find_add_ne {k x : A} (hx : k ≠ x) (q : ℚ) (l : PL A) : find x (add k q l) = find x l := by
  unfold add
  cases h : find k l with
  | none =>
    simp only
    cases hf : find x l with
    | some p => rw [find_append_ne (by rw [hf]; simp), hf]
    | none =>
      rw [find_none] at hf ⊢
      simp only [List.map_append, List.map_cons, List.map_nil, List.mem_append, List.mem_singleton, not_or]
      exact ⟨hf, fun h => hx h.symm⟩
  | some p => exact find_bump_ne hx q l

theorem nodup_add {k : A} {q : ℚ} {l : PL A} (h : (l.map (·.1)).Nodup) : ((add k q l).map (·.1)).Nodup := by
  unfold add
  cases hf : find k l with
  | none =>
    have hk := find_none.1 hf
    simp only [List.map_append, List.map_cons, List.map_nil]
    rw [List.nodup_append]
    refine ⟨h, by simp, ?_⟩
    intro a ha b hb
    rw [List.mem_singleton] at hb
    subst hb
    exact fun e => hk (e ▸ ha)
  | some q' => exact (keys_bump k q l).nodup h

theorem nodup_addAll {m : PL A} {q : ℚ} {l : PL A} (h : (l.map (·.1)).Nodup) : ((addAll m q l).map (·.1)).Nodup := by
  unfold addAll
  induction m generalizing l with
  | nil => exact h
  | cons o m ih => exact ih (nodup_add h)

theorem nodup_without {g l : PL A} (h : (l.map (·.1)).Nodup) : ((without g l).map (·.1)).Nodup := by
  unfold without
  induction g generalizing l with
  | nil => exact h
  | cons o m ih => exact ih (nodup_add h)

theorem find_of_mem {k : A} {p : ℚ} {l : PL A} (hn : (l.map (·.1)).Nodup) (h : (k, p) ∈ l) : find k l = some p := by
  induction l with
  | nil => simp at h
  | cons o l ih =>
    rw [List.map_cons, List.nodup_cons] at hn
    rw [find_cons]
    rcases List.mem_cons.1 h with rfl | h
    · simp
    · rw [if_neg, ih hn.2 h]
      rintro rfl
      exact hn.1 (List.mem_map.2 ⟨_, h, rfl⟩)

/-- Taking a group out lowers the weight by the sum of what each member takes off. -/
theorem pot_without {f : A → ℚ → ℚ} (hf : ∀ k, f k 0 = 0) (δ : A × ℚ → ℚ) {g l : PL A} (hg : (g.map (·.1)).Nodup)
    (h : ∀ r ∈ g, f r.1 (powAt r.1 l + 1 * -r.2) ≤ f r.1 (powAt r.1 l) - δ r) :
    pot f (without g l) ≤ pot f l - (g.map δ).sum := by
  unfold without
  induction g generalizing l with
  | nil => simp
  | cons r g ih =>
    rw [List.map_cons, List.nodup_cons] at hg
    rw [List.foldl_cons]
    have hr := h r (by simp)
    have := ih (l := add r.1 (1 * -r.2) l) hg.2 (by
      intro r' hr'
      have hne : r.1 ≠ r'.1 := fun e => hg.1 (e ▸ List.mem_map.2 ⟨r', hr', rfl⟩)
      have := h r' (by simp [hr'])
      unfold powAt at this ⊢
      rwa [find_add_ne hne])
    rw [pot_add (hf _)] at this
    simp only [List.map_cons, List.sum_cons]
    linarith

end

theorem ok_bounds {p c : ℚ} (h : Ok (bounds p) c) (hc : c ≠ 0) :
    (p < 0 ∧ p ≤ c ∧ c < 0 ∧ ∃ k : ℕ, c = p + k) ∨ (0 < c ∧ c ≤ p ∧ ∃ k : ℕ, c = k) := by
  obtain ⟨k, hk, hw⟩ := h
  rw [width_spec (bounds_le p), ← hk] at hw
  have hk0 : (0 : ℚ) ≤ k := Nat.cast_nonneg k
  unfold bounds at hk hw
  split at hk
  · rename_i hp
    rw [if_pos hp] at hw
    simp only at hk hw
    exact .inl ⟨hp, by rw [hk]; linarith, lt_of_le_of_ne hw hc, k, hk⟩
  · rename_i hp
    rw [if_neg hp] at hw
    simp only [zero_add] at hk hw
    exact .inr ⟨lt_of_le_of_ne (hk ▸ hk0) (Ne.symm hc), hw, k, hk⟩

theorem ceil_drop {p c : ℚ} (h : Ok (bounds p) c) (hc : c ≠ 0) : ((⌈|p + 1 * -c|⌉₊ : ℕ) : ℚ) ≤ (⌈|p|⌉₊ : ℕ) - 1 := by
  have : ⌈|p + 1 * -c|⌉₊ + 1 ≤ ⌈|p|⌉₊ := by
    rcases ok_bounds h hc with ⟨h1, h2, h3, k, rfl⟩ | ⟨h1, h2, k, rfl⟩
    · have e : |p + 1 * -(p + (k : ℚ))| = k := by
        rw [show p + 1 * -(p + (k : ℚ)) = -k by ring, abs_neg, Nat.abs_cast]
      rw [e, Nat.ceil_natCast, Nat.succ_le_iff, Nat.lt_ceil, abs_of_neg h1]
      linarith
    · rw [abs_of_nonneg (by linarith), abs_of_nonneg (by linarith)]
      rw [show p + 1 * -(k : ℚ) = p - k by ring, Nat.ceil_sub_natCast]
      have hk : 1 ≤ k := by exact_mod_cast Nat.pos_of_ne_zero (by rintro rfl; simp at hc)
      have : k ≤ ⌈p⌉₊ := by
        have := Nat.ceil_mono h2
        rwa [Nat.ceil_natCast] at this
      omega
  have h' : ((⌈|p + 1 * -c|⌉₊ + 1 : ℕ) : ℚ) ≤ (⌈|p|⌉₊ : ℕ) := by exact_mod_cast this
  push_cast at h'
  linarith

section
variable {U D K : Type} [DecidableEq U] [DecidableEq D] [Field K] {pw : K → ℚ → K} {N : Norm U D K}

/-- The members of a group come from the list, each with a power the search may try. -/
theorem pick_facts {l : PL U} {c : List ℚ} (hv : Valid ((l.map (·.2)).map bounds) c) :
    ∀ r ∈ pick (subunits N l) c, r.2 ≠ 0 ∧ ∃ p, (r.1, p) ∈ l ∧ Ok (bounds p) r.2 := by
  induction l generalizing c with
  | nil => cases hv; simp [subunits, pick]
  | cons o l ih =>
    cases hv with
    | cons h1 h2 =>
      rename_i n c
      have hs : subunits N (o :: l) = (o.1, o.2, normDim N (N.info o.1).dim) :: subunits N l := rfl
      rw [hs]
      intro r hr
      unfold pick at hr
      split at hr
      · rename_i hn
        rcases List.mem_cons.1 hr with rfl | hr
        · exact ⟨hn, o.2, by simp, h1⟩
        · obtain ⟨h3, p, h4, h5⟩ := ih h2 r hr
          exact ⟨h3, p, by simp [h4], h5⟩
      · obtain ⟨h3, p, h4, h5⟩ := ih h2 r hr
        exact ⟨h3, p, by simp [h4], h5⟩

theorem removeEach_without {g : PL U} {r : Bool} {s s' : K × PL U} (h : removeEach pw N r g s = .ok s') :
    s'.2 = without g s.2 := by
  induction g generalizing s with
  | nil => cases h; rfl
  | cons o g ih =>
    simp only [removeEach, removeConv, bind, Except.bind, pure, Except.pure] at h
    split at h
    · cases h
    · rename_i hx
      split at hx
      · cases hx
      · cases hx
        exact ih h

/-- The weight for the loop: whole steps left in the units that may be replaced. -/
def steps' (ks : List U) (u : U) (p : ℚ) : ℚ := if u ∈ ks then 0 else (⌈|p|⌉₊ : ℕ)

theorem steps'_zero (ks : List U) (k : U) : steps' ks k 0 = 0 := by simp [steps']

theorem steps'_nonneg (ks : List U) (k : U) (p : ℚ) : 0 ≤ steps' ks k p := by
  unfold steps'; split <;> simp

theorem pot_nonneg (ks : List U) (l : PL U) : 0 ≤ pot (steps' ks) l :=
  List.sum_nonneg (by
    intro x hx
    obtain ⟨o, _, rfl⟩ := List.mem_map.1 hx
    exact steps'_nonneg _ _ _)

/-- One turn of the loop lowers the weight. -/
theorem leftTurn {ud : List (PL D × U)} {dims : PL D} {u : U} {p : ℚ} {r : Bool} (hu : u ∈ ud.map (·.2))
    (hg : Proper dims ∧ dims ≠ []) {s s' : K × PL U} (hn : (s.2.map (·.1)).Nodup) {found : PL U} {rest : List (PL U)}
    (hf : (findUnits [dims] (foreign N ud s.2)).headD [] = found :: rest)
    (h : (do
        let s ← addConv pw N s.1 s.2 u p r
        removeEach pw N r found s) = .ok s') :
    (s'.2.map (·.1)).Nodup ∧ pot (steps' (ud.map (·.2))) s'.2 ≤ pot (steps' (ud.map (·.2))) s.2 - 1 := by
  have hfor : foreign N ud s.2 = subunits N (s.2.filter (fun u => !(ud.map (·.2)).contains u.1)) := by
    unfold foreign
    exact subunits_filter (N := N) s.2 (fun u => !(ud.map (·.2)).contains u)
  rw [hfor] at hf
  obtain ⟨h1, h2, h3, c, h4, h5⟩ := found_one hg _ hf
  simp only [addConv, bind, Except.bind, pure, Except.pure] at h
  split at h
  · cases h
  rename_i s1 hx
  split at hx
  · cases hx
  cases hx
  have hs := removeEach_without h
  simp only at hs
  rw [hs]
  refine ⟨nodup_without (nodup_add hn), ?_⟩
  have hfn : (found.map (·.1)).Nodup := h1.nodup ((List.filter_sublist.map _).nodup hn)
  have hlen : 1 ≤ found.length := by
    rcases List.eq_nil_or_concat found with rfl | ⟨l, a, rfl⟩
    · exfalso
      obtain ⟨o, ho⟩ := List.exists_mem_of_ne_nil _ hg.2
      have := h3 o.1
      rw [total_of_mem hg.1.1 ho] at this
      exact hg.1.2 o ho (by rw [← this]; simp [dimOf])
    · simp
  have hw := pot_without (f := steps' (ud.map (·.2))) (steps'_zero _) (fun _ => 1) (g := found) (l := add u (1 * p) s.2) hfn (by
    intro r hr
    rw [h5] at hr
    obtain ⟨h6, p', h7, h8⟩ := pick_facts h4 r hr
    obtain ⟨h9, h10⟩ := List.mem_filter.1 h7
    simp only [List.contains_eq_mem, Bool.not_eq_true', decide_eq_false_iff_not] at h10
    have hne : u ≠ r.1 := fun e => h10 (e ▸ hu)
    have hp : powAt r.1 (add u (1 * p) s.2) = p' := by
      unfold powAt
      rw [find_add_ne hne, find_of_mem hn h9]; rfl
    rw [hp]
    unfold steps'
    rw [if_neg h10, if_neg h10]
    exact ceil_drop h8 h6)
  rw [pot_add (steps'_zero _ _)] at hw
  have hz : ∀ q, steps' (ud.map (·.2)) u q = 0 := fun q => by unfold steps'; rw [if_pos hu]
  rw [hz, hz] at hw
  simp only [List.map_const', List.sum_replicate, nsmul_eq_mul, mul_one] at hw
  have : (1 : ℚ) ≤ found.length := by exact_mod_cast hlen
  linarith

/-- The answer of a loop from some number of steps on. -/
def Settles {α : Type} (f : ℕ → Option α) (r : α) : Prop := ∃ n0, ∀ n ≥ n0, f n = some r

theorem leftLoop_settles {ud : List (PL D × U)} {dims : PL D} {u : U} {p : ℚ} {r : Bool} (hu : u ∈ ud.map (·.2))
    (hg : Proper dims ∧ dims ≠ []) (m : ℕ) {s : K × PL U} (hn : (s.2.map (·.1)).Nodup)
    (hm : pot (steps' (ud.map (·.2))) s.2 ≤ m) :
    ∃ a, (∀ n, m < n → leftLoop pw N ud dims u p r n s = some a) ∧
      ∀ s', a = .ok s' → (s'.2.map (·.1)).Nodup ∧ pot (steps' (ud.map (·.2))) s'.2 ≤ m := by
  induction m generalizing s with
  | zero =>
    cases hf : (findUnits [dims] (foreign N ud s.2)).headD [] with
    | nil =>
      refine ⟨.ok s, ?_, ?_⟩
      · intro n hn
        obtain ⟨n, rfl⟩ : ∃ k, n = k + 1 := ⟨n - 1, by omega⟩
        simp only [leftLoop, hf]
      · rintro s' h; cases h; exact ⟨hn, hm⟩
    | cons found rest =>
      cases hb : (do
        let s ← addConv pw N s.1 s.2 u p r
        removeEach pw N r found s) with
      | error e =>
        refine ⟨.error e, ?_, by simp⟩
        intro n hn
        obtain ⟨n, rfl⟩ : ∃ k, n = k + 1 := ⟨n - 1, by omega⟩
        simp only [leftLoop, hf, hb]
      | ok s' =>
        exfalso
        have := (leftTurn hu hg hn hf hb).2
        have h0 := pot_nonneg (ud.map (·.2)) s'.2
        simp only [Nat.cast_zero] at hm
        linarith
  | succ m ih =>
    cases hf : (findUnits [dims] (foreign N ud s.2)).headD [] with
    | nil =>
      refine ⟨.ok s, ?_, ?_⟩
      · intro n hn
        obtain ⟨n, rfl⟩ : ∃ k, n = k + 1 := ⟨n - 1, by omega⟩
        simp only [leftLoop, hf]
      · rintro s' h; cases h; exact ⟨hn, hm⟩
    | cons found rest =>
      cases hb : (do
        let s ← addConv pw N s.1 s.2 u p r
        removeEach pw N r found s) with
      | error e =>
        refine ⟨.error e, ?_, by simp⟩
        intro n hn
        obtain ⟨n, rfl⟩ : ∃ k, n = k + 1 := ⟨n - 1, by omega⟩
        simp only [leftLoop, hf, hb]
      | ok s' =>
        obtain ⟨h1, h2⟩ := leftTurn hu hg hn hf hb
        obtain ⟨a, h3, h4⟩ := ih h1 (by push_cast at hm; linarith)
        refine ⟨a, ?_, ?_⟩
        · intro n hn
          obtain ⟨n, rfl⟩ : ∃ k, n = k + 1 := ⟨n - 1, by omega⟩
          simp only [leftLoop, hf, hb]
          exact h3 n (by omega)
        · intro s'' h
          obtain ⟨h5, h6⟩ := h4 s'' h
          exact ⟨h5, by push_cast; linarith⟩

theorem eachOpt_settles {α σ : Type} {f : ℕ → α → σ → Option (Except Raise σ)} {Q : σ → Prop} {m : ℕ} {js : List α}
    (hf : ∀ j ∈ js, ∀ s, Q s → ∃ a, (∀ n, m < n → f n j s = some a) ∧ ∀ s', a = .ok s' → Q s') {s : σ} (hs : Q s) :
    ∃ a, (∀ n, m < n → eachOpt (f n) js s = some a) ∧ ∀ s', a = .ok s' → Q s' := by
  induction js generalizing s with
  | nil => exact ⟨.ok s, fun _ _ => rfl, fun s' h => by cases h; exact hs⟩
  | cons j js ih =>
    obtain ⟨a, h1, h2⟩ := hf j (by simp) s hs
    cases a with
    | error e => exact ⟨.error e, fun n hn => by simp only [eachOpt, h1 n hn], by simp⟩
    | ok s' =>
      obtain ⟨a, h3, h4⟩ := ih (fun j hj => hf j (by simp [hj])) (h2 s' rfl)
      exact ⟨a, fun n hn => by simp only [eachOpt, h1 n hn]; exact h3 n hn, h4⟩

theorem fromLeft_settles (hR : GoodRel N) (l₁ : PL U) {s : K × PL U} (hn : (s.2.map (·.1)).Nodup) (r : Bool) :
    ∃ a, Settles (fun n => fromLeft pw N n l₁ s r) a ∧ ∀ s', a = .ok s' → (s'.2.map (·.1)).Nodup := by
  obtain ⟨m, hm⟩ : ∃ m : ℕ, pot (steps' ((unitsByDim N l₁).map (·.2))) s.2 ≤ m := ⟨_, Nat.le_ceil _⟩
  have hud : GoodUD N (fun _ => True) (unitsByDim N l₁) := unitsByDim_good hR (fun _ _ => trivial)
  obtain ⟨a, h1, h2⟩ := eachOpt_settles (m := m) (js := jobs (unitsByDim N l₁))
    (f := fun n j s => leftLoop pw N (unitsByDim N l₁) j.1 j.2.1 j.2.2 r n s)
    (Q := fun s => (s.2.map (·.1)).Nodup ∧ pot (steps' ((unitsByDim N l₁).map (·.2))) s.2 ≤ m) (by
      intro j hj s hs
      obtain ⟨e, he, hp, hu, hd⟩ := jobs_mem hj
      have hp0 : j.2.2 ≠ 0 := by rcases hp with h | h <;> rw [h] <;> norm_num
      exact leftLoop_settles (hu ▸ List.mem_map.2 ⟨e, he, rfl⟩) (hd ▸ multiply_good (hud e he).2.1 hp0) m hs.1 hs.2) ⟨hn, hm⟩
  exact ⟨a, ⟨m + 1, fun n hn => h1 n (by omega)⟩, fun s' h => (h2 s' h).1⟩

/-- The units of an operand are distinct. -/
def Distinct (x : K × Option (PL U)) : Prop := ((x.2.getD []).map (·.1)).Nodup

theorem addEach_nodup {g : PL U} {r : Bool} {s s' : K × PL U} (hn : (s.2.map (·.1)).Nodup) (h : addEach pw N r g s = .ok s') :
    (s'.2.map (·.1)).Nodup := by
  induction g generalizing s with
  | nil => cases h; exact hn
  | cons o g ih =>
    simp only [addEach, addConv, bind, Except.bind, pure, Except.pure] at h
    split at h
    · cases h
    · rename_i hx
      split at hx
      · cases hx
      · cases hx
        exact ih (nodup_add hn) h

theorem rightStep_nodup {l₁ : PL U} {r : Bool} {j : PL D × U × ℚ} {s s' : K × PL U} (hn : (s.2.map (·.1)).Nodup)
    (h : rightStep pw N l₁ r j s = .ok s') : (s'.2.map (·.1)).Nodup := by
  unfold rightStep at h
  split at h
  · cases h; exact hn
  · simp only [removeConv, bind, Except.bind, pure, Except.pure] at h
    split at h
    · cases h
    · rename_i hx
      split at hx
      · cases hx
      · cases hx
        exact addEach_nodup (nodup_add hn) h

theorem fromRight_nodup {l₁ : PL U} {r : Bool} {s s' : K × PL U} (hn : (s.2.map (·.1)).Nodup)
    (h : fromRight pw N l₁ s r = .ok s') : (s'.2.map (·.1)).Nodup := by
  unfold fromRight at h
  generalize jobs (unitsByDim N s.2) = js at h
  induction js generalizing s with
  | nil => cases h; exact hn
  | cons j js ih =>
    rw [List.foldlM_cons] at h
    simp only [bind, Except.bind] at h
    split at h
    · cases h
    · rename_i hx
      exact ih (rightStep_nodup hn hx) h

theorem normPair_settles (hR : GoodRel N) (r : Bool) {a b : K × Option (PL U)} (hb : Distinct b) :
    ∃ x, Settles (fun n => normPair pw N n r a b) x ∧ ∀ b', x = .ok b' → Distinct b' := by
  obtain ⟨v, ua⟩ := a
  obtain ⟨w, ub⟩ := b
  cases ua with
  | none => exact ⟨.ok (w, ub), ⟨0, fun _ _ => rfl⟩, fun b' h => by cases h; exact hb⟩
  | some l₁ =>
    cases ub with
    | none => exact ⟨.ok (w, none), ⟨0, fun _ _ => rfl⟩, fun b' h => by cases h; exact hb⟩
    | some l₂ =>
      obtain ⟨x, ⟨n0, h1⟩, h2⟩ := fromLeft_settles (pw := pw) hR l₁ (s := (w, l₂)) hb r
      beta_reduce at h1
      cases x with
      | error e => exact ⟨.error e, ⟨n0, fun n hn => by simp only [normPair]; rw [h1 n hn]⟩, by simp⟩
      | ok s =>
        have hs := h2 s rfl
        refine ⟨match checkEmpty l₁, checkEmpty s.2 with
          | some l₁, some l₂ => (do
              let s ← fromRight pw N l₁ (s.1, l₂) r
              return (s.1, checkEmpty s.2))
          | _, _ => .error (.py "'NoneType' object has no attribute 'copy'"), ⟨n0, fun n hn => ?_⟩, ?_⟩
        · simp only [normPair]
          rw [h1 n hn]
          dsimp only
          cases checkEmpty l₁ <;> cases checkEmpty s.2 <;> rfl
        · intro b' hb'
          split at hb'
          · rename_i l1 l2 h3 h4
            simp only [bind, Except.bind, pure, Except.pure] at hb'
            split at hb'
            · cases hb'
            · rename_i s2 h5
              cases hb'
              have hl2 : l2 = s.2 := by
                unfold checkEmpty at h4
                split at h4
                · cases h4
                · cases h4; rfl
              subst hl2
              have := fromRight_nodup (s := (s.1, s.2)) hs h5
              unfold Distinct checkEmpty
              simp only
              split
              · simp
              · exact this
          · cases hb'

theorem normAfter_settles (hR : GoodRel N) (r : Bool) (a : K × Option (PL U)) {bs : List (K × Option (PL U))}
    (hb : ∀ b ∈ bs, Distinct b) :
    ∃ x, Settles (fun n => normAfter pw N n r a bs) x ∧ ∀ bs', x = .ok bs' → ∀ b ∈ bs', Distinct b := by
  induction bs with
  | nil => exact ⟨.ok [], ⟨0, fun _ _ => rfl⟩, fun b' h => by cases h; simp⟩
  | cons b bs ih =>
    obtain ⟨x, ⟨n0, h1⟩, h2⟩ := normPair_settles (pw := pw) hR r (a := a) (hb b (by simp))
    beta_reduce at h1
    cases x with
    | error e => exact ⟨.error e, ⟨n0, fun n hn => by simp only [normAfter]; rw [h1 n hn]⟩, by simp⟩
    | ok b' =>
      obtain ⟨y, ⟨n1, h3⟩, h4⟩ := ih (fun b hb' => hb b (by simp [hb']))
      beta_reduce at h3
      cases y with
      | error e =>
        exact ⟨.error e, ⟨max n0 n1, fun n hn => by
          simp only [normAfter]; rw [h1 n (by omega)]; simp only; rw [h3 n (by omega)]⟩, by simp⟩
      | ok bs' =>
        refine ⟨.ok (b' :: bs'), ⟨max n0 n1, fun n hn => by
          simp only [normAfter]; rw [h1 n (by omega)]; simp only; rw [h3 n (by omega)]⟩, ?_⟩
        intro l h
        cases h
        intro b hb
        rcases List.mem_cons.1 hb with rfl | hb
        · exact h2 _ rfl
        · exact h4 _ rfl b hb

theorem normMulti_settles (hR : GoodRel N) (r : Bool) {xs : List (K × Option (PL U))} (hb : ∀ b ∈ xs, Distinct b) :
    ∃ x, Settles (fun n => normMulti pw N n r xs) x ∧ ∀ bs', x = .ok bs' → ∀ b ∈ bs', Distinct b := by
  induction xs with
  | nil => exact ⟨.ok [], ⟨0, fun _ _ => rfl⟩, fun b' h => by cases h; simp⟩
  | cons a as ih =>
    obtain ⟨y, ⟨n1, h3⟩, h4⟩ := ih (fun b hb' => hb b (by simp [hb']))
    beta_reduce at h3
    cases y with
    | error e => exact ⟨.error e, ⟨n1, fun n hn => by simp only [normMulti]; rw [h3 n hn]⟩, by simp⟩
    | ok as' =>
      obtain ⟨x, ⟨n0, h1⟩, h2⟩ := normAfter_settles (pw := pw) hR r a (h4 as' rfl)
      beta_reduce at h1
      cases x with
      | error e =>
        exact ⟨.error e, ⟨max n0 n1, fun n hn => by
          simp only [normMulti]; rw [h3 n (by omega)]; simp only; rw [h1 n (by omega)]⟩, by simp⟩
      | ok bs' =>
        refine ⟨.ok (a :: bs'), ⟨max n0 n1, fun n hn => by
          simp only [normMulti]; rw [h3 n (by omega)]; simp only; rw [h1 n (by omega)]⟩, ?_⟩
        intro l h
        cases h
        intro b hb'
        rcases List.mem_cons.1 hb' with rfl | hb'
        · exact hb _ (by simp)
        · exact h2 _ rfl b hb'

theorem normaliseInputs_settles (hR : GoodRel N) (multi r : Bool) {xs : List (K × Option (PL U))} (hb : ∀ b ∈ xs, Distinct b) :
    ∃ x, Settles (fun n => normaliseInputs pw N n multi r xs) x := by
  unfold normaliseInputs
  simp only
  split
  · exact ⟨_, 0, fun _ _ => rfl⟩
  · split
    · obtain ⟨x, ⟨n0, h1⟩, -⟩ := normMulti_settles (pw := pw) hR r hb
      beta_reduce at h1
      refine ⟨x.bind (fun a => .ok (a, none)), n0, fun n hn => ?_⟩
      dsimp only
      rw [h1 n hn]
      rfl
    · exact ⟨_, 0, fun _ _ => rfl⟩

theorem normAfter_length {n : ℕ} {r : Bool} {a : K × Option (PL U)} {bs ys : List (K × Option (PL U))}
    (h : normAfter pw N n r a bs = some (.ok ys)) : ys.length = bs.length := by
  induction bs generalizing ys with
  | nil => cases h; rfl
  | cons b bs ih =>
    unfold normAfter at h
    split at h
    · cases h
    · cases h
    · split at h
      · cases h
      · cases h
      · rename_i h'
        cases h
        simp [ih h']

theorem normMulti_length {n : ℕ} {r : Bool} {xs ys : List (K × Option (PL U))}
    (h : normMulti pw N n r xs = some (.ok ys)) : ys.length = xs.length := by
  induction xs generalizing ys with
  | nil => cases h; rfl
  | cons b bs ih =>
    unfold normMulti at h
    split at h
    · cases h
    · cases h
    · rename_i h1
      split at h
      · cases h
      · cases h
      · rename_i h2
        cases h
        simp [normAfter_length h2, ih h1]

theorem mapM_length {α β : Type} {f : α → Except Raise β} {xs : List α} {ys : List β} (h : xs.mapM f = .ok ys) :
    ys.length = xs.length := by
  induction xs generalizing ys with
  | nil => cases h; rfl
  | cons x xs ih =>
    simp only [List.mapM_cons, bind, Except.bind, pure, Except.pure] at h
    split at h
    · cases h
    · split at h
      · cases h
      · rename_i h'
        cases h
        simp [ih h']

/-- There are as many operands after as before. -/
theorem normaliseInputs_length {n : ℕ} {multi r : Bool} {xs ys : List (K × Option (PL U))} {ru : Option (PL U)}
    (h : normaliseInputs pw N n multi r xs = some (.ok (ys, ru))) : ys.length = xs.length := by
  unfold normaliseInputs at h
  simp only at h
  split at h
  · cases h; rfl
  · split at h
    · split at h
      · cases h
      · rename_i a ha
        cases a with
        | error e => cases h
        | ok zs =>
          cases h
          exact normMulti_length ha
    · cases hs : normSame pw N r xs with
      | error e => rw [hs] at h; cases h
      | ok zs =>
        rw [hs] at h
        cases h
        cases xs with
        | nil => cases hs; rfl
        | cons a as =>
          simp only [normSame, bind, Except.bind, pure, Except.pure] at hs
          split at hs
          · cases hs
          · rename_i hm
            cases hs
            simp [mapM_length hm]

end
end MC.Unit
