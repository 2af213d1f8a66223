import Verif.Lemmas.UnitSearch

/-! # One round of the simplification of units, without looking at the value -/

namespace MC.Unit

section
variable {U D K : Type} [DecidableEq U] [DecidableEq D] [Field K] [DecidableEq K] (pw : K → ℚ → K) (N : Norm U D K)

/-- The candidates for a dimension (`unitnormaliser.py:208-211`). -/
def candidates (d : D) : List (Cand U) :=
  ((N.units.filter (fun e => e.1 = d)).flatMap (fun e => e.2.map Cand.one)) ++ (N.multiunits d).map Cand.multi

/-- The group `g` is passed over. -/
def passes (systems : List String) (l : PL U) (j : D × ℚ) (g : PL U) : Bool :=
  match multPower l g with
  | .error _ => false
  | .ok m => !(decide (1 < g.length) || soleNegative l j.2 m) ||
      (candidates N j.1).all (fun c => !c.eligible N systems (dimCount N g))

variable {N}

theorem closest_filter (g : PL U) (power mult : ℚ) (v : K) (systems : List String) (cs : List (Cand U))
    (best : Option (Cand U × K)) :
    closest pw N g power mult v systems cs best =
      closest pw N g power mult v systems (cs.filter (fun c => c.eligible N systems (dimCount N g))) best := by
  induction cs generalizing best with
  | nil => rfl
  | cons c cs ih =>
    by_cases h : c.eligible N systems (dimCount N g) = true
    · rw [List.filter_cons_of_pos h]
      unfold closest
      simp only [h, Bool.not_true, Bool.false_eq_true, if_false]
      simp only [ih]
    · rw [List.filter_cons_of_neg (by simpa using h)]
      simp only [Bool.not_eq_true] at h
      conv_lhs => unfold closest
      simp only [h, Bool.not_false, if_true]
      exact ih best

theorem tryGroups_passes {systems : List String} {l : PL U} {j : D × ℚ} {v : K} {gs rest : List (PL U)}
    (h : ∀ g ∈ gs, passes N systems l j g = true) :
    tryGroups pw N j.1 j.2 systems v l (gs ++ rest) = tryGroups pw N j.1 j.2 systems v l rest := by
  induction gs with
  | nil => rfl
  | cons g gs ih =>
    have hg := h g (by simp)
    have ih := ih (fun g hg => h g (by simp [hg]))
    unfold passes at hg
    rw [List.cons_append, tryGroups]
    cases hm : multPower l g with
    | error e => rw [hm] at hg; simp at hg
    | ok m =>
      rw [hm] at hg
      simp only [bind, Except.bind]
      by_cases hc : (decide (1 < g.length) || soleNegative l j.2 m) = true
      · rw [if_pos (by simpa using hc)]
        simp only [hc, Bool.not_true, Bool.false_or, candidates] at hg
        rw [closest_filter, List.filter_eq_nil_iff.2 (by
          intro c hc'
          have := List.all_eq_true.1 hg c hc'
          simpa using this)]
        simp only [closest]
        exact ih
      · rw [if_neg (by simpa using hc)]
        exact ih

theorem tryDims_passes {systems : List String} {l : PL U} {v : K} {es rest : List ((D × ℚ) × List (PL U))}
    (h : ∀ e ∈ es, ∀ g ∈ e.2, passes N systems l e.1 g = true) :
    tryDims pw N systems v l (es ++ rest) = tryDims pw N systems v l rest := by
  induction es with
  | nil => rfl
  | cons e es ih =>
    have ih := ih (fun e he => h e (by simp [he]))
    have := tryGroups_passes (v := v) pw (rest := []) (h e (by simp))
    rw [List.append_nil] at this
    rw [List.cons_append, tryDims, this]
    simp only [tryGroups, bind, Except.bind]
    exact ih

/-- What is left of the units when a group is taken out. -/
def without (g l : PL U) : PL U := g.foldl (fun l r => add r.1 (1 * -r.2) l) l

theorem removeEach_scale {g : PL U} (hg : ∀ o ∈ g, (N.info o.1).kind = .scale) (v : K) (l : PL U) :
    ∃ w, removeEach pw N false g (v, l) = .ok (w, without g l) := by
  induction g generalizing v l with
  | nil => exact ⟨v, rfl⟩
  | cons o g ih =>
    have ho := hg o (by simp)
    simp only [removeEach, removeConv, convert, ho, bind, Except.bind, pure, Except.pure]
    exact ih (fun o h => hg o (by simp [h])) _ _

theorem convertList_scale {g : PL U} (hg : ∀ o ∈ g, (N.info o.1).kind = .scale) (v : K) (p : ℚ) :
    ∃ w, convertList pw N.info g v p false = .ok w := by
  induction g generalizing v with
  | nil => exact ⟨v, rfl⟩
  | cons o g ih =>
    have ho := hg o (by simp)
    simp only [convertList, convert, ho, bind, Except.bind]
    exact ih (fun o h => hg o (by simp [h])) _

theorem cand_convert_scale {c : Cand U} (hc : ∀ o ∈ c.list, (N.info o.1).kind = .scale) (v : K) (p : ℚ) :
    ∃ w, c.convert pw N v p false = .ok w := by
  cases c with
  | one u =>
    have := hc (u, 1) (by simp [Cand.list])
    simp only at this
    exact ⟨v / pw (N.info u).scale p, by simp [Cand.convert, convert, this]⟩
  | multi l => exact convertList_scale pw hc v p

theorem fold_scale {g : PL U} (hg : ∀ o ∈ g, (N.info o.1).kind = .scale) (v : K) (m : ℚ) :
    ∃ w, g.foldlM (fun v u => convert pw (N.info u.1) v (-(u.2 * m)) false) v = (.ok w : Except Raise K) := by
  induction g generalizing v with
  | nil => exact ⟨v, rfl⟩
  | cons o g ih =>
    have ho := hg o (by simp)
    rw [List.foldlM_cons]
    simp only [convert, ho, bind, Except.bind]
    simp only [convert] at ih
    exact ih (fun o h => hg o (by simp [h])) _

/-- A round in which the first group that is not passed over has one eligible candidate. -/
theorem round_one {systems : List String} {l : PL U} {v : K} {j : D × ℚ} {g : PL U} {m : ℚ} {c : Cand U}
    {es post : List ((D × ℚ) × List (PL U))} {gs gpost : List (PL U)}
    (hes : ∀ e ∈ es, ∀ g ∈ e.2, passes N systems l e.1 g = true) (hgs : ∀ g ∈ gs, passes N systems l j g = true)
    (hm : multPower l g = .ok m) (hlen : 1 < g.length)
    (hc : (candidates N j.1).filter (fun c => c.eligible N systems (dimCount N g)) = [c])
    (hg : ∀ o ∈ g, (N.info o.1).kind = .scale) (hcl : ∀ o ∈ c.list, (N.info o.1).kind = .scale) :
    ∃ w, tryDims pw N systems v l (es ++ (j, gs ++ g :: gpost) :: post) =
      .ok (some (w, addAll c.list (j.2 * m) (without (g.map (fun u => (u.1, u.2 * m))) l))) := by
  rw [tryDims_passes pw hes, tryDims]
  have hcl' : ∃ w, closest pw N g j.2 m v systems (candidates N j.1) none = .ok (some (c, w)) := by
    have hel : c.eligible N systems (dimCount N g) = true := by
      have : c ∈ (candidates N j.1).filter (fun c => c.eligible N systems (dimCount N g)) := by rw [hc]; simp
      exact (List.mem_filter.1 this).2
    rw [closest_filter, hc, closest, hel]
    simp only [Bool.not_true, Bool.false_eq_true, if_false, closest]
    by_cases hv : v = 0
    · exact ⟨v, by simp only [if_pos hv]⟩
    · rw [if_neg hv]
      obtain ⟨w, hw⟩ := fold_scale pw hg v m
      obtain ⟨w', hw'⟩ := cand_convert_scale pw hcl w (j.2 * m)
      refine ⟨w', ?_⟩
      simp only [replaceValue, hw, hw', bind, Except.bind]
  obtain ⟨w, hw⟩ := hcl'
  obtain ⟨w1, h1⟩ := removeEach_scale pw (N := N) (g := g.map (fun u => (u.1, u.2 * m))) (by
    intro o ho
    obtain ⟨o', ho', rfl⟩ := List.mem_map.1 ho
    exact hg o' ho') v l
  obtain ⟨w2, h2⟩ := cand_convert_scale pw hcl w1 (j.2 * m)
  refine ⟨w2, ?_⟩
  rw [tryGroups_passes pw hgs, tryGroups, hm]
  simp only [bind, Except.bind]
  rw [if_pos (by simp [hlen])]
  simp only [candidates] at hw
  rw [hw]
  simp only [h1, h2, pure, Except.pure]

/-- A list that comes back: two lists, each of which a round turns into the other. -/
theorem loop_forever {a b : PL U}
    (ha : ∀ v : K, ∃ w, tryDims pw N (a.flatMap (fun u => (N.info u.1).systems)) v a ((simplifyJobs N).zip
      (findUnits ((simplifyJobs N).map (fun j => multiply j.2 (normDim N j.1))) (subunits N a))) = .ok (some (w, b)))
    (hb : ∀ v : K, ∃ w, tryDims pw N (b.flatMap (fun u => (N.info u.1).systems)) v b ((simplifyJobs N).zip
      (findUnits ((simplifyJobs N).map (fun j => multiply j.2 (normDim N j.1))) (subunits N b))) = .ok (some (w, a)))
    (n : ℕ) (v : K) : simplifyLoop pw N n v a = none ∧ simplifyLoop pw N n v b = none := by
  induction n generalizing v with
  | zero => exact ⟨rfl, rfl⟩
  | succ n ih =>
    obtain ⟨w, hw⟩ := ha v
    obtain ⟨w', hw'⟩ := hb v
    constructor
    · rw [simplifyLoop]
      simp only [hw]
      exact (ih w).2
    · rw [simplifyLoop]
      simp only [hw']
      exact (ih w').1

end
end MC.Unit
