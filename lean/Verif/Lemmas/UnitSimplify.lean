import Verif.Lemmas.UnitConserve

/-! # `simplify_units` and `dedupe` -/

set_option linter.unusedSectionVars false

namespace MC.Unit
open Spec

section
variable {U D K : Type} [DecidableEq U] [DecidableEq D] [Field K] [DecidableEq K]
variable {pw : K → ℚ → K} {N : Norm U D K} {t : D}

theorem closest_mem {found : PL U} {power mult : ℚ} {v : K} {systems : List String}
    {cands : List (Cand U)} {best res : Option (Cand U × K)}
    (h : closest pw N found power mult v systems cands best = .ok res) :
    ∀ c w, res = some (c, w) → c ∈ cands ∨ ∃ w', best = some (c, w') := by
  induction cands generalizing best with
  | nil =>
    cases h
    intro c w hc
    exact .inr ⟨w, hc⟩
  | cons a cands ih =>
    intro c w hc
    have up : (c ∈ cands ∨ ∃ w', best = some (c, w')) →
        c ∈ a :: cands ∨ ∃ w', best = some (c, w') := by
      rintro (h | h)
      · exact .inl (List.mem_cons_of_mem _ h)
      · exact .inr h
    have new : ∀ x : K, (c ∈ cands ∨ ∃ w' : K, some (a, x) = some (c, w')) →
        c ∈ a :: cands ∨ ∃ w', best = some (c, w') := by
      rintro x (h | ⟨w', h⟩)
      · exact .inl (List.mem_cons_of_mem _ h)
      · cases h; exact .inl List.mem_cons_self
    unfold closest at h
    split at h
    · exact up (ih h c w hc)
    · split at h
      · split at h
        · exact new _ (ih h c w hc)
        · split at h
          · exact new _ (ih h c w hc)
          · exact up (ih h c w hc)
        · exact absurd h (by simp)
      · cases hr : replaceValue pw N found a power mult v with
        | error e => rw [hr] at h; exact absurd h (by simp [bind, Except.bind])
        | ok x =>
          rw [hr] at h
          change (match best with
            | none => closest pw N found power mult v systems cands (some (a, x))
            | some b => do
              let better ← N.closer x b.2
              closest pw N found power mult v systems cands
                (if better then some (a, x) else best)) = .ok res at h
          cases best with
          | none => exact new _ (ih h c w hc)
          | some b =>
            simp only at h
            cases hb : N.closer x b.2 with
            | error e => rw [hb] at h; exact absurd h (by simp [bind, Except.bind])
            | ok better =>
              rw [hb] at h
              change closest pw N found power mult v systems cands
                (if better then some (a, x) else some b) = .ok res at h
              cases better with
              | true => exact new _ (ih h c w hc)
              | false => exact up (ih h c w hc)

theorem candConvert_ok (hL : Lawful pw N) {P : U → Prop} (hP : Prop' N false P) {c : Cand U}
    (hc : All P c.list) (v : K) (p : ℚ) :
    c.convert pw N v p false = .ok (v / size pw N (multiply p c.list)) := by
  cases c with
  | one u =>
    unfold Cand.convert Cand.list
    simp only
    rw [convert_ok hL u v p false (hP u (hc (u, 1) List.mem_cons_self))]
    simp [multiply, size]
  | multi l =>
    unfold Cand.convert Cand.list
    simp only
    exact convertList_ok hL l v p false (fun o ho => hP o.1 (hc o ho))

theorem multPower_ne {l : PL U} (hl : Proper l) {found : PL U} (hf : ∀ o ∈ found, o.2 ≠ 0)
    {m : ℚ} (h : multPower l found = .ok m) : m ≠ 0 := by
  induction found generalizing m with
  | nil => exact absurd h (by simp [multPower])
  | cons u us ih =>
    unfold multPower at h
    cases hu : find u.1 l with
    | none => rw [hu] at h; exact absurd h (by simp)
    | some p =>
      rw [hu] at h
      have hp : p ≠ 0 := hl.2 _ (find_some hu)
      have hpu : p / u.2 ≠ 0 := div_ne_zero hp (hf u List.mem_cons_self)
      cases us with
      | nil => cases h; exact hpu
      | cons u' us =>
        simp only at h
        cases hr : multPower l (u' :: us) with
        | error e => rw [hr] at h; exact absurd h (by simp [bind, Except.bind])
        | ok q =>
          rw [hr] at h
          cases h
          have := ih (fun o ho => hf o (List.mem_cons_of_mem _ ho)) hr
          rcases min_choice (p / u.2) q with h | h <;> rw [h] <;> assumption

/-- The groups the search returned for one dimension and sign. -/
def GoodGroups (N : Norm U D K) (l : PL U) (d : D) (power : ℚ) (groups : List (PL U)) : Prop :=
  ∀ r ∈ groups, (r.map (·.1)).Sublist (l.map (·.1)) ∧ (∀ o ∈ r, o.2 ≠ 0) ∧
    ∀ x, dimOf N r x = power * total (normDim N d) x

theorem dimOf_scaled (l : PL U) (m : ℚ) (d : D) :
    dimOf N (l.map (fun u => (u.1, u.2 * m))) d = m * dimOf N l d := dimOf_multiply m l d

theorem tryGroups_keeps (hL : Lawful pw N) {P : U → Prop} (hP : Prop' N false P) {d : D}
    {power : ℚ} (hp : power ≠ 0)
    (hc : ∀ c, (c ∈ (N.units.filter (fun e => e.1 = d)).flatMap (fun e => e.2.map Cand.one)
        ++ (N.multiunits d).map Cand.multi) →
      All P c.list ∧ Proper c.list ∧ ∀ x, dimOf N c.list x = total (normDim N d) x)
    {systems : List String} {v : K} {l : PL U} (hl : All P l) {groups : List (PL U)}
    (hg : GoodGroups N l d power groups) {s : K × PL U}
    (h : tryGroups pw N d power systems v l groups = .ok (some s)) :
    s.1 * size pw N s.2 = v * size pw N l ∧ (∀ x, dimOf N s.2 x = dimOf N l x) ∧ All P s.2 ∧
      (Proper l → Proper s.2) := by
  induction groups with
  | nil => exact absurd h (by simp [tryGroups])
  | cons found rest ih =>
    have ih := ih (fun r hr => hg r (List.mem_cons_of_mem _ hr))
    obtain ⟨g1, g2, g3⟩ := hg found List.mem_cons_self
    unfold tryGroups at h
    cases hm : multPower l found with
    | error e => rw [hm] at h; exact absurd h (by simp [bind, Except.bind])
    | ok mult =>
      rw [hm] at h
      simp only [bind, Except.bind] at h
      split at h
      · cases hcl : closest pw N found power mult v systems
          ((N.units.filter (fun e => e.1 = d)).flatMap (fun e => e.2.map Cand.one)
            ++ (N.multiunits d).map Cand.multi) none with
        | error e => rw [hcl] at h; exact absurd h (by simp)
        | ok best =>
          rw [hcl] at h
          simp only at h
          cases best with
          | none => exact ih h
          | some cw =>
            obtain ⟨c, w⟩ := cw
            simp only at h
            have hmem := closest_mem hcl c w rfl
            rcases hmem with hmem | ⟨w', hw'⟩
            swap
            · exact absurd hw' (by simp)
            obtain ⟨c1, c2, c3⟩ := hc c hmem
            have hfound : All P (found.map (fun u => (u.1, u.2 * mult))) := by
              intro o ho
              obtain ⟨o', ho', rfl⟩ := List.mem_map.1 ho
              exact hl.keys g1 o' ho'
            obtain ⟨s1, e1, e2, e3, e4, _, e6⟩ := removeEach_ok hL hP
              (found.map (fun u => (u.1, u.2 * mult))) (v, l) hfound hl
            rw [e1] at h
            simp only at h
            rw [candConvert_ok hL hP c1] at h
            cases h
            refine ⟨?_, ?_, e4.addAll c1, ?_⟩
            · simp only
              rw [size_multiply_add hL]
              have := size_ne hL (multiply (power * mult) c.list)
              rw [← e2]
              field_simp
            · intro x
              simp only
              rw [dimOf_addAll, e3, dimOf_scaled, g3, c3]
              simp only
              ring
            · intro hpl
              have hm0 := multPower_ne hpl g2 hm
              refine proper_addAll (e6 hpl ?_) c2.2 (mul_ne_zero hp hm0)
              intro o ho
              obtain ⟨o', ho', rfl⟩ := List.mem_map.1 ho
              exact mul_ne_zero (g2 o' ho') hm0
      · exact ih h

theorem tryGroups_nil {d : D} {power : ℚ} {systems : List String} {v : K} {l : PL U}
    {s : K × PL U} (h : tryGroups pw N d power systems v l [] = .ok (some s)) : False := by
  exact absurd h (by simp [tryGroups])

theorem tryDims_keeps {Q : K × PL U → Prop} {systems : List String} {v : K} {l : PL U}
    {es : List ((D × ℚ) × List (PL U))}
    (hq : ∀ e ∈ es, ∀ s, tryGroups pw N e.1.1 e.1.2 systems v l e.2 = .ok (some s) → Q s)
    {s : K × PL U} (h : tryDims pw N systems v l es = .ok (some s)) : Q s := by
  induction es with
  | nil => exact absurd h (by simp [tryDims])
  | cons e es ih =>
    unfold tryDims at h
    cases ht : tryGroups pw N e.1.1 e.1.2 systems v l e.2 with
    | error x => rw [ht] at h; exact absurd h (by simp [bind, Except.bind])
    | ok res =>
      rw [ht] at h
      simp only [bind, Except.bind] at h
      cases res with
      | some s' =>
        cases h
        exact hq e List.mem_cons_self s ht
      | none => exact ih (fun e' he' => hq e' (List.mem_cons_of_mem _ he')) h

theorem goodRel (hC : Coherent N) : GoodRel N := hC.rel

theorem total_normDim' (d x : D) : total (normDim N d) x = match N.rel d with
      | some l => total l x
      | none => if d = x then 1 else 0 := by
  unfold normDim
  cases N.rel d with
  | some l => rfl
  | none => simp only; rw [total_cons]; simp

theorem simplifyJobs_mem {j : D × ℚ} (h : j ∈ simplifyJobs N) :
    (∃ e ∈ N.units, j.1 = e.1) ∧ (j.2 = 1 ∨ j.2 = -1) := by
  unfold simplifyJobs at h
  rw [List.mem_flatMap] at h
  obtain ⟨e, he, hj⟩ := h
  simp only [List.mem_cons, List.not_mem_nil, or_false] at hj
  rcases hj with rfl | rfl
  · exact ⟨⟨e, he, rfl⟩, .inl rfl⟩
  · exact ⟨⟨e, he, rfl⟩, .inr rfl⟩

theorem cands_good (hC : Coherent N) (hT : Thermal N t) {d : D} (hd : d ≠ t) {e : D × List U}
    (he : e ∈ N.units) (hed : d = e.1) (c : Cand U)
    (h : c ∈ (N.units.filter (fun e => e.1 = d)).flatMap (fun e => e.2.map Cand.one)
        ++ (N.multiunits d).map Cand.multi) :
    All (fun u => (N.info u).dim ≠ t) c.list ∧ Proper c.list ∧
      ∀ x, dimOf N c.list x = total (normDim N d) x := by
  rcases List.mem_append.1 h with h | h
  · rw [List.mem_flatMap] at h
    obtain ⟨e', he', hc⟩ := h
    obtain ⟨u, hu, rfl⟩ := List.mem_map.1 hc
    rw [List.mem_filter, decide_eq_true_eq] at he'
    have hdim : (N.info u).dim = d := (hC.units e' he'.1 u hu).trans he'.2
    refine ⟨?_, ⟨by simp [Cand.list], by simp [Cand.list]⟩, ?_⟩
    · intro o ho
      simp only [Cand.list, List.mem_singleton] at ho
      subst ho
      simp only [hdim]
      exact hd
    · intro x
      simp only [Cand.list, dimOf_cons, dimOf_nil, add_zero, one_mul]
      rw [← total_normDim, hdim]
  · obtain ⟨m, hm, rfl⟩ := List.mem_map.1 h
    refine ⟨?_, ?_, ?_⟩
    · intro o ho
      exact hT.multi d hd m hm o ho
    · exact (hC.multi e he m (hed ▸ hm)).1
    · intro x
      rw [total_normDim', hed]
      exact (hC.multi e he m (hed ▸ hm)).2 x

theorem without_prop (hT : Thermal N t) : Prop' N false (fun u => (N.info u).dim ≠ t) :=
  fun u hu => .inr (hT.kind u hu)

/-- The groups that belong to a job of the simplification. -/
theorem job_groups (hC : Coherent N) {l : PL U} {e : (D × ℚ) × List (PL U)}
    (h : e ∈ (simplifyJobs N).zip (findUnits
      ((simplifyJobs N).map (fun j => multiply j.2 (normDim N j.1))) (subunits N l))) :
    e.1 ∈ simplifyJobs N ∧ GoodGroups N l e.1.1 e.1.2 e.2 := by
  obtain ⟨j, hj⟩ := List.mem_iff_getElem?.1 h
  rw [List.getElem?_zip_eq_some] at hj
  have hmem : e.1 ∈ simplifyJobs N := List.mem_of_getElem? hj.1
  have hp : e.1.2 ≠ 0 := by
    rcases (simplifyJobs_mem hmem).2 with h | h <;> rw [h] <;> norm_num
  have hgood := multiply_good (normDim_good (goodRel hC) e.1.1) hp
  have hget : ((simplifyJobs N).map (fun j => multiply j.2 (normDim N j.1)))[j]?
      = some (multiply e.1.2 (normDim N e.1.1)) := by
    rw [List.getElem?_map, hj.1]; rfl
  obtain ⟨fl, h1, h2, _⟩ := findUnits_get (N := N) hget hgood.1.1 hgood.2 hgood.1.2 l
  have : fl = e.2 := Option.some.inj (h1.symm.trans hj.2)
  subst this
  refine ⟨hmem, ?_⟩
  intro r hr
  obtain ⟨c, hc, hrc, hd⟩ := (h2 r).1 hr
  refine ⟨?_, ?_, ?_⟩
  · rw [hrc]; exact pick_keys l c
  · rw [hrc]; exact pick_nonzero _ c
  · intro x; rw [hd x, total_multiply]

/-- Units that do not involve temperature have no part with the dimension of temperature. -/
theorem no_thermal_groups (hT : Thermal N t) {l : PL U} (hl : Without N t l) {power : ℚ}
    (hp : power ≠ 0) {groups : List (PL U)} (hg : GoodGroups N l t power groups) :
    groups = [] := by
  cases groups with
  | nil => rfl
  | cons r rs =>
    obtain ⟨h1, _, h3⟩ := hg r List.mem_cons_self
    have hall : All (fun u => (N.info u).dim ≠ t) r := All.keys (l := l) hl h1
    have hz : ∀ m : PL U, All (fun u => (N.info u).dim ≠ t) m → dimOf N m t = 0 := by
      intro m
      induction m with
      | nil => intro _; rfl
      | cons o m ih =>
        intro hm
        rw [dimOf_cons, hT.apart o.1 (hm o List.mem_cons_self),
          ih (fun o' ho' => hm o' (List.mem_cons_of_mem _ ho'))]
        simp
    have := h3 t
    rw [hz r hall, total_normDim', hT.base] at this
    simp only [if_true, mul_one] at this
    exact absurd this.symm hp

theorem simplifyLoop_keeps (hL : Lawful pw N) (hC : Coherent N) (hT : Thermal N t) (n : ℕ)
    {v : K} {l : PL U} (hl : Without N t l) {s : K × PL U}
    (h : simplifyLoop pw N n v l = some (.ok s)) :
    Keeps pw N (fun u => (N.info u).dim ≠ t) (v, l) s := by
  induction n generalizing v l with
  | zero => exact absurd h (by simp [simplifyLoop])
  | succ n ih =>
    unfold simplifyLoop at h
    simp only at h
    cases hd : tryDims pw N (l.flatMap (fun u => (N.info u.1).systems)) v l
        ((simplifyJobs N).zip (findUnits
          ((simplifyJobs N).map (fun j => multiply j.2 (normDim N j.1))) (subunits N l))) with
    | error e => rw [hd] at h; exact absurd h (by simp)
    | ok res =>
      rw [hd] at h
      cases res with
      | none => cases h; exact Keeps.refl hl
      | some s' =>
        simp only at h
        have hk : Keeps pw N (fun u => (N.info u).dim ≠ t) (v, l) s' := by
          refine tryDims_keeps (Q := Keeps pw N (fun u => (N.info u).dim ≠ t) (v, l)) ?_ hd
          intro e he s hs
          obtain ⟨hj, hg⟩ := job_groups hC he
          obtain ⟨⟨e0, he0, hd0⟩, hp⟩ := simplifyJobs_mem hj
          have hp0 : e.1.2 ≠ 0 := by rcases hp with h | h <;> rw [h] <;> norm_num
          by_cases ht : e.1.1 = t
          · rw [ht] at hg
            rw [no_thermal_groups hT hl hp0 hg] at hs
            exact absurd hs (fun h => tryGroups_nil h)
          · have := tryGroups_keeps hL (without_prop hT) hp0
              (cands_good hC hT ht he0 hd0) hl hg hs
            exact ⟨this.1, this.2.1, this.2.2.1, this.2.2.2⟩
        exact hk.trans (ih hk.all h)

/-! ### `dedupe` -/

theorem at_mem {l : PL U} {i : ℕ} {o : U × ℚ} (h : at' l i = .ok o) : o ∈ l := by
  unfold at' at h
  cases hl : l[i]? with
  | none => rw [hl] at h; exact absurd h (by simp)
  | some o' => rw [hl] at h; cases h; exact List.mem_of_getElem? hl

/-- `dedupe` keeps the quantity. -/
theorem replaceAt_value (hL : Lawful pw N) {P : U → Prop} (hP : Prop' N false P) {u : U}
    (hu : P u) (is : List ℕ) {s s' : K × PL U} (hs : All P s.2)
    (h : replaceAt pw N u is s = .ok s') :
    s'.1 * size pw N s'.2 = s.1 * size pw N s.2 ∧ All P s'.2 := by
  induction is generalizing s with
  | nil => cases h; exact ⟨rfl, hs⟩
  | cons i is ih =>
    unfold replaceAt at h
    cases ho : at' s.2 i with
    | error e => rw [ho] at h; exact absurd h (by simp [bind, Except.bind])
    | ok o =>
      rw [ho] at h
      simp only [bind, Except.bind] at h
      split at h
      · exact ih hs h
      · have hoP : P o.1 := hs o (at_mem ho)
        rw [removeConv_ok hL hP hoP] at h
        simp only at h
        rw [addConv_ok hL hP hu] at h
        simp only at h
        have := ih ((hs.add hoP).add hu) h
        refine ⟨this.1.trans ?_, this.2⟩
        simp only
        rw [conserve_add hL, conserve_add hL]

theorem mapM_at_mem {l : PL U} {is : List ℕ} {os : PL U} (h : is.mapM (at' l) = .ok os) :
    ∀ o ∈ os, o ∈ l := by
  induction is generalizing os with
  | nil => rw [List.mapM_nil] at h; cases h; simp
  | cons i is ih =>
    rw [List.mapM_cons] at h
    cases h1 : at' l i with
    | error e => rw [h1] at h; exact absurd h (by simp [bind, Except.bind])
    | ok o =>
      cases h2 : is.mapM (at' l) with
      | error e => rw [h1, h2] at h; exact absurd h (by simp [bind, Except.bind])
      | ok os' =>
        rw [h1, h2] at h
        cases h
        intro x hx
        rcases List.mem_cons.1 hx with rfl | hx
        · exact at_mem h1
        · exact ih h2 x hx

theorem dedupeDim_value (hL : Lawful pw N) {P : U → Prop} (hP : Prop' N false P)
    (is : List ℕ) {s s' : K × PL U} (hs : All P s.2) (h : dedupeDim pw N is s = .ok s') :
    s'.1 * size pw N s'.2 = s.1 * size pw N s.2 ∧ All P s'.2 := by
  unfold dedupeDim at h
  split at h
  · cases hos : is.mapM (at' s.2) with
    | error e => rw [hos] at h; exact absurd h (by simp [bind, Except.bind])
    | ok os =>
      rw [hos] at h
      simp only [bind, Except.bind] at h
      split at h
      · cases hh : at' s.2 0 with
        | error e => rw [hh] at h; exact absurd h (by simp)
        | ok o =>
          rw [hh] at h
          exact replaceAt_value hL hP (hs o (at_mem hh)) is hs h
      · obtain ⟨s'', e1, e2, _, e4, _⟩ := removeEach_ok hL hP os s
          (fun o ho => hs o (mapM_at_mem hos o ho)) hs
        rw [e1] at h
        cases h
        exact ⟨e2, e4⟩
  · cases h; exact ⟨rfl, hs⟩

theorem foldlM_dedupe_value (hL : Lawful pw N) {P : U → Prop} (hP : Prop' N false P)
    (es : List (D × List ℕ)) {s s' : K × PL U} (hs : All P s.2)
    (h : es.foldlM (fun s e => dedupeDim pw N e.2 s) s = .ok s') :
    s'.1 * size pw N s'.2 = s.1 * size pw N s.2 ∧ All P s'.2 := by
  induction es generalizing s with
  | nil => cases h; exact ⟨rfl, hs⟩
  | cons e es ih =>
    rw [List.foldlM_cons] at h
    cases h1 : dedupeDim pw N e.2 s with
    | error x => rw [h1] at h; exact absurd h (by simp [bind, Except.bind])
    | ok s1 =>
      rw [h1] at h
      have k1 := dedupeDim_value hL hP e.2 hs h1
      have k2 := ih k1.2 h
      exact ⟨k2.1.trans k1.1, k2.2⟩

theorem dedupe_value (hL : Lawful pw N) {P : U → Prop} (hP : Prop' N false P) {v : K} {l : PL U}
    {s : K × PL U} (hl : All P l) (h : dedupe pw N v l = .ok s) :
    s.1 * size pw N s.2 = v * size pw N l ∧ All P s.2 := by
  unfold dedupe at h
  split at h
  · exact foldlM_dedupe_value hL hP _ hl h
  · cases h; exact ⟨rfl, hl⟩

/-! ### `dedupe` on lists it handles correctly -/

theorem dimIndices_mem {l : PL U} {e : D × List ℕ} (h : e ∈ dimIndices N l) :
    e.2 = (List.range l.length).filter
      (fun i => (l.map (fun u => (N.info u.1).dim))[i]? = some e.1) := by
  unfold dimIndices at h
  obtain ⟨d, _, rfl⟩ := List.mem_map.1 h
  rfl

theorem length_indices {A : Type} [DecidableEq A] (ds : List A) (d : A) :
    ((List.range ds.length).filter (fun i => ds[i]? = some d)).length = ds.count d := by
  induction ds with
  | nil => rfl
  | cons a ds ih =>
    rw [List.length_cons, List.range_succ_eq_map, List.filter_cons, List.filter_map,
      List.count_cons]
    have : ((List.range ds.length).filter ((fun i => decide ((a :: ds)[i]? = some d)) ∘ Nat.succ))
        = (List.range ds.length).filter (fun i => decide (ds[i]? = some d)) := by
      apply List.filter_congr
      intro i _
      simp
    rw [this]
    by_cases h : a = d
    · simp [h, ih]
    · simp [h, ih]

theorem dedupeDim_short {is : List ℕ} (s : K × PL U) (h : is.length ≤ 1) :
    dedupeDim pw N is s = .ok s := by
  unfold dedupeDim
  rw [if_neg (by omega)]

theorem foldlM_short {es : List (D × List ℕ)} (s : K × PL U) (h : ∀ e ∈ es, e.2.length ≤ 1) :
    es.foldlM (fun s e => dedupeDim pw N e.2 s) s = .ok s := by
  induction es with
  | nil => rfl
  | cons e es ih =>
    rw [List.foldlM_cons, dedupeDim_short s (h e List.mem_cons_self)]
    exact ih (fun e' he' => h e' (List.mem_cons_of_mem _ he'))

theorem mapM_at_eq {l : PL U} {is : List ℕ} (h : ∀ i ∈ is, i < l.length) :
    is.mapM (at' l) = .ok (is.filterMap (fun i => l[i]?)) := by
  induction is with
  | nil => rfl
  | cons i is ih =>
    have hi := h i List.mem_cons_self
    have hl : l[i]? = some l[i] := List.getElem?_eq_getElem hi
    have h1 : at' l i = .ok l[i] := by unfold at'; rw [hl]
    rw [List.mapM_cons, h1, ih (fun j hj => h j (List.mem_cons_of_mem _ hj)),
      List.filterMap_cons, hl]
    rfl

theorem filter_indices {A : Type} [DecidableEq A] (f : U × ℚ → A) (l : PL U) (d : A) :
    ((List.range l.length).filter (fun i => (l.map f)[i]? = some d)).filterMap (fun i => l[i]?)
      = l.filter (fun o => f o = d) := by
  induction l with
  | nil => rfl
  | cons a l ih =>
    rw [List.length_cons, List.range_succ_eq_map, List.filter_cons, List.filter_map]
    have : ((List.range l.length).filter
        ((fun i => decide (((a :: l).map f)[i]? = some d)) ∘ Nat.succ))
        = (List.range l.length).filter (fun i => decide ((l.map f)[i]? = some d)) := by
      apply List.filter_congr
      intro i _
      simp
    rw [this, List.filter_cons]
    have hm : ∀ is : List ℕ, (is.map Nat.succ).filterMap (fun i => (a :: l)[i]?)
        = is.filterMap (fun i => l[i]?) := by
      intro is
      induction is with
      | nil => rfl
      | cons i is ih =>
        rw [List.map_cons, List.filterMap_cons, List.filterMap_cons, ih]
        simp
    by_cases h : f a = d
    · simp only [List.map_cons, List.getElem?_cons_zero, h, decide_true,
        if_true, List.filterMap_cons, hm, ih]
    · simp only [List.map_cons, List.getElem?_cons_zero, Option.some.injEq, h, decide_false,
        Bool.false_eq_true, if_false, hm, ih]

theorem dimOf_class (d : D) (l : PL U) (h : ∀ o ∈ l, (N.info o.1).dim = d) (x : D) :
    dimOf N l x = (l.map (·.2)).sum * total (normDim N d) x := by
  induction l with
  | nil => simp
  | cons o l ih =>
    rw [dimOf_cons, ih (fun o' ho' => h o' (List.mem_cons_of_mem _ ho')), List.map_cons,
      List.sum_cons, ← total_normDim, h o List.mem_cons_self]
    ring

/-- The dimension of one pair of units of the same dimension, the first being the head. -/
theorem dedupeDim_pair (hL : Lawful pw N) {P : U → Prop} (hP : Prop' N false P) {v : K}
    {a : U × ℚ} {l : PL U} (hl : All P (a :: l)) {j : ℕ} {b : U × ℚ} (hj : l[j]? = some b)
    (hd : (N.info b.1).dim = (N.info a.1).dim) {s : K × PL U}
    (h : dedupeDim pw N [0, j + 1] (v, a :: l) = .ok s) :
    ∀ x, dimOf N s.2 x = dimOf N (a :: l) x := by
  have h0 : at' (a :: l) 0 = .ok a := rfl
  have h1 : at' (a :: l) (j + 1) = .ok b := by
    unfold at'
    rw [List.getElem?_cons_succ, hj]
  have haP := hl a List.mem_cons_self
  have hbP := hl b (at_mem h1)
  have hab : ∀ x, unitDim N b.1 x = unitDim N a.1 x := by
    intro x
    rw [← total_normDim, ← total_normDim, hd]
  unfold dedupeDim at h
  rw [if_pos (by simp), List.mapM_cons, List.mapM_cons, List.mapM_nil, h0, h1] at h
  change (if ([a, b].map (·.2)).sum ≠ 0 then
      (do let head ← at' (a :: l) 0; replaceAt pw N head.1 [0, j + 1] (v, a :: l))
      else removeEach pw N false [a, b] (v, a :: l)) = .ok s at h
  split at h
  · rw [h0] at h
    change replaceAt pw N a.1 [0, j + 1] (v, a :: l) = .ok s at h
    unfold replaceAt at h
    rw [h0] at h
    change (if a.1 = a.1 then replaceAt pw N a.1 [j + 1] (v, a :: l) else _) = .ok s at h
    rw [if_pos rfl] at h
    unfold replaceAt at h
    rw [h1] at h
    change (if b.1 = a.1 then replaceAt pw N a.1 [] (v, a :: l) else _) = .ok s at h
    split at h
    · cases h; intro x; rfl
    · simp only [bind, Except.bind] at h
      rw [removeConv_ok hL hP hbP] at h
      simp only at h
      rw [addConv_ok hL hP haP] at h
      cases h
      intro x
      simp only
      rw [dimOf_add, dimOf_add, hab]
      ring
  · rename_i hz
    have hz : a.2 + b.2 = 0 := by simpa using hz
    obtain ⟨s', e1, _, e3, _⟩ := removeEach_ok hL hP [a, b] (v, a :: l)
      (by
        intro o ho
        simp only [List.mem_cons, List.not_mem_nil, or_false] at ho
        rcases ho with rfl | rfl
        · exact haP
        · exact hbP) hl
    rw [e1] at h
    cases h
    intro x
    rw [e3, dimOf_cons a [b], dimOf_cons b [], dimOf_nil, hab]
    have : a.2 * unitDim N a.1 x + (b.2 * unitDim N a.1 x + 0) = (a.2 + b.2) * unitDim N a.1 x := by
      ring
    rw [this, hz]
    ring

theorem eraseDups_nodup {A : Type} [DecidableEq A] (l : List A) : l.eraseDups.Nodup := by
  induction h : l.length using Nat.strong_induction_on generalizing l with
  | _ n ih =>
    cases l with
    | nil => simp
    | cons a l =>
      rw [List.eraseDups_cons, List.nodup_cons]
      constructor
      · intro hm
        rw [List.mem_eraseDups, List.mem_filter] at hm
        simp at hm
      · refine ih _ ?_ _ rfl
        rw [← h, List.length_cons]
        have := List.length_filter_le (fun b => !b == a) l
        omega

theorem dedupe_dim (hL : Lawful pw N) {P : U → Prop} (hP : Prop' N false P) {v : K} {l : PL U}
    {s : K × PL U} (hl : All P l) (hs : DedupeSafe N l) (h : dedupe pw N v l = .ok s) :
    ∀ x, dimOf N s.2 x = dimOf N l x := by
  obtain ⟨d, h1, h2⟩ := hs
  unfold dedupe at h
  split at h
  swap
  · cases h; intro x; rfl
  have hlen : ∀ e ∈ dimIndices N l, e.2.length = (l.map (fun o => (N.info o.1).dim)).count e.1 := by
    intro e he
    rw [dimIndices_mem he, ← length_indices, List.length_map]
  by_cases hc : (l.map (fun o => (N.info o.1).dim)).count d ≤ 1
  · rw [foldlM_short] at h
    · cases h; intro x; rfl
    · intro e he
      rw [hlen e he]
      by_cases hed : e.1 = d
      · rw [hed]; exact hc
      · exact h1 e.1 hed
  · have hmem : d ∈ (l.map (fun o => (N.info o.1).dim)).eraseDups := by
      rw [List.mem_eraseDups]
      exact List.count_pos_iff.1 (by omega)
    obtain ⟨pre, post, hpp⟩ := List.append_of_mem hmem
    have hnd : (pre ++ d :: post).Nodup := hpp ▸ eraseDups_nodup _
    have hshape : dimIndices N l
        = pre.map (fun d => (d, (List.range l.length).filter
            (fun i => decide ((l.map (fun o => (N.info o.1).dim))[i]? = some d))))
        ++ (d, (List.range l.length).filter
            (fun i => decide ((l.map (fun o => (N.info o.1).dim))[i]? = some d)))
        :: post.map (fun d => (d, (List.range l.length).filter
            (fun i => decide ((l.map (fun o => (N.info o.1).dim))[i]? = some d)))) := by
      unfold dimIndices
      simp only
      rw [hpp, List.map_append, List.map_cons]
    have hne : ∀ d' ∈ pre ++ post, d' ≠ d := by
      intro d' hd' he
      subst he
      rw [List.nodup_append, List.nodup_cons] at hnd
      rcases List.mem_append.1 hd' with h' | h'
      · exact hnd.2.2 _ h' _ List.mem_cons_self rfl
      · exact hnd.2.1.1 h'
    have hshort : ∀ d' ∈ pre ++ post, ((List.range l.length).filter
        (fun i => decide ((l.map (fun o => (N.info o.1).dim))[i]? = some d'))).length ≤ 1 := by
      intro d' hd'
      have := length_indices (l.map (fun o => (N.info o.1).dim)) d'
      rw [List.length_map] at this
      rw [this]
      exact h1 d' (hne d' hd')
    rw [hshape, List.foldlM_append, foldlM_short] at h
    swap
    · intro e he
      obtain ⟨d', hd', rfl⟩ := List.mem_map.1 he
      exact hshort d' (List.mem_append_left _ hd')
    change (List.foldlM (fun s (e : D × List ℕ) => dedupeDim pw N e.2 s) (v, l) (_ :: _)) = _ at h
    rw [List.foldlM_cons] at h
    cases hdd : dedupeDim pw N ((List.range l.length).filter
        (fun i => decide ((l.map (fun o => (N.info o.1).dim))[i]? = some d))) (v, l) with
    | error e => rw [hdd] at h; exact absurd h (by simp [bind, Except.bind])
    | ok s1 =>
      rw [hdd] at h
      change (List.foldlM (fun s (e : D × List ℕ) => dedupeDim pw N e.2 s) s1 _) = _ at h
      rw [foldlM_short] at h
      swap
      · intro e he
        obtain ⟨d', hd', rfl⟩ := List.mem_map.1 he
        exact hshort d' (List.mem_append_right _ hd')
      cases h
      rcases h2 with h2 | h2 | ⟨h2, h3⟩
      · exact absurd h2 hc
      · unfold dedupeDim at hdd
        have hl1 := length_indices (l.map (fun o => (N.info o.1).dim)) d
        rw [List.length_map] at hl1
        rw [if_pos (by rw [hl1]; omega), mapM_at_eq (by
          intro i hi
          simpa using (List.mem_filter.1 hi).1), filter_indices] at hdd
        simp only [bind, Except.bind] at hdd
        rw [if_neg (by simpa using h2)] at hdd
        obtain ⟨s', e1, _, e3, _⟩ := removeEach_ok hL hP
          (l.filter (fun o => (N.info o.1).dim = d)) (v, l)
          (fun o ho => hl o (List.mem_filter.1 ho).1) hl
        rw [e1] at hdd
        cases hdd
        intro x
        rw [e3, dimOf_class d (l.filter (fun o => (N.info o.1).dim = d)) (fun o ho => by simpa using (List.mem_filter.1 ho).2), h2]
        ring
      · cases l with
        | nil => exact absurd h3 (by simp)
        | cons a l =>
          simp only [List.map_cons, List.head?_cons, Option.some.injEq] at h3
          have hidx : (List.range (a :: l).length).filter
              (fun i => decide (((a :: l).map (fun o => (N.info o.1).dim))[i]? = some d))
              = 0 :: ((List.range l.length).filter
                (fun i => decide ((l.map (fun o => (N.info o.1).dim))[i]? = some d))).map
                  Nat.succ := by
            rw [List.length_cons, List.range_succ_eq_map, List.filter_cons, List.filter_map]
            simp only [List.map_cons, List.getElem?_cons_zero, h3, decide_true, if_true]
            congr 2
          have hl1 := length_indices (l.map (fun o => (N.info o.1).dim)) d
          rw [List.length_map] at hl1
          rw [List.map_cons, List.count_cons, h3] at h2
          simp only [beq_self_eq_true, if_true] at h2
          have hone : ((List.range l.length).filter
              (fun i => decide ((l.map (fun o => (N.info o.1).dim))[i]? = some d))).length = 1 := by
            rw [hl1]; omega
          obtain ⟨j, hj⟩ := List.length_eq_one_iff.1 hone
          rw [hidx, hj] at hdd
          have hjm : j ∈ (List.range l.length).filter
              (fun i => decide ((l.map (fun o => (N.info o.1).dim))[i]? = some d)) := by
            rw [hj]; exact List.mem_singleton_self j
          have hjd := (List.mem_filter.1 hjm).2
          simp only [List.getElem?_map, Option.map_eq_some_iff, decide_eq_true_eq] at hjd
          obtain ⟨b, hb, hbd⟩ := hjd
          exact dedupeDim_pair hL hP hl hb (hbd.trans h3.symm) hdd

end
end MC.Unit
