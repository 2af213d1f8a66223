import Verif.Lemmas.UnitSearch

/-! # Replacing units keeps the quantity and the dimension -/

set_option linter.unusedSectionVars false

namespace MC.Unit
open Spec

section
variable {A : Type} [DecidableEq A]

theorem mem_add {k : A} {p : ℚ} {l : PL A} {o : A × ℚ} (h : o ∈ add k p l) :
    o.1 = k ∨ o.1 ∈ l.map (·.1) := by
  unfold add at h
  cases hf : find k l with
  | none =>
    rw [hf] at h
    rcases List.mem_append.1 h with h | h
    · exact .inr (List.mem_map.2 ⟨o, h, rfl⟩)
    · rw [List.mem_singleton] at h; subst h; exact .inl rfl
  | some q =>
    rw [hf] at h
    exact .inr ((keys_bump k p l).subset (List.mem_map.2 ⟨o, h, rfl⟩))

/-- All keys of the list have a property. -/
def All (P : A → Prop) (l : PL A) : Prop := ∀ o ∈ l, P o.1

theorem All.add {P : A → Prop} {k : A} {p : ℚ} {l : PL A} (h : All P l) (hk : P k) :
    All P (add k p l) := by
  intro o ho
  rcases mem_add ho with h' | h'
  · rw [h']; exact hk
  · obtain ⟨o', ho', he⟩ := List.mem_map.1 h'
    rw [← he]; exact h o' ho'

theorem All.addAll {P : A → Prop} {m : PL A} {p : ℚ} {l : PL A} (h : All P l) (hm : All P m) :
    All P (addAll m p l) := by
  unfold Unit.addAll
  induction m generalizing l with
  | nil => exact h
  | cons o m ih =>
    rw [List.foldl_cons]
    exact ih (h.add (hm o List.mem_cons_self)) (fun o' ho' => hm o' (List.mem_cons_of_mem _ ho'))

theorem All.keys {P : A → Prop} {l m : PL A} (h : All P l)
    (hs : (m.map (·.1)).Sublist (l.map (·.1))) : All P m := by
  intro o ho
  obtain ⟨o', ho', he⟩ := List.mem_map.1 (hs.subset (List.mem_map.2 ⟨o, ho, rfl⟩))
  rw [← he]; exact h o' ho'

end

section
variable {U D K : Type} [DecidableEq U] [DecidableEq D] [Field K]
variable {pw : K → ℚ → K} {N : Norm U D K} {r : Bool} {P : U → Prop}

/-- The units with this property are proportional to the base unit. -/
def Prop' (N : Norm U D K) (r : Bool) (P : U → Prop) : Prop :=
  ∀ u, P u → r = true ∨ (N.info u).kind = .scale

theorem addConv_ok (hL : Lawful pw N) (hP : Prop' N r P) {v : K} {l : PL U} {u : U} {p : ℚ}
    (hu : P u) :
    addConv pw N v l u p r = .ok (v / pw (stepSize (N.info u)) p, add u p l) := by
  unfold addConv
  rw [convert_ok hL u v p r (hP u hu), one_mul]
  rfl

theorem removeConv_ok (hL : Lawful pw N) (hP : Prop' N r P) {v : K} {l : PL U} {u : U} {p : ℚ}
    (hu : P u) :
    removeConv pw N v l u p r = .ok (v / pw (stepSize (N.info u)) (-p), add u (-p) l) := by
  unfold removeConv
  rw [convert_ok hL u v (-p) r (hP u hu), one_mul]
  rfl

theorem conserve_add (hL : Lawful pw N) (v : K) (l : PL U) (u : U) (p : ℚ) :
    v / pw (stepSize (N.info u)) p * size pw N (add u p l) = v * size pw N l := by
  rw [size_add hL]
  have := pow_ne (hL.2 u) p
  field_simp

/-- Removing a list of powers. -/
theorem removeEach_ok (hL : Lawful pw N) (hP : Prop' N r P) (rs : PL U) (s : K × PL U)
    (hrs : All P rs) (hs : All P s.2) :
    ∃ s', removeEach pw N r rs s = .ok s' ∧ s'.1 * size pw N s'.2 = s.1 * size pw N s.2 ∧
      (∀ d, dimOf N s'.2 d = dimOf N s.2 d - dimOf N rs d) ∧ All P s'.2 ∧
      (∀ x, total s'.2 x = total s.2 x - total rs x) ∧
      (Proper s.2 → (∀ o ∈ rs, o.2 ≠ 0) → Proper s'.2) := by
  induction rs generalizing s with
  | nil => exact ⟨s, rfl, rfl, by simp, hs, by simp, fun h _ => h⟩
  | cons o rs ih =>
    have ho : P o.1 := hrs o List.mem_cons_self
    obtain ⟨s', h1, h2, h3, h4, h5, h6⟩ := ih (s.1 / pw (stepSize (N.info o.1)) (-o.2), add o.1 (-o.2) s.2)
      (fun o' ho' => hrs o' (List.mem_cons_of_mem _ ho')) (hs.add ho)
    refine ⟨s', ?_, ?_, ?_, h4, ?_, ?_⟩
    · unfold removeEach
      rw [removeConv_ok hL hP ho]
      exact h1
    · rw [h2]; exact conserve_add hL _ _ _ _
    · intro d
      rw [h3, dimOf_add, dimOf_cons]
      ring
    · intro x
      rw [h5, total_add, total_cons]
      split <;> ring
    · intro hp hz
      exact h6 (proper_add hp (neg_ne_zero.2 (hz o List.mem_cons_self)))
        (fun o' ho' => hz o' (List.mem_cons_of_mem _ ho'))

/-- Adding a list of powers. -/
theorem addEach_ok (hL : Lawful pw N) (hP : Prop' N r P) (rs : PL U) (s : K × PL U)
    (hrs : All P rs) (hs : All P s.2) :
    ∃ s', addEach pw N r rs s = .ok s' ∧ s'.1 * size pw N s'.2 = s.1 * size pw N s.2 ∧
      (∀ d, dimOf N s'.2 d = dimOf N s.2 d + dimOf N rs d) ∧ All P s'.2 ∧
      (Proper s.2 → (∀ o ∈ rs, o.2 ≠ 0) → Proper s'.2) := by
  induction rs generalizing s with
  | nil => exact ⟨s, rfl, rfl, by simp, hs, fun h _ => h⟩
  | cons o rs ih =>
    have ho : P o.1 := hrs o List.mem_cons_self
    obtain ⟨s', h1, h2, h3, h4, h6⟩ := ih (s.1 / pw (stepSize (N.info o.1)) o.2, add o.1 o.2 s.2)
      (fun o' ho' => hrs o' (List.mem_cons_of_mem _ ho')) (hs.add ho)
    refine ⟨s', ?_, ?_, ?_, h4, ?_⟩
    · unfold addEach
      rw [addConv_ok hL hP ho]
      exact h1
    · rw [h2]; exact conserve_add hL _ _ _ _
    · intro d
      rw [h3, dimOf_add, dimOf_cons]
      ring
    · intro hp hz
      exact h6 (proper_add hp (hz o List.mem_cons_self))
        (fun o' ho' => hz o' (List.mem_cons_of_mem _ ho'))

/-- The quantity and the dimension are the same, and all units have `P`. -/
structure Keeps (pw : K → ℚ → K) (N : Norm U D K) (P : U → Prop) (s s' : K × PL U) : Prop where
  value : s'.1 * size pw N s'.2 = s.1 * size pw N s.2
  dim : ∀ d, dimOf N s'.2 d = dimOf N s.2 d
  all : All P s'.2
  proper : Proper s.2 → Proper s'.2

theorem Keeps.refl {s : K × PL U} (h : All P s.2) : Keeps pw N P s s :=
  ⟨rfl, fun _ => rfl, h, id⟩

theorem Keeps.trans {s t u : K × PL U} (h : Keeps pw N P s t) (h' : Keeps pw N P t u) :
    Keeps pw N P s u :=
  ⟨h'.value.trans h.value, fun d => (h'.dim d).trans (h.dim d), h'.all,
    fun hp => h'.proper (h.proper hp)⟩

/-- Relationships between dimensions are lists of distinct base dimensions with non-zero
powers. -/
def GoodRel (N : Norm U D K) : Prop := ∀ d l, N.rel d = some l → Proper l ∧ l ≠ []

theorem normDim_good (hR : GoodRel N) (d : D) : Proper (normDim N d) ∧ normDim N d ≠ [] := by
  unfold normDim
  cases h : N.rel d with
  | some l => exact hR d l h
  | none => exact ⟨⟨by simp, by simp⟩, by simp⟩

theorem multiply_good {A : Type} [DecidableEq A] {g : PL A} {p : ℚ} (h : Proper g ∧ g ≠ [])
    (hp : p ≠ 0) : Proper (multiply p g) ∧ multiply p g ≠ [] := by
  refine ⟨⟨?_, ?_⟩, ?_⟩
  · simpa [multiply, Function.comp_def] using h.1.1
  · intro o ho
    obtain ⟨o', ho', rfl⟩ := List.mem_map.1 ho
    exact mul_ne_zero (h.1.2 o' ho') hp
  · simpa [multiply] using h.2

theorem subunits_filter (l : PL U) (f : U → Bool) :
    (subunits N l).filter (fun u => f u.1) = subunits N (l.filter (fun u => f u.1)) := by
  unfold subunits
  rw [List.filter_map]
  rfl

/-- What a search for one goal returns: parts of the list with the dimension of the goal. -/
theorem found_one {g : PL D} (hg : Proper g ∧ g ≠ []) (l : PL U) {found : PL U}
    {rest : List (PL U)} (h : (findUnits [g] (subunits N l)).headD [] = found :: rest) :
    (found.map (·.1)).Sublist (l.map (·.1)) ∧ (∀ o ∈ found, o.2 ≠ 0) ∧
      (∀ d, dimOf N found d = total g d) ∧
      ∃ c, Valid ((l.map (·.2)).map bounds) c ∧ found = pick (subunits N l) c := by
  obtain ⟨fl, h1, h2, _⟩ := findUnits_get (N := N) (goals := [g]) (j := 0) (g := g) rfl hg.1.1
    hg.2 hg.1.2 l
  have : fl = found :: rest := by
    rw [← h, List.headD_eq_head?_getD, List.head?_eq_getElem?, h1]; rfl
  subst this
  obtain ⟨c, hc, hf, hd⟩ := (h2 found).1 List.mem_cons_self
  refine ⟨?_, ?_, hd, c, hc, hf⟩
  · rw [hf]; exact pick_keys l c
  · rw [hf]; exact pick_nonzero _ c

theorem dimSet_mem {k : PL D} {u : U} {m : List (PL D × U)} {e : PL D × U}
    (h : e ∈ dimSet k u m) : e ∈ m ∨ (e.2 = u ∧ (e.1 = k ∨ (same e.1 k = true ∧ ∃ u', (e.1, u') ∈ m))) := by
  induction m with
  | nil =>
    unfold dimSet at h
    rw [List.mem_singleton] at h; subst h; exact .inr ⟨rfl, .inl rfl⟩
  | cons a m ih =>
    unfold dimSet at h
    split at h
    · rename_i hs
      rcases List.mem_cons.1 h with rfl | h
      · exact .inr ⟨rfl, .inr ⟨hs, a.2, List.mem_cons_self⟩⟩
      · exact .inl (List.mem_cons_of_mem _ h)
    · rcases List.mem_cons.1 h with rfl | h
      · exact .inl List.mem_cons_self
      · rcases ih h with h | ⟨h1, h2 | ⟨h2, u', h3⟩⟩
        · exact .inl (List.mem_cons_of_mem _ h)
        · exact .inr ⟨h1, .inl h2⟩
        · exact .inr ⟨h1, .inr ⟨h2, u', List.mem_cons_of_mem _ h3⟩⟩

/-- Every entry of the table is a unit of the list with its dimensions. -/
def GoodUD (N : Norm U D K) (P : U → Prop) (ud : List (PL D × U)) : Prop :=
  ∀ e ∈ ud, P e.2 ∧ (Proper e.1 ∧ e.1 ≠ []) ∧ ∀ d, total e.1 d = unitDim N e.2 d

theorem unitsByDim_good (hR : GoodRel N) {l : PL U} (hl : All P l) :
    GoodUD N P (unitsByDim N l) := by
  unfold unitsByDim
  have : ∀ (m : PL U) (ud : List (PL D × U)), All P m → GoodUD N P ud →
      GoodUD N P (m.foldl (fun acc u => dimSet (normDim N (N.info u.1).dim) u.1 acc) ud) := by
    intro m
    induction m with
    | nil => intro ud _ h; exact h
    | cons o m ih =>
      intro ud hm hud
      rw [List.foldl_cons]
      refine ih _ (fun o' ho' => hm o' (List.mem_cons_of_mem _ ho')) ?_
      intro e he
      rcases dimSet_mem he with he | ⟨h1, h2 | ⟨h2, u', h3⟩⟩
      · exact hud e he
      · rw [h1, h2]
        exact ⟨hm o List.mem_cons_self, normDim_good hR _, fun d => total_normDim _ _⟩
      · rw [h1]
        refine ⟨hm o List.mem_cons_self, (hud _ h3).2.1, fun d => ?_⟩
        rw [total_perm (same_iff.1 h2), total_normDim]
  exact this l [] hl (by intro e he; simp at he)

theorem jobs_mem {ud : List (PL D × U)} {j : PL D × U × ℚ} (h : j ∈ jobs ud) :
    ∃ e ∈ ud, (j.2.2 = 1 ∨ j.2.2 = -1) ∧ j.2.1 = e.2 ∧ j.1 = multiply j.2.2 e.1 := by
  unfold jobs at h
  rw [List.mem_flatMap] at h
  obtain ⟨e, he, hj⟩ := h
  refine ⟨e, he, ?_⟩
  simp only [List.mem_cons, List.not_mem_nil, or_false] at hj
  rcases hj with rfl | rfl
  · exact ⟨.inl rfl, rfl, rfl⟩
  · exact ⟨.inr rfl, rfl, rfl⟩

/-- The loop for one dimension and sign never raises and keeps the quantity. -/
theorem leftLoop_keeps (hL : Lawful pw N) (hP : Prop' N r P) {ud : List (PL D × U)}
    {dims : PL D} {u : U} {p : ℚ} (hg : Proper dims ∧ dims ≠ []) (hu : P u) (hp : p ≠ 0)
    (hd : ∀ d, total dims d = p * unitDim N u d) (n : ℕ) (s : K × PL U) (hs : All P s.2)
    {res : Except Raise (K × PL U)} (h : leftLoop pw N ud dims u p r n s = some res) :
    ∃ s', res = .ok s' ∧ Keeps pw N P s s' := by
  induction n generalizing s with
  | zero => exact absurd h (by simp [leftLoop])
  | succ n ih =>
    unfold leftLoop at h
    cases hf : (findUnits [dims] (foreign N ud s.2)).headD [] with
    | nil =>
      rw [hf] at h
      cases h
      exact ⟨s, rfl, Keeps.refl hs⟩
    | cons found rest =>
      rw [hf] at h
      simp only at h
      have hfor : foreign N ud s.2
          = subunits N (s.2.filter (fun u => !(ud.map (·.2)).contains u.1)) := by
        unfold foreign
        exact subunits_filter (N := N) s.2 (fun u => !(ud.map (·.2)).contains u)
      rw [hfor] at hf
      obtain ⟨h1, h2, h3, _⟩ := found_one hg _ hf
      have hall : All P found := (show All P (s.2.filter _) from
        fun o ho => hs o (List.mem_filter.1 ho).1).keys h1
      rw [addConv_ok hL hP hu] at h
      obtain ⟨s', e1, e2, e3, e4, _, e6⟩ := removeEach_ok hL hP found
        (s.1 / pw (stepSize (N.info u)) p, add u p s.2) hall (hs.add hu)
      have hstep : Keeps pw N P s s' := by
        refine ⟨?_, ?_, e4, ?_⟩
        · rw [e2]; exact conserve_add hL _ _ _ _
        · intro d
          rw [e3, dimOf_add, h3, hd]; ring
        · intro hpr
          exact e6 (proper_add hpr hp) h2
      change (match removeEach pw N r found _ with
        | .error e => some (.error e)
        | .ok s => leftLoop pw N ud dims u p r n s) = some res at h
      rw [e1] at h
      simp only at h
      obtain ⟨s'', rfl, hk⟩ := ih s' e4 h
      exact ⟨s'', rfl, hstep.trans hk⟩

theorem eachOpt_keeps {α : Type} {f : α → K × PL U → Option (Except Raise (K × PL U))}
    {js : List α} (hf : ∀ j ∈ js, ∀ s, All P s.2 → ∀ res, f j s = some res →
      ∃ s', res = .ok s' ∧ Keeps pw N P s s') (s : K × PL U) (hs : All P s.2)
    {res : Except Raise (K × PL U)} (h : eachOpt f js s = some res) :
    ∃ s', res = .ok s' ∧ Keeps pw N P s s' := by
  induction js generalizing s with
  | nil => cases h; exact ⟨s, rfl, Keeps.refl hs⟩
  | cons j js ih =>
    unfold eachOpt at h
    cases hj : f j s with
    | none => rw [hj] at h; exact absurd h (by simp)
    | some res' =>
      rw [hj] at h
      obtain ⟨s', rfl, hk⟩ := hf j List.mem_cons_self s hs _ hj
      simp only at h
      obtain ⟨s'', rfl, hk'⟩ := ih (fun j' hj' => hf j' (List.mem_cons_of_mem _ hj')) s' hk.all h
      exact ⟨s'', rfl, hk.trans hk'⟩

theorem fromLeft_keeps (hL : Lawful pw N) (hP : Prop' N r P) (hR : GoodRel N) {l₁ : PL U}
    (h₁ : All P l₁) (n : ℕ) (s : K × PL U) (hs : All P s.2)
    {res : Except Raise (K × PL U)} (h : fromLeft pw N n l₁ s r = some res) :
    ∃ s', res = .ok s' ∧ Keeps pw N P s s' := by
  unfold fromLeft at h
  refine eachOpt_keeps ?_ s hs h
  intro j hj s hs res hres
  obtain ⟨e, he, hp, hu, hd⟩ := jobs_mem hj
  have hgood := unitsByDim_good hR h₁ e he
  have hp0 : j.2.2 ≠ 0 := by rcases hp with h | h <;> rw [h] <;> norm_num
  refine leftLoop_keeps hL hP (hd ▸ multiply_good hgood.2.1 hp0) (hu ▸ hgood.1) hp0 ?_ n s hs hres
  intro d
  rw [hd, total_multiply, hgood.2.2, hu]

theorem rightStep_keeps (hL : Lawful pw N) (hP : Prop' N r P) {l₁ : PL U}
    (h₁ : All P l₁) {ud : List (PL D × U)} (hud : GoodUD N P ud) {j : PL D × U × ℚ}
    (hj : j ∈ jobs ud) (s : K × PL U) (hs : All P s.2) :
    ∃ s', rightStep pw N l₁ r j s = .ok s' ∧ Keeps pw N P s s' := by
  obtain ⟨e, he, hp, hu, hd⟩ := jobs_mem hj
  have hgood := hud e he
  have hp0 : j.2.2 ≠ 0 := by rcases hp with h | h <;> rw [h] <;> norm_num
  have habs : |j.2.2| = 1 := by rcases hp with h | h <;> rw [h] <;> norm_num
  unfold rightStep
  cases hf : (findUnits [j.1] (subunits N l₁)).headD [] with
  | nil => exact ⟨s, rfl, Keeps.refl hs⟩
  | cons found rest =>
    simp only
    obtain ⟨h1, h2, h3, _⟩ := found_one (hd ▸ multiply_good hgood.2.1 hp0) _ hf
    have hall : All P found := h₁.keys h1
    have hju : P j.2.1 := hu ▸ hgood.1
    rw [removeConv_ok hL hP hju, habs]
    have hmap : found.map (fun a => (a.1, a.2 * 1)) = found := by simp
    rw [hmap]
    obtain ⟨s', e1, e2, e3, e4, e5⟩ := addEach_ok hL hP found
      (s.1 / pw (stepSize (N.info j.2.1)) (-j.2.2), add j.2.1 (-j.2.2) s.2) hall (hs.add hju)
    refine ⟨s', e1, ?_, ?_, e4, ?_⟩
    · rw [e2]; exact conserve_add hL _ _ _ _
    · intro d
      rw [e3, dimOf_add, h3, hd, total_multiply, hgood.2.2, hu]
      ring
    · intro hpr
      exact e5 (proper_add hpr (neg_ne_zero.2 hp0)) h2

theorem fromRight_keeps (hL : Lawful pw N) (hP : Prop' N r P) (hR : GoodRel N) {l₁ : PL U}
    (h₁ : All P l₁) (s : K × PL U) (hs : All P s.2) :
    ∃ s', fromRight pw N l₁ s r = .ok s' ∧ Keeps pw N P s s' := by
  unfold fromRight
  have hud := unitsByDim_good hR hs
  have : ∀ (js : List (PL D × U × ℚ)), (∀ j ∈ js, j ∈ jobs (unitsByDim N s.2)) →
      ∀ t : K × PL U, All P t.2 →
      ∃ s', js.foldlM (fun s j => rightStep pw N l₁ r j s) t = .ok s' ∧ Keeps pw N P t s' := by
    intro js
    induction js with
    | nil => intro _ t ht; exact ⟨t, rfl, Keeps.refl ht⟩
    | cons j js ih =>
      intro hjs t ht
      obtain ⟨t', e1, e2⟩ := rightStep_keeps hL hP h₁ hud (hjs j List.mem_cons_self) t ht
      obtain ⟨t'', e3, e4⟩ := ih (fun j' hj' => hjs j' (List.mem_cons_of_mem _ hj')) t' e2.all
      refine ⟨t'', ?_, e2.trans e4⟩
      rw [List.foldlM_cons, e1]
      exact e3
  exact this _ (fun _ h => h) s hs

/-! ### Pairs and lists of operands -/

/-- All units of the operand have `P`. -/
def AllO (P : U → Prop) (x : K × Option (PL U)) : Prop := All P (x.2.getD [])

structure KeepsO (pw : K → ℚ → K) (N : Norm U D K) (P : U → Prop)
    (x y : K × Option (PL U)) : Prop where
  value : quantity pw N y = quantity pw N x
  dim : ∀ d, dimOfO N y.2 d = dimOfO N x.2 d
  all : AllO P y
  proper : Proper (x.2.getD []) → Proper (y.2.getD [])

theorem KeepsO.refl {x : K × Option (PL U)} (h : AllO P x) : KeepsO pw N P x x :=
  ⟨rfl, fun _ => rfl, h, id⟩

theorem KeepsO.trans {x y z : K × Option (PL U)} (h : KeepsO pw N P x y) (h' : KeepsO pw N P y z) :
    KeepsO pw N P x z :=
  ⟨h'.value.trans h.value, fun d => (h'.dim d).trans (h.dim d), h'.all,
    fun hp => h'.proper (h.proper hp)⟩

theorem normPair_keeps (hL : Lawful pw N) (hP : Prop' N r P) (hR : GoodRel N) (n : ℕ)
    {a b b' : K × Option (PL U)} (ha : AllO P a) (hb : AllO P b)
    (h : normPair pw N n r a b = some (.ok b')) : KeepsO pw N P b b' := by
  obtain ⟨va, la⟩ := a
  obtain ⟨vb, lb⟩ := b
  unfold normPair at h
  cases la with
  | none => cases h; exact KeepsO.refl hb
  | some l₁ =>
    cases lb with
    | none => cases h; exact KeepsO.refl hb
    | some l₂ =>
      simp only at h
      cases hl : fromLeft pw N n l₁ (vb, l₂) r with
      | none => rw [hl] at h; exact absurd h (by simp)
      | some res =>
        rw [hl] at h
        obtain ⟨s, rfl, hk⟩ := fromLeft_keeps hL hP hR (l₁ := l₁) ha n (vb, l₂) hb hl
        simp only at h
        cases h1 : checkEmpty l₁ with
        | none => rw [h1] at h; exact absurd h (by simp)
        | some l₁' =>
          cases h2 : checkEmpty s.2 with
          | none => rw [h1, h2] at h; exact absurd h (by simp)
          | some l₂' =>
            rw [h1, h2] at h
            simp only at h
            have e1 := (checkEmpty_some h1).1
            have e2 := (checkEmpty_some h2).1
            subst e1 e2
            obtain ⟨s', e3, hk'⟩ := fromRight_keeps (l₁ := l₁') hL hP hR ha (s.1, s.2) hk.all
            rw [e3] at h
            cases h
            have := hk.trans hk'
            exact ⟨by
              unfold quantity
              simp only [checkEmpty_getD, Option.getD_some]
              exact this.value,
              fun d => by
                unfold dimOfO
                simp only [checkEmpty_getD, Option.getD_some]
                exact this.dim d,
              by unfold AllO; simp only [checkEmpty_getD]; exact this.all,
              by simp only [checkEmpty_getD, Option.getD_some]; exact this.proper⟩

theorem normAfter_keeps (hL : Lawful pw N) (hP : Prop' N r P) (hR : GoodRel N) (n : ℕ)
    {a : K × Option (PL U)} (ha : AllO P a) {bs bs' : List (K × Option (PL U))}
    (hb : ∀ b ∈ bs, AllO P b) (h : normAfter pw N n r a bs = some (.ok bs')) :
    List.Forall₂ (KeepsO pw N P) bs bs' := by
  induction bs generalizing bs' with
  | nil => cases h; exact .nil
  | cons b bs ih =>
    unfold normAfter at h
    cases h1 : normPair pw N n r a b with
    | none => rw [h1] at h; exact absurd h (by simp)
    | some res =>
      rw [h1] at h
      cases res with
      | error e => exact absurd h (by simp)
      | ok b' =>
        simp only at h
        cases h2 : normAfter pw N n r a bs with
        | none => rw [h2] at h; exact absurd h (by simp)
        | some res =>
          rw [h2] at h
          cases res with
          | error e => exact absurd h (by simp)
          | ok bs'' =>
            simp only at h
            cases h
            exact .cons (normPair_keeps hL hP hR n ha (hb b List.mem_cons_self) h1)
              (ih (fun x hx => hb x (List.mem_cons_of_mem _ hx)) h2)

theorem forall₂_trans {α : Type} {R : α → α → Prop} (hR : ∀ x y z, R x y → R y z → R x z)
    {a b c : List α} (h : List.Forall₂ R a b) (h' : List.Forall₂ R b c) : List.Forall₂ R a c := by
  induction h generalizing c with
  | nil => cases h'; exact .nil
  | cons hx _ ih => cases h' with | cons hy h' => exact .cons (hR _ _ _ hx hy) (ih h')

theorem forall₂_all {x : List (K × Option (PL U))} {y : List (K × Option (PL U))}
    (h : List.Forall₂ (KeepsO pw N P) x y) : ∀ b ∈ y, AllO P b := by
  induction h with
  | nil => simp
  | cons h1 _ ih =>
    intro b hb
    rcases List.mem_cons.1 hb with rfl | hb
    · exact h1.all
    · exact ih b hb

theorem normMulti_keeps (hL : Lawful pw N) (hP : Prop' N r P) (hR : GoodRel N) (n : ℕ)
    {xs ys : List (K × Option (PL U))} (hx : ∀ x ∈ xs, AllO P x)
    (h : normMulti pw N n r xs = some (.ok ys)) : List.Forall₂ (KeepsO pw N P) xs ys := by
  induction xs generalizing ys with
  | nil => cases h; exact .nil
  | cons a as ih =>
    unfold normMulti at h
    cases h1 : normMulti pw N n r as with
    | none => rw [h1] at h; exact absurd h (by simp)
    | some res =>
      rw [h1] at h
      cases res with
      | error e => exact absurd h (by simp)
      | ok as' =>
        simp only at h
        have k1 := ih (fun x hx' => hx x (List.mem_cons_of_mem _ hx')) h1
        cases h2 : normAfter pw N n r a as' with
        | none => rw [h2] at h; exact absurd h (by simp)
        | some res =>
          rw [h2] at h
          cases res with
          | error e => exact absurd h (by simp)
          | ok as'' =>
            simp only at h
            cases h
            have ha := hx a List.mem_cons_self
            have k2 := normAfter_keeps hL hP hR n ha (forall₂_all k1) h2
            exact .cons (KeepsO.refl ha)
              (forall₂_trans (R := KeepsO pw N P) (fun _ _ _ h h' => KeepsO.trans h h') k1 k2)

end
end MC.Unit
