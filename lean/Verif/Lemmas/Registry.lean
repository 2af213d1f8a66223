import Verif.Spec.Registry

namespace MC.Unit.Registry
open Spec

variable {U : Type} {lower : String → String} {info : U → Def}

theorem isUnit_iff (a : Amb U) (n : String) :
    isUnit lower a.names a.symbols n = true ↔ goesBy lower n a := by
  unfold isUnit goesBy
  simp only [Bool.or_eq_true, List.contains_iff_mem, List.mem_map]

theorem lookup_enter {V : Type} (f : String → String) (e : V) (k : String) (ns : List String)
    (d : List (String × V)) :
    (ns.foldl (fun d n => (f n, e) :: d) d).lookup k
      = if k ∈ ns.map f then some e else d.lookup k := by
  induction ns generalizing d with
  | nil => simp
  | cons n ns ih =>
    rw [List.foldl_cons, ih]
    by_cases h : k ∈ ns.map f
    · rw [if_pos h, if_pos (by rw [List.map_cons]; exact List.mem_cons_of_mem _ h)]
    · rw [if_neg h, List.lookup_cons]
      by_cases hk : k = f n
      · simp [hk]
      · have hb : (k == f n) = false := by simpa using hk
        rw [hb]
        simp only [List.map_cons, List.mem_cons, hk, h, or_self, if_false]

theorem Last.snoc_pos {l : List U} {P : U → Prop} {u : U} (h : P u) : Last (l ++ [u]) P u :=
  ⟨l, [], rfl, h, by simp⟩

theorem Last.snoc_neg {l : List U} {P : U → Prop} {u v : U} (h : ¬ P v) (hl : Last l P u) :
    Last (l ++ [v]) P u := by
  obtain ⟨pre, post, rfl, hu, hp⟩ := hl
  refine ⟨pre, post ++ [v], by simp, hu, ?_⟩
  intro w hw
  rcases List.mem_append.1 hw with hw | hw
  · exact hp w hw
  · rw [List.mem_singleton] at hw; subst hw; exact h

/-- What the dictionaries contain after some registrations. -/
structure Inv (lower : String → String) (info : U → Def) (us : List U) (r : Reg U) : Prop where
  name_unit : ∀ n u, r.names.lookup (lower n) = some (.unit u) →
    Last us (named lower info n) u ∨ ∃ a ∈ r.ambiguous, goesBy lower n a
  name_amb : ∀ n a, r.names.lookup (lower n) = some (.amb a) →
    ∃ b ∈ r.ambiguous, goesBy lower n b
  name_none : ∀ n, r.names.lookup (lower n) = none → ∀ u ∈ us, ¬ named lower info n u
  sym_unit : ∀ n u, r.symbols.lookup n = some (.unit u) →
    Last us (symboled info n) u ∨ ∃ a ∈ r.ambiguous, goesBy lower n a
  sym_amb : ∀ n a, r.symbols.lookup n = some (.amb a) → ∃ b ∈ r.ambiguous, goesBy lower n b
  sym_none : ∀ n, r.symbols.lookup n = none → ∀ u ∈ us, ¬ symboled info n u

theorem inv_unit {us : List U} {r r' : Reg U} (h : Inv lower info us r) {d : String} {u : U}
    (ha : addUnit lower info d u r = .ok r') :
    Inv lower info (us ++ [u]) r' ∧ r'.ambiguous = r.ambiguous ∧ r'.prefs = r.prefs := by
  unfold addUnit at ha
  split at ha
  · exact absurd ha (by simp)
  · cases ha
    refine ⟨⟨?_, ?_, ?_, ?_, ?_, ?_⟩, rfl, rfl⟩
    · intro n v hv
      simp only [enter, lookup_enter lower] at hv
      split at hv
      · rename_i hn
        cases hv
        refine .inl (Last.snoc_pos ?_)
        obtain ⟨m, hm, e⟩ := List.mem_map.1 hn
        exact ⟨m, hm, e⟩
      · rename_i hn
        rcases h.name_unit n v hv with h | h
        · refine .inl (Last.snoc_neg ?_ h)
          rintro ⟨m, hm, e⟩
          exact hn (List.mem_map.2 ⟨m, hm, e⟩)
        · exact .inr h
    · intro n a hv
      simp only [enter, lookup_enter lower] at hv
      split at hv
      · cases hv
      · exact h.name_amb n a hv
    · intro n hv
      simp only [enter, lookup_enter lower] at hv
      split at hv
      · cases hv
      · rename_i hn
        intro v hvm
        rcases List.mem_append.1 hvm with hvm | hvm
        · exact h.name_none n hv v hvm
        · rw [List.mem_singleton] at hvm
          subst hvm
          rintro ⟨m, hm, e⟩
          exact hn (List.mem_map.2 ⟨m, hm, e⟩)
    · intro n v hv
      simp only [enter, lookup_enter (fun s => s), List.map_id'] at hv
      split at hv
      · rename_i hn
        cases hv
        exact .inl (Last.snoc_pos hn)
      · rename_i hn
        rcases h.sym_unit n v hv with h | h
        · exact .inl (Last.snoc_neg hn h)
        · exact .inr h
    · intro n a hv
      simp only [enter, lookup_enter (fun s => s), List.map_id'] at hv
      split at hv
      · cases hv
      · exact h.sym_amb n a hv
    · intro n hv
      simp only [enter, lookup_enter (fun s => s), List.map_id'] at hv
      split at hv
      · cases hv
      · rename_i hn
        intro v hvm
        rcases List.mem_append.1 hvm with hvm | hvm
        · exact h.sym_none n hv v hvm
        · rw [List.mem_singleton] at hvm
          subst hvm
          exact hn

theorem inv_amb {us : List U} {r r' : Reg U} (h : Inv lower info us r)
    {names symbols units : List String}
    (ha : addAmbiguous lower info names symbols units r = .ok r') :
    Inv lower info us r' ∧ r'.prefs = r.prefs := by
  unfold addAmbiguous at ha
  cases hm : addMembers lower info r units [] with
  | error e => rw [hm] at ha; exact absurd ha (by simp [bind, Except.bind])
  | ok ms =>
    rw [hm] at ha
    cases ha
    have old : ∀ n, (∃ a ∈ r.ambiguous, goesBy lower n a) →
        ∃ a ∈ r.ambiguous ++ [⟨names, symbols, ms⟩], goesBy lower n a := by
      rintro n ⟨a, h1, h2⟩
      exact ⟨a, List.mem_append_left _ h1, h2⟩
    refine ⟨⟨?_, ?_, ?_, ?_, ?_, ?_⟩, rfl⟩
    · intro n v hv
      simp only [enter, lookup_enter lower] at hv
      split at hv
      · cases hv
      · rcases h.name_unit n v hv with h | h
        · exact .inl h
        · exact .inr (old n h)
    · intro n a hv
      simp only [enter, lookup_enter lower] at hv
      split at hv
      · rename_i hn
        cases hv
        obtain ⟨m, hm, e⟩ := List.mem_map.1 hn
        exact ⟨_, List.mem_append_right _ (List.mem_singleton_self _), .inl ⟨m, hm, e⟩⟩
      · exact old n (h.name_amb n a hv)
    · intro n hv
      simp only [enter, lookup_enter lower] at hv
      split at hv
      · cases hv
      · exact h.name_none n hv
    · intro n v hv
      simp only [enter, lookup_enter (fun s => s), List.map_id'] at hv
      split at hv
      · cases hv
      · rcases h.sym_unit n v hv with h | h
        · exact .inl h
        · exact .inr (old n h)
    · intro n a hv
      simp only [enter, lookup_enter (fun s => s), List.map_id'] at hv
      split at hv
      · rename_i hn
        cases hv
        exact ⟨_, List.mem_append_right _ (List.mem_singleton_self _), .inr hn⟩
      · exact old n (h.sym_amb n a hv)
    · intro n hv
      simp only [enter, lookup_enter (fun s => s), List.map_id'] at hv
      split at hv
      · cases hv
      · exact h.sym_none n hv

theorem inv_build {prefs : List String} {ops : List (Op U)} {r : Reg U}
    (h : build lower info prefs ops = .ok r) :
    Inv lower info (registered ops) r ∧ r.prefs = prefs := by
  have key : ∀ (ops : List (Op U)) (us : List U) (r₀ r : Reg U), Inv lower info us r₀ →
      ops.foldlM (applyOp lower info) r₀ = .ok r →
      Inv lower info (us ++ registered ops) r ∧ r.prefs = r₀.prefs := by
    intro ops
    induction ops with
    | nil => intro us r₀ r hi h; cases h; simpa [registered] using hi
    | cons o ops ih =>
      intro us r₀ r hi h
      rw [List.foldlM_cons] at h
      cases h1 : applyOp lower info r₀ o with
      | error e => rw [h1] at h; exact absurd h (by simp [bind, Except.bind])
      | ok r₁ =>
        rw [h1] at h
        change ops.foldlM (applyOp lower info) r₁ = .ok r at h
        cases o with
        | dim d =>
          cases h1
          exact ih us { r₀ with dims := d :: r₀.dims } r
            ⟨hi.name_unit, hi.name_amb, hi.name_none, hi.sym_unit, hi.sym_amb, hi.sym_none⟩ h
        | unit d u =>
          obtain ⟨k1, _, k2⟩ := inv_unit hi h1
          have := ih (us ++ [u]) r₁ r k1 h
          rw [k2] at this
          have e : registered (Op.unit d u :: ops) = u :: registered ops := rfl
          rw [e]
          rw [List.append_assoc] at this
          exact this
        | amb ns ss us' =>
          obtain ⟨k1, k2⟩ := inv_amb hi h1
          have := ih us r₁ r k1 h
          rw [k2] at this
          exact this
  have := key ops [] ⟨[], prefs, [], [], []⟩ r
    ⟨by simp, by simp, by simp, by simp, by simp, by simp⟩ h
  simpa using this

theorem find_goesBy {r : Reg U} {n : String} :
    r.ambiguous.find? (fun a => isUnit lower a.names a.symbols n) = none ↔
      ∀ a ∈ r.ambiguous, ¬ goesBy lower n a := by
  rw [List.find?_eq_none]
  constructor
  · intro h a ha hg
    exact h a ha ((isUnit_iff a n).2 hg)
  · intro h a ha hg
    exact h a ha ((isUnit_iff a n).1 hg)

theorem addSystems_clash {u : U} {ss : List String} {ms : List (String × U)}
    (h : ∃ s ∈ ss, (ms.lookup s).isSome) :
    ∃ m, addSystems u ss ms = .error (.py m) := by
  induction ss generalizing ms with
  | nil => simp at h
  | cons s ss ih =>
    unfold addSystems
    split
    · exact ⟨_, rfl⟩
    · rename_i hs
      apply ih
      obtain ⟨x, hx, hl⟩ := h
      rcases List.mem_cons.1 hx with rfl | hx
      · exact absurd hl hs
      · refine ⟨x, hx, ?_⟩
        rw [List.lookup_append]
        cases hc : ms.lookup x with
        | none => rw [hc] at hl; simp at hl
        | some v => rfl

theorem lookup_isSome_of_mem {V : Type} {s : String} {ms : List (String × V)}
    (h : s ∈ ms.map (·.1)) : (ms.lookup s).isSome = true := by
  induction ms with
  | nil => simp at h
  | cons m ms ih =>
    rw [List.lookup_cons]
    by_cases hk : s = m.1
    · simp [hk]
    · have hb : (s == m.1) = false := by simpa using hk
      rw [hb]
      rw [List.map_cons, List.mem_cons] at h
      exact ih (h.resolve_left hk)

theorem addSystems_ok {u : U} {ss : List String} {ms ms' : List (String × U)}
    (h : addSystems u ss ms = .ok ms') : ms' = ms ++ ss.map (·, u) := by
  induction ss generalizing ms with
  | nil => cases h; simp
  | cons s ss ih =>
    unfold addSystems at h
    split at h
    · exact absurd h (by simp)
    · rw [ih h]; simp

theorem addMembers_clash {r : Reg U} {ns : List String} {ms : List (String × U)} {s m : String}
    {v : U} (hs : s ∈ ms.map (·.1)) (hm : m ∈ ns) (hv : getUnit lower r m = .ok (some (.unit v)))
    (hsv : s ∈ (info v).systems) : ∃ e, addMembers lower info r ns ms = .error e := by
  induction ns generalizing ms with
  | nil => simp at hm
  | cons n ns ih =>
    unfold addMembers
    cases hg : getUnit lower r n with
    | error e => exact ⟨e, rfl⟩
    | ok res =>
      simp only [bind, Except.bind]
      split
      · rename_i u
        cases hu : addSystems u (info u).systems ms with
        | error e => exact ⟨e, rfl⟩
        | ok ms' =>
          simp only
          rcases List.mem_cons.1 hm with rfl | hm
          · rw [hv] at hg
            cases hg
            obtain ⟨e, he⟩ := addSystems_clash (u := v) (ms := ms)
              ⟨s, hsv, lookup_isSome_of_mem hs⟩
            rw [he] at hu
            exact absurd hu (by simp)
          · refine ih ?_ hm
            rw [addSystems_ok hu, List.map_append]
            exact List.mem_append_left _ hs
      · exact ⟨_, rfl⟩

theorem addMembers_twice {r : Reg U} {pre mid post : List String} {ms : List (String × U)}
    {s n m : String} {u v : U} (hu : getUnit lower r n = .ok (some (.unit u)))
    (hv : getUnit lower r m = .ok (some (.unit v))) (hsu : s ∈ (info u).systems)
    (hsv : s ∈ (info v).systems) :
    ∃ e, addMembers lower info r (pre ++ n :: mid ++ m :: post) ms = .error e := by
  induction pre generalizing ms with
  | nil =>
    rw [List.nil_append, List.cons_append]
    unfold addMembers
    rw [hu]
    simp only [bind, Except.bind]
    cases ha : addSystems u (info u).systems ms with
    | error e => exact ⟨e, rfl⟩
    | ok ms' =>
      simp only
      refine addMembers_clash (s := s) ?_ (m := m) (by simp) hv hsv
      rw [addSystems_ok ha, List.map_append, List.mem_append]
      right
      simpa using hsu
  | cons x pre ih =>
    rw [List.cons_append, List.cons_append]
    unfold addMembers
    cases hg : getUnit lower r x with
    | error e => exact ⟨e, rfl⟩
    | ok res =>
      simp only [bind, Except.bind]
      split
      · rename_i w
        cases ha : addSystems w (info w).systems ms with
        | error e => exact ⟨e, rfl⟩
        | ok ms' => exact ih
      · exact ⟨_, rfl⟩

end MC.Unit.Registry
