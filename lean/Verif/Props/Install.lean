import Verif.Lemmas.Install

/-!
# C40, C41: installing features
-/

namespace MC.Props
open MC MC.Install MC.Spec

variable {T : Table} {rank : String → ℕ}

/-! ## Enough fuel gives the result -/

theorem each_mono {α : Type} {f g : α → Run} (h : ∀ a st r, f a st = some r → g a st = some r) :
    ∀ (as : List α) (st : Install.St) r, each f as st = some r → each g as st = some r := by
  intro as
  induction as with
  | nil => intro st r h; exact h
  | cons a as ih =>
    intro st r hr
    unfold each at hr ⊢
    cases hf : f a st with
    | none => simp [hf] at hr
    | some x =>
      rw [h a st x hf]
      rw [hf] at hr
      obtain ⟨_ | _, s⟩ := x
      · exact hr
      · exact ih s r hr

theorem seq_mono {f g f' g' : Run} (h1 : ∀ st r, f st = some r → f' st = some r)
    (h2 : ∀ st r, g st = some r → g' st = some r) (st : Install.St) (r) :
    seq f g st = some r → seq f' g' st = some r := by
  unfold seq
  intro hr
  cases hf : f st with
  | none => simp [hf] at hr
  | some x =>
    rw [h1 st x hf]
    rw [hf] at hr
    obtain ⟨_ | _, s⟩ := x
    · exact hr
    · exact h2 s r hr

theorem mark_mono (T : Table) : ∀ fuel n st r, mark T fuel n st = some r →
    mark T (fuel + 1) n st = some r := by
  intro fuel
  induction fuel with
  | zero => intro n st r h; simp [mark] at h
  | succ fuel ih =>
    intro n st r h
    unfold mark at h ⊢
    split
    · next hp => simpa [hp] using h
    · next hp =>
      simp only [hp, if_false] at h
      cases hT : T n with
      | none => simpa [hT] using h
      | some f =>
        simp only [hT] at h ⊢
        exact each_mono (fun a st r => ih a st r) _ _ _ h

theorem install_succ (T : Table) : ∀ fuel names st r, install T fuel names st = some r →
    install T (fuel + 1) names st = some r := by
  intro fuel
  induction fuel with
  | zero => intro names st r h; simp [install] at h
  | succ fuel ih =>
    intro names st r h
    unfold install at h ⊢
    refine seq_mono (fun st r => each_mono (fun a st r => mark_mono T _ a st r) _ st r)
      (fun st r => each_mono ?_ _ st r) st r h
    intro n st r
    unfold installOne
    split
    · exact id
    · cases T n with
      | none => exact id
      | some f =>
        simp only
        apply seq_mono
        · intro st r
          apply each_mono
          intro b st r
          split
          · exact ih [b] st r
          · exact id
        · apply seq_mono
          · intro st r
            apply each_mono
            intro b st r
            split
            · exact ih [b] st r
            · exact id
          · apply seq_mono (fun _ _ h => h)
            apply seq_mono
            · intro st r
              unfold runSubs
              cases f.subs with
              | none => exact id
              | some subs => exact ih subs st r
            · exact fun _ _ h => h

/-- `install_features` with these names in state `st` ends with this result: the recursion is
over after some depth. -/
def Ends (T : Table) (names : List String) (st : Install.St) (r : Except Raise Unit × Install.St) :
    Prop := ∃ fuel, install T fuel names st = some r

/-- The result does not depend on the fuel. -/
theorem C40_result_unique {names : List String} {st : Install.St}
    {r r' : Except Raise Unit × Install.St} (h : Ends T names st r) (h' : Ends T names st r') :
    r = r' := by
  have mono : ∀ k fuel r, install T fuel names st = some r →
      install T (fuel + k) names st = some r := by
    intro k
    induction k with
    | zero => intro _ _ h; exact h
    | succ k ih => intro fuel r h; exact install_succ T _ names st r (ih fuel r h)
  obtain ⟨f, h⟩ := h
  obtain ⟨f', h'⟩ := h'
  have h1 := mono f' f r h
  have h2 := mono f f' r' h'
  rw [Nat.add_comm] at h2
  exact Option.some.inj (h1.symm.trans h2)

/-- A state a calculator can be in: new, or after requests that succeeded. -/
inductive Reached (T : Table) : Install.St → Prop
  | fresh : Reached T fresh
  | request {st st' names} : Reached T st → (∀ n ∈ names, T n ≠ none) →
      Ends T names st (.ok (), st') → Reached T st'

/-- What holds in those states. -/
structure Top (T : Table) (rank : String → ℕ) (st : Install.St) : Prop where
  inv : ∀ b, Inv T rank (fun n => n ∈ st.installed) b st

theorem top_fresh : Top T rank fresh := by
  constructor
  intro b
  constructor <;> simp [fresh, Before]

theorem needed_all {names : List String} {S : String → Prop} (h : ∀ n ∈ names, S n)
    (hd : ∀ n f, S n → T n = some f → ∀ d ∈ f.deps, S d)
    (hs : ∀ n f subs, S n → T n = some f → f.subs = some subs → ∀ d ∈ subs, S d) {n : String}
    (hn : Needed T names n) : S n := by
  induction hn with
  | named hm => exact h _ hm
  | dep _ hf hm ih => exact hd _ _ ih hf _ hm
  | sub _ hf hsub hm ih => exact hs _ _ _ ih hf hsub _ hm

/-- A bound on the ranks of the names. -/
theorem rank_bound (rank : String → ℕ) (names : List String) : ∃ b, ∀ n ∈ names, rank n < b := by
  induction names with
  | nil => exact ⟨0, by simp⟩
  | cons n names ih =>
    obtain ⟨b, hb⟩ := ih
    refine ⟨max b (rank n + 1), ?_⟩
    intro m hm
    rcases List.mem_cons.mp hm with rfl | hm
    · omega
    · have := hb m hm
      omega

/-- A request from such a state. -/
theorem request (hA : Acyclic T rank) (hC : Closed T) {st : Install.St} (ht : Top T rank st)
    {names : List String} (hk : ∀ n ∈ names, T n ≠ none) :
    ∃ st', Ends T names st (.ok (), st') ∧ Top T rank st' ∧
      (∀ n, n ∈ st'.installed ↔ n ∈ st.installed ∨ Needed T names n) ∧
      (∃ new, st'.log = st.log ++ new ∧ ∀ pre n post, new = pre ++ .start n :: post →
        ∀ f, T n = some f → ∀ a ∈ f.after,
          (a ∈ st.installed ∨ NeededDirectly T names a) → .done a ∈ st.log ++ pre) := by
  obtain ⟨b, hb⟩ := rank_bound rank names
  let P : String → Prop := fun n => n ∈ st.installed ∨ Needed T names n
  have hi0 := ht.inv b
  have hP : ∀ n f, P n → T n = some f → ∀ d ∈ f.deps, P d := by
    rintro n f (h | h) hf d hd
    · exact Or.inl (hi0.dclosed n h f hf d hd)
    · exact Or.inr (.dep h hf hd)
  have hPs : ∀ n f subs, P n → T n = some f → f.subs = some subs → ∀ d ∈ subs, P d := by
    rintro n f subs (h | h) hf hs d hd
    · exact Or.inl (hi0.sclosed n h f subs hf hs d hd)
    · exact Or.inr (.sub h hf hs hd)
  have hi : Inv T rank P b st :=
    { hi0 with within := fun n hn => Or.inl (hi0.within n hn) }
  have hn : ∀ n ∈ names, rank n < b ∧ T n ≠ none ∧ P n :=
    fun n h => ⟨hb n h, hk n h, Or.inr (.named h)⟩
  -- the two loops of the outermost call
  obtain ⟨s1, e1, i1, r1, q1⟩ := markAll_spec hA hC (N := NeededDirectly T names)
    (fun n f h hf d hd => .dep h hf hd) (fuel := b + 1 + 1) (names := names)
    (fun n hm => ⟨by have := hb n hm; omega, hk n hm, .named hm⟩)
    (st := st) ⟨hi.known, fun n h _ => hi.pclosed n h⟩
  have hi1 : Inv T rank P b s1 := hi.marked i1 r1
    (fun n h => needed_directly (fun m hm => (hn m hm).2.2) hP h)
  let H : String → Prop := fun a => a ∈ s1.pending
  obtain ⟨s2, e2, i2, r2, q2⟩ := installLoop_spec (H := H) hA hC hP hPs
    (install_spec hA hC hP hPs (b + 1)) (Nat.le_succ b) hn (fun a h => h) hi1 q1
  have hpend : ∀ n ∈ s2.pending, n ∈ s2.installed := by
    intro n hn'
    rcases r2.all n hn' with h | h
    · rcases r1.only n h with h | h
      · exact r2.mono n (r1.installed.symm ▸ (hi0.within n h))
      · exact needed_directly q2 (fun n f hS hf d hd => i2.dclosed n hS f hf d hd) h
    · exact h
  refine ⟨s2, ⟨b + 1 + 1, by rw [install, seq_ok e1, e2]⟩, ⟨fun b' => ?_⟩, ?_, ?_⟩
  · refine { i2 with within := hpend, started := ?_ }
    intro n hn'
    obtain ⟨new, l, hr, _⟩ := r2.log
    rw [l, r1.log] at hn'
    refine Or.inl ?_
    rcases List.mem_append.mp hn' with h | h
    · rcases (ht.inv (rank n + 1)).started n h with h | h
      · exact r2.mono n (r1.installed.symm ▸ h)
      · omega
    · rcases i2.started n (by rw [l]; exact List.mem_append_right _ h) with h' | h'
      · exact h'
      · have := hr _ h
        simp only [Event.name] at this
        omega
  · intro n
    constructor
    · intro h
      exact i2.within n (i2.inst n h)
    · rintro (h | h)
      · exact r2.mono n (r1.installed.symm ▸ h)
      · exact needed_all q2 (fun n f hS hf d hd => i2.dclosed n hS f hf d hd)
          (fun n f subs hS hf hs d hd => i2.sclosed n hS f subs hf hs d hd) h
  · obtain ⟨new, l, _, ha⟩ := r2.log
    refine ⟨new, by rw [l, r1.log], ?_⟩
    intro pre n post hsplit f hf a haf hor
    rw [← r1.log]
    refine ha pre n post hsplit f hf a haf ?_
    show a ∈ s1.pending
    rcases hor with h | h
    · exact r1.mono a (hi0.inst a h)
    · exact needed_directly q1 (fun n f hS hf d hd => i1.closed n hS (fun h => h) f hf d hd) h

theorem reached_top (hA : Acyclic T rank) (hC : Closed T) {st : Install.St}
    (h : Reached T st) : Top T rank st := by
  induction h with
  | fresh => exact top_fresh
  | request _ hk he ih =>
    obtain ⟨st', h1, h2, _⟩ := request hA hC ih hk
    have := C40_result_unique he h1
    simp only [Prod.mk.injEq, true_and] at this
    rw [this]
    exact h2

/-! ## C40 -/

/-- **C40**: a request for known features ends without error; afterwards the installed features are
those installed before, those named, everything they depend on and the members of groups, and
nothing else. -/
theorem C40_installs (hA : Acyclic T rank) (hC : Closed T) {st : Install.St} (h : Reached T st)
    {names : List String} (hk : ∀ n ∈ names, T n ≠ none) :
    ∃ st', Ends T names st (.ok (), st') ∧ Reached T st' ∧
      ∀ n, n ∈ st'.installed ↔ n ∈ st.installed ∨ Needed T names n := by
  obtain ⟨st', h1, h2, h3, _⟩ := request hA hC (reached_top hA hC h) hk
  exact ⟨st', h1, .request h hk h1, h3⟩

/-- **C40**: whatever was requested, each installed feature was installed exactly once, and no other
feature was. -/
theorem C40_once (hA : Acyclic T rank) (hC : Closed T) {st : Install.St} (h : Reached T st)
    (n : String) :
    st.log.count (.start n) = (if n ∈ st.installed then 1 else 0) ∧
      st.log.count (.done n) = (if n ∈ st.installed then 1 else 0) := by
  have hi := (reached_top hA hC h).inv (rank n + 1)
  have hd := hi.done n
  by_cases hn : n ∈ st.installed
  · rw [if_pos hn]
    exact ⟨List.count_eq_one_of_mem hi.nodup (hi.begun n hn),
      List.count_eq_one_of_mem hi.nodup (hd.mpr hn)⟩
  · rw [if_neg hn]
    constructor
    · rw [List.count_eq_zero]
      intro hs
      rcases hi.started n hs with h | h
      · exact hn h
      · omega
    · rw [List.count_eq_zero]
      exact fun h => hn (hd.mp h)

/-- **C40**: the installation of a feature begins after everything it depends on has been
installed. -/
theorem C40_dependencies_first (hA : Acyclic T rank) (hC : Closed T) {st : Install.St}
    (h : Reached T st) {n : String} {f : Feature} (hf : T n = some f) {d : String}
    (hd : d ∈ f.deps) : Before st.log d n :=
  ((reached_top hA hC h).inv 0).order n f hf d hd

/-- **C40**: requesting installed features again changes nothing. -/
theorem C40_again (hA : Acyclic T rank) (hC : Closed T) {st : Install.St} (h : Reached T st)
    {names : List String} (hn : ∀ n ∈ names, n ∈ st.installed) : Ends T names st (.ok (), st) := by
  have hi := (reached_top hA hC h).inv 0
  refine ⟨1, ?_⟩
  have e1 : ∀ names : List String, (∀ n ∈ names, n ∈ st.pending) →
      each (mark T 1) names st = some (.ok (), st) := by
    intro names
    induction names with
    | nil => intro _; rfl
    | cons a as ih =>
      intro hm
      have : mark T 1 a st = some (.ok (), st) := by simp [mark, hm a (by simp)]
      simp only [each, this]
      exact ih (fun n hn => hm n (by simp [hn]))
  have e2 : ∀ names : List String, (∀ n ∈ names, n ∈ st.installed) →
      each (installOne T (install T 0)) names st = some (.ok (), st) := by
    intro names
    induction names with
    | nil => intro _; rfl
    | cons a as ih =>
      intro hm
      have : installOne T (install T 0) a st = some (.ok (), st) := by
        simp [installOne, hm a (by simp)]
      simp only [each, this]
      exact ih (fun n hn => hm n (by simp [hn]))
  rw [install, seq_ok (e1 names (fun n h => hi.inst n (hn n h)))]
  exact e2 names hn

/-- **C40**: with `skipMissing`, names that are not known are left out. -/
theorem C40_skip_missing (hA : Acyclic T rank) (hC : Closed T) {st : Install.St}
    (h : Reached T st) (names : List String) :
    ∃ fuel st', installSkip T fuel names st = some (.ok (), st') ∧ Reached T st' ∧
      ∀ n, n ∈ st'.installed ↔ n ∈ st.installed ∨
        Needed T (names.filter (fun n => (T n).isSome)) n := by
  have hk : ∀ n ∈ names.filter (fun n => (T n).isSome), T n ≠ none := by
    intro n hn
    have := (List.mem_filter.mp hn).2
    intro h
    simp [h] at this
  obtain ⟨st', ⟨fuel, h1⟩, h2, h3⟩ := C40_installs hA hC h hk
  exact ⟨fuel, st', h1, h2, h3⟩

/-! ## C41 -/

/-- **C41**, the part that holds: if a request asks for `a` otherwise than as a member of a group, or
`a` is already there, then every feature that the request installs and that must come after `a`
is installed after it.  Missing: `a` in a group (`C41_group_violation`). -/
theorem C41_after_partial (hA : Acyclic T rank) (hC : Closed T) {st : Install.St}
    (h : Reached T st) {names : List String} (hk : ∀ n ∈ names, T n ≠ none) {n a : String}
    {f : Feature} (hf : T n = some f) (ha : a ∈ f.after) (hnew : n ∉ st.installed)
    (hd : a ∈ st.installed ∨ NeededDirectly T names a) :
    ∃ st', Ends T names st (.ok (), st') ∧ Before st'.log a n := by
  have ht := reached_top hA hC h
  obtain ⟨st', h1, h2, h3, new, h4, h5⟩ := request hA hC ht hk
  refine ⟨st', h1, ?_⟩
  intro pre post hsplit
  rw [h4] at hsplit
  rcases append_start hsplit with ⟨c, hc, _⟩ | ⟨c, hc, hc'⟩
  · exfalso
    rcases (ht.inv (rank n + 1)).started n (by rw [hc]; simp) with h | h
    · exact hnew h
    · omega
  · rw [hc]
    exact h5 c n post hc' f hf a ha hd

/-- Two features, `n` after `a`, and a group with `a`. -/
def groupTable : Table := fun x =>
  if x = "n" then some ⟨[], ["a"], none⟩
  else if x = "a" then some ⟨[], [], none⟩
  else if x = "group" then some ⟨[], [], some ["a"]⟩
  else none

/-- **C41 fails for groups**: `n` and a group with `a` are requested together, and `n` is installed
before `a` although it must come after it. -/
theorem C41_group_violation :
    ∃ st, Ends groupTable ["n", "group"] fresh (.ok (), st) ∧
      st.log = [.start "n", .done "n", .start "group", .start "a", .done "a", .done "group"] ∧
      ¬ Before st.log "a" "n" := by
  refine ⟨_, ⟨2, rfl⟩, rfl, ?_⟩
  intro h
  have := h [] _ rfl
  simp at this

/-- **C41**: where the features that others must come after, and those that depend on them, are not
members of groups, the hints are always respected. -/
theorem C41_no_group_partial (hA : Acyclic T rank) (hC : Closed T) (U : List String)
    (hint : ∀ n f, T n = some f → ∀ a ∈ f.after, a ∈ U)
    (up : ∀ n f, T n = some f → ∀ d ∈ f.deps, d ∈ U → n ∈ U)
    (group : ∀ n f subs, T n = some f → f.subs = some subs → ∀ d ∈ subs, d ∉ U)
    {st : Install.St} (h : Reached T st) {names : List String} (hk : ∀ n ∈ names, T n ≠ none)
    {n a : String} {f : Feature} (hf : T n = some f) (ha : a ∈ f.after)
    (hnew : n ∉ st.installed) (hd : Needed T names a) :
    ∃ st', Ends T names st (.ok (), st') ∧ Before st'.log a n := by
  refine C41_after_partial hA hC h hk hf ha hnew (Or.inr ?_)
  have key : ∀ m, Needed T names m → m ∈ U → NeededDirectly T names m := by
    intro m hm
    induction hm with
    | named hm => exact fun _ => .named hm
    | @dep x g m _ hg hmem ih => exact fun hU => .dep (ih (up x g hg m hmem hU)) hg hmem
    | @sub x g subs m _ hg hs hmem _ => exact fun hU => absurd hU (group x g subs hg hs m hmem)
  exact key a hd (hint n f hf a ha)

/-! ## The shipped features -/

/-- The ranks of the shipped features that are not 0. -/
def shippedRanks : List (String × ℕ) :=
  [
    ("arrays.arrayfunctions", 1), ("dates.datefunctions", 2), ("dates.dateoperators", 2),
    ("dates.dates", 1), ("numerical.advancedarithmetic", 1),
    ("numerical.arbitrarybasenumbers", 2), ("numerical.bases", 1),
    ("numerical.basicarithmetic", 1), ("numerical.binarynumbers", 2),
    ("numerical.bitwiseoperators", 1), ("numerical.decimalfunction", 2),
    ("numerical.decimalnumbers", 1), ("numerical.expnumbers", 2),
    ("numerical.hexadecimalnumbers", 2), ("numerical.numericalconstants", 1),
    ("numerical.numericalfunctions", 1), ("numerical.octalnumbers", 2),
    ("numerical.percentagenumbers", 2), ("numerical.specialfunctions", 1),
    ("numerical.statisticalfunctions", 1), ("numerical.trigonometryfunctions", 1),
    ("state.assignment", 1), ("state.assignmentfunctions", 2), ("state.assignmentoperators",
    2), ("strings.regex", 1), ("strings.stringarrayfunctions", 1),
    ("strings.stringcomparison", 1), ("strings.stringfunctions", 1),
    ("structure.externalfunctions", 3), ("structure.functionpointers", 2),
    ("structure.inlinefunctions", 3), ("unitdefinitions.absorbeddose", 4),
    ("unitdefinitions.acceleration", 4), ("unitdefinitions.allunitdefinitions", 5),
    ("unitdefinitions.angle", 3), ("unitdefinitions.area", 4), ("unitdefinitions.capacitance",
    4), ("unitdefinitions.catalyticactivity", 4), ("unitdefinitions.data", 3),
    ("unitdefinitions.distance", 3), ("unitdefinitions.electricalconductance", 4),
    ("unitdefinitions.electricalpotential", 4), ("unitdefinitions.electriccharge", 4),
    ("unitdefinitions.electriccurrent", 3), ("unitdefinitions.energy", 4),
    ("unitdefinitions.equivalentdose", 4), ("unitdefinitions.force", 4),
    ("unitdefinitions.frequency", 4), ("unitdefinitions.illuminance", 4),
    ("unitdefinitions.inductance", 4), ("unitdefinitions.luminousflux", 4),
    ("unitdefinitions.luminousintensity", 3), ("unitdefinitions.magneticflux", 4),
    ("unitdefinitions.magneticfluxdensity", 4), ("unitdefinitions.mass", 3),
    ("unitdefinitions.power", 4), ("unitdefinitions.pressure", 4),
    ("unitdefinitions.radioactivity", 4), ("unitdefinitions.resistance", 4),
    ("unitdefinitions.solidangle", 3), ("unitdefinitions.substance", 3),
    ("unitdefinitions.temperature", 3), ("unitdefinitions.time", 3),
    ("unitdefinitions.velocity", 4), ("unitdefinitions.volume", 4),
    ("units.advancedunitprefixes", 2), ("units.basicunitprefixes", 1), ("units.systems", 1),
    ("units.unitconstants", 5), ("units.unitfunctions", 2), ("units.unitsymbols", 1)
  ]

/-- The rank of a shipped feature. -/
def shippedRank (n : String) : ℕ := (shippedRanks.lookup n).getD 0

theorem shipped_mem {n : String} {f : Feature} (h : shipped n = some f) : (n, f) ∈ shippedList := by
  unfold shipped at h
  generalize shippedList = l at h ⊢
  induction l with
  | nil => simp at h
  | cons e l ih =>
    obtain ⟨k, d⟩ := e
    rw [List.lookup_cons] at h
    split at h
    · next hb =>
      rw [beq_iff_eq] at hb
      rw [← Option.some.inj h, hb]
      simp
    · exact List.mem_cons_of_mem _ (ih h)

/-- **C40**: the shipped features have no cycles... -/
theorem C40_shipped_acyclic : Acyclic shipped shippedRank := by
  have key : ∀ e ∈ shippedList, (∀ m ∈ e.2.deps, shippedRank m < shippedRank e.1) ∧
      (∀ m ∈ e.2.after, shippedRank m < shippedRank e.1) ∧
      (∀ m ∈ e.2.subs.getD [], shippedRank m < shippedRank e.1) := by decide +kernel
  refine ⟨fun n f h => (key _ (shipped_mem h)).1, fun n f h => (key _ (shipped_mem h)).2.1, ?_⟩
  intro n f subs h hs m hm
  have := (key _ (shipped_mem h)).2.2 m
  rw [hs] at this
  exact this hm

/-- ... and mention no features that do not exist. -/
theorem C40_shipped_closed : Closed shipped := by
  have key : ∀ e ∈ shippedList, (∀ m ∈ e.2.deps, (shipped m).isSome) ∧
      (∀ m ∈ e.2.subs.getD [], (shipped m).isSome) := by decide +kernel
  constructor
  · intro n f h m hm hn
    have := (key _ (shipped_mem h)).1 m hm
    simp [hn] at this
  · intro n f subs h hs m hm hn
    have := (key _ (shipped_mem h)).2 m
    rw [hs] at this
    have := this hm
    simp [hn] at this

/-- **C41**: among the shipped features the hints are always respected. -/
theorem C41_shipped {st : Install.St} (h : Reached shipped st) {names : List String}
    (hk : ∀ n ∈ names, shipped n ≠ none) {n a : String} {f : Feature} (hf : shipped n = some f)
    (ha : a ∈ f.after) (hnew : n ∉ st.installed) (hd : Needed shipped names a) :
    ∃ st', Ends shipped names st (.ok (), st') ∧ Before st'.log a n := by
  let U := ["numerical.numericalrepresentation", "units.basicunitprefixes",
    "units.advancedunitprefixes", "units.unitconstants"]
  have key : ∀ e ∈ shippedList, (∀ a ∈ e.2.after, a ∈ U) ∧ (∀ d ∈ e.2.deps, d ∈ U → e.1 ∈ U) ∧
      (∀ d ∈ e.2.subs.getD [], d ∉ U) := by decide +kernel
  refine C41_no_group_partial C40_shipped_acyclic C40_shipped_closed U
    (fun n f h => (key _ (shipped_mem h)).1) (fun n f h => (key _ (shipped_mem h)).2.1) ?_
    h hk hf ha hnew hd
  intro n f subs h hs d hd
  have := (key _ (shipped_mem h)).2.2 d
  rw [hs] at this
  exact this hd

/-- A request for two shipped features, one with a hint on the other. -/
example : ∃ st, Ends shipped ["numerical.percentagenumbers", "numerical.numericalrepresentation"]
    fresh (.ok (), st) ∧
    Before st.log "numerical.numericalrepresentation" "numerical.percentagenumbers" :=
  C41_shipped .fresh (by decide +kernel) (n := "numerical.percentagenumbers")
    (f := ⟨["numerical.decimalnumbers"], ["numerical.numericalrepresentation"], none⟩) rfl
    (by simp) (by simp [fresh]) (.named (by simp))

/-! ## Outside the property's range -/

/-- Two features that depend on each other. -/
def cycleTable : Table := fun x =>
  if x = "a" then some ⟨["b"], [], none⟩ else if x = "b" then some ⟨["a"], [], none⟩ else none

/-- With a cycle the recursion never ends. -/
theorem C40_cycle_note (r : Except Raise Unit × Install.St) :
    ¬ Ends cycleTable ["a"] fresh r := by
  rintro ⟨fuel, h⟩
  have fa : cycleTable "a" = some ⟨["b"], [], none⟩ := rfl
  have fb : cycleTable "b" = some ⟨["a"], [], none⟩ := rfl
  have key : ∀ fuel (st : Install.St), "a" ∈ st.pending → "b" ∈ st.pending →
      "a" ∉ st.installed → "b" ∉ st.installed → ∀ x, x = "a" ∨ x = "b" →
      install cycleTable fuel [x] st = none := by
    intro fuel
    induction fuel with
    | zero => intros; rfl
    | succ n ih =>
      intro st ha hb hia hib x hx
      have hm : mark cycleTable (n + 1) x st = some (.ok (), st) := by
        rcases hx with rfl | rfl <;> simp [mark, ha, hb]
      have h1 : each (mark cycleTable (n + 1)) [x] st = some (.ok (), st) := by
        simp only [each, hm]
      rw [install, seq_ok h1]
      rcases hx with rfl | rfl
      · simp only [each, installOne, hia, if_false, fa, if_true, seq, hib, not_false_eq_true,
          ih st ha hb hia hib "b" (Or.inr rfl)]
      · simp only [each, installOne, hib, if_false, fb, if_true, seq, hia, not_false_eq_true,
          ih st ha hb hia hib "a" (Or.inl rfl)]
  cases fuel with
  | zero => simp [install] at h
  | succ n =>
    rw [install] at h
    unfold seq at h
    cases hm : each (mark cycleTable (n + 1)) ["a"] fresh with
    | none => simp [hm] at h
    | some q =>
      have hq : q = (.ok (), ⟨[], ["b", "a"], []⟩) := by
        match n, hm with
        | 0, hm => simp [each, mark, fresh, cycleTable] at hm
        | 1, hm => simp [each, mark, fresh, cycleTable] at hm
        | n + 2, hm => simpa [each, mark, fresh, cycleTable, eq_comm] using hm
      rw [hm, hq] at h
      have := key n ⟨[], ["b", "a"], []⟩ (by simp) (by simp) (by simp) (by simp) "b" (Or.inr rfl)
      simp [each, installOne, fa, seq, this] at h

/-- An unknown name raises `KeyError`, not a calculator error, and the features named before it
stay marked: a later request can then install a feature nobody asked for in it. -/
theorem C40_unknown_note :
    let T : Table := fun x => if x = "n" then some ⟨[], ["a"], none⟩
      else if x = "a" then some ⟨[], [], none⟩ else none
    ∃ st st', Ends T ["a", "nope"] fresh (.error (.py "KeyError"), st) ∧ st.installed = [] ∧
      Ends T ["n"] st (.ok (), st') ∧ st'.installed = ["n", "a"] ∧ ¬ Needed T ["n"] "a" := by
  intro T
  refine ⟨⟨[], ["nope", "a"], []⟩, _, ⟨1, rfl⟩, rfl, ⟨2, rfl⟩, rfl, ?_⟩
  intro h
  have : ∀ m, Needed T ["n"] m → m = "n" := by
    intro m hm
    induction hm with
    | named h => simpa using h
    | dep _ hf hmem ih => subst ih; simp only [T, if_true, Option.some.injEq] at hf; subst hf; simp at hmem
    | sub _ hf hs _ ih => subst ih; simp only [T, if_true, Option.some.injEq] at hf; subst hf; simp at hs
  exact absurd (this _ h) (by decide)

end MC.Props
