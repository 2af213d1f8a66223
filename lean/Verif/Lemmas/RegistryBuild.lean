import Mathlib.Data.List.Forall2
import Verif.Props.Registry

/-!
# When registering succeeds
-/

namespace MC.Unit.Registry
open Spec

variable {U : Type} {lower : String → String} {info : U → Def}

/-- The ambiguous unit that a registration makes from these members. -/
def ambOf (info : U → Def) (names symbols : List String) (members : List U) : Amb U :=
  ⟨names, symbols, members.flatMap (fun u => (info u).systems.map (·, u))⟩

/-- Registrations that are accepted: dimensions come before their units, the members of an ambiguous
unit have been registered, are the only ones with their name, and no two are in the same system.
The second argument are the ambiguous units. -/
inductive Fine (lower : String → String) (info : U → Def) : List (Op U) → List (Amb U) → Prop
  | nil : Fine lower info [] []
  | dim {ops ambs} (d : String) : Fine lower info ops ambs → Fine lower info (ops ++ [.dim d]) ambs
  | unit {ops ambs} (d : String) (u : U) : Fine lower info ops ambs → Op.dim d ∈ ops →
      Fine lower info (ops ++ [.unit d u]) ambs
  | amb {ops ambs} (names symbols units : List String) (members : List U) :
      Fine lower info ops ambs →
      List.Forall₂ (fun n u => u ∈ registered ops ∧ named lower info n u ∧
        (∀ v ∈ registered ops, named lower info n v → v = u) ∧
        ∀ a ∈ ambs, ¬ goesBy lower n a) units members →
      (members.flatMap (fun u => (info u).systems)).Nodup →
      Fine lower info (ops ++ [.amb names symbols units]) (ambs ++ [ambOf info names symbols members])

theorem getUnit_unique {prefs : List String} {ops : List (Op U)} {r : Reg U}
    (h : build lower info prefs ops = .ok r) {n : String} {u : U}
    (ha : ∀ a ∈ r.ambiguous, ¬ goesBy lower n a) (hu : u ∈ registered ops)
    (hn : named lower info n u) (hv : ∀ v ∈ registered ops, named lower info n v → v = u) :
    getUnit lower r n = .ok (some (.unit u)) := by
  rcases Props.C60_lookup h n ha with ⟨w, h1, h2⟩ | ⟨w, _, h2, _⟩ | ⟨_, h2⟩
  · obtain ⟨pre, post, e, hw, _⟩ := h2
    rw [h1, hv w (by rw [e]; simp) hw]
  · exact absurd hn (h2 u hu)
  · exact absurd hn (h2 u hu).1

theorem addSystems_of {u : U} : ∀ {ss : List String} {ms : List (String × U)},
    (ms.map (·.1) ++ ss).Nodup → addSystems u ss ms = .ok (ms ++ ss.map (·, u))
  | [], ms, _ => by simp [addSystems]
  | s :: ss, ms, h => by
    have hs : s ∉ ms.map (·.1) := by
      intro hm
      exact (List.nodup_append.1 h).2.2 s hm s List.mem_cons_self rfl
    have hl : (ms.lookup s).isSome = false := by
      cases hl : ms.lookup s with
      | none => rfl
      | some v =>
        obtain ⟨l₁, l₂, e, _⟩ := List.lookup_eq_some_iff.1 hl
        exact absurd (by rw [e]; simp) hs
    unfold addSystems
    simp only [hl, Bool.false_eq_true, if_false]
    rw [addSystems_of (by simpa using h)]
    simp

theorem addMembers_of {r : Reg U} : ∀ {ns : List String} {us : List U} {ms : List (String × U)},
    List.Forall₂ (fun n u => getUnit lower r n = .ok (some (.unit u))) ns us →
    (ms.map (·.1) ++ us.flatMap (fun u => (info u).systems)).Nodup →
    addMembers lower info r ns ms
      = .ok (ms ++ us.flatMap (fun u => (info u).systems.map (·, u)))
  | [], _, ms, h, _ => by cases h; simp [addMembers]
  | n :: ns, _, ms, h, hd => by
    cases h with
    | @cons _ u _ us h1 h2 =>
      unfold addMembers
      rw [h1]
      simp only [bind, Except.bind]
      rw [List.flatMap_cons, ← List.append_assoc] at hd
      rw [addSystems_of (List.nodup_append.1 hd).1]
      simp only
      rw [addMembers_of h2 (by simpa [Function.comp_def] using hd)]
      simp

theorem build_snoc {prefs : List String} {ops : List (Op U)} {o : Op U} :
    build lower info prefs (ops ++ [o])
      = (build lower info prefs ops).bind (fun r => applyOp lower info r o) := by
  unfold build
  rw [List.foldlM_append]
  simp only [List.foldlM_cons, List.foldlM_nil, bind_pure]
  rfl

theorem Fine.build {prefs : List String} {ops : List (Op U)} {ambs : List (Amb U)}
    (h : Fine lower info ops ambs) :
    ∃ r, build lower info prefs ops = .ok r ∧ r.ambiguous = ambs ∧
      ∀ d, Op.dim d ∈ ops → d ∈ r.dims := by
  induction h with
  | nil => exact ⟨_, rfl, rfl, by simp⟩
  | @dim ops ambs d h ih =>
    obtain ⟨r, h1, h2, h3⟩ := ih
    refine ⟨{ r with dims := d :: r.dims }, ?_, h2, ?_⟩
    · rw [build_snoc, h1]; rfl
    · intro d' hd
      rcases List.mem_append.1 hd with hd | hd
      · exact List.mem_cons_of_mem _ (h3 _ hd)
      · simp only [List.mem_singleton, Op.dim.injEq] at hd
        subst hd
        exact List.mem_cons_self
  | @unit ops ambs d u h hd ih =>
    obtain ⟨r, h1, h2, h3⟩ := ih
    have hc : r.dims.contains d = true := List.contains_iff_mem.2 (h3 d hd)
    refine ⟨enter lower (info u).names (info u).symbols (.unit u) r, ?_, h2, ?_⟩
    · rw [build_snoc, h1]
      change addUnit lower info d u r = _
      unfold addUnit
      rw [hc]
      rfl
    · intro d' hd'
      rcases List.mem_append.1 hd' with hd' | hd'
      · exact h3 _ hd'
      · simp at hd'
  | @amb ops ambs names symbols units members h hm hd ih =>
    obtain ⟨r, h1, h2, h3⟩ := ih
    have hg : List.Forall₂ (fun n u => getUnit lower r n = .ok (some (.unit u))) units members := by
      refine hm.imp ?_
      rintro n u ⟨a, b, c, d⟩
      exact getUnit_unique h1 (by rw [h2]; exact d) a b c
    have hms := addMembers_of (ms := []) hg (by simpa using hd)
    refine ⟨enter lower names symbols (.amb (ambOf info names symbols members))
      { r with ambiguous := r.ambiguous ++ [ambOf info names symbols members] }, ?_, ?_, ?_⟩
    · rw [build_snoc, h1]
      change addAmbiguous lower info names symbols units r = _
      unfold addAmbiguous
      rw [hms]
      rfl
    · change r.ambiguous ++ _ = _
      rw [h2]
    · intro d' hd'
      rcases List.mem_append.1 hd' with hd' | hd'
      · exact h3 _ hd'
      · simp at hd'

end MC.Unit.Registry

namespace MC.Unit.Registry
open Spec
variable {U : Type} {lower : String → String} {info : U → Def}

theorem Fine.ambs_mem {ops : List (Op U)} {ambs : List (Amb U)} (h : Fine lower info ops ambs) :
    ∀ a ∈ ambs, ∃ us, Op.amb a.names a.symbols us ∈ ops := by
  induction h with
  | nil => simp
  | @dim ops ambs d h ih =>
    intro a ha
    obtain ⟨us, h1⟩ := ih a ha
    exact ⟨us, List.mem_append_left _ h1⟩
  | @unit ops ambs d u h hd ih =>
    intro a ha
    obtain ⟨us, h1⟩ := ih a ha
    exact ⟨us, List.mem_append_left _ h1⟩
  | @amb ops ambs names symbols units members h hm hd ih =>
    intro a ha
    rcases List.mem_append.1 ha with ha | ha
    · obtain ⟨us, h1⟩ := ih a ha
      exact ⟨us, List.mem_append_left _ h1⟩
    · simp only [List.mem_singleton] at ha
      subst ha
      exact ⟨units, List.mem_append_right _ (by simp [ambOf])⟩

end MC.Unit.Registry
