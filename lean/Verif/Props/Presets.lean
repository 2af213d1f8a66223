import Verif.Model.Presets
import Verif.Props.Install

/-! # C90: presets -/

namespace MC.Props
open MC MC.Install MC.Spec

theorem preset_known {preset : String} {names : List String} (h : presets.lookup preset = some names) :
    ∀ n ∈ names, shipped n ≠ none := by
  have key : ∀ e ∈ presets, ∀ n ∈ e.2, (shipped n).isSome := by decide +kernel
  have hm : (preset, names) ∈ presets := by
    generalize presets = l at h ⊢
    induction l with
    | nil => simp at h
    | cons e l ih =>
      obtain ⟨k, d⟩ := e
      rw [List.lookup_cons] at h
      split at h
      · next hb =>
        rw [beq_iff_eq] at hb
        rw [← Option.some.inj h, hb]
        simp
      · exact List.mem_cons_of_mem _ (ih h)
  intro n hn h0
  have := key _ hm n hn
  simp [h0] at this

/-- **C90**: every listed preset can be loaded, whatever was installed before; afterwards the installed features
are those installed before, those of the preset and what they need. -/
theorem C90_loads {preset : String} (hp : preset ∈ listPresets) {st : Install.St} (h : Reached shipped st) :
    ∃ fuel st' names, (preset, names) ∈ presets ∧ loadPreset shipped fuel preset st = some (.ok (), st') ∧
      Reached shipped st' ∧ ∀ n, n ∈ st'.installed ↔ n ∈ st.installed ∨ Needed shipped names n := by
  have hl : ∃ names, presets.lookup preset = some names ∧ (preset, names) ∈ presets := by
    simp only [listPresets, presets, List.map_cons, List.map_nil, List.mem_cons, List.not_mem_nil, or_false] at hp
    rcases hp with rfl | rfl | rfl | rfl
    · exact ⟨basic, rfl, by simp [presets]⟩
    · exact ⟨advanced, rfl, by simp [presets]⟩
    · exact ⟨scientific, rfl, by simp [presets]⟩
    · exact ⟨computing, rfl, by simp [presets]⟩
  obtain ⟨names, hn, hm⟩ := hl
  obtain ⟨st', ⟨fuel, h1⟩, h2, h3⟩ := C40_installs C40_shipped_acyclic C40_shipped_closed h (preset_known hn)
  exact ⟨fuel, st', names, hm, by unfold loadPreset; rw [hn]; exact h1, h2, h3⟩

theorem needed_mono {T : Table} {a b : List String} (h : ∀ n ∈ a, n ∈ b) {n : String} (hn : Needed T a n) :
    Needed T b n := by
  induction hn with
  | named h' => exact .named (h _ h')
  | dep _ hf hm ih => exact .dep ih hf hm
  | sub _ hf hs hm ih => exact .sub ih hf hs hm

/-- **C90**: each preset offers everything the presets listed before it offer. -/
theorem C90_grows : presets.Pairwise (fun a b => ∀ n, Needed shipped a.2 n → Needed shipped b.2 n) := by
  have key : presets.Pairwise (fun a b => ∀ n ∈ a.2, n ∈ b.2) := by decide +kernel
  exact key.imp (fun h n hn => needed_mono h hn)

/-- **C90**: the largest preset needs every shipped feature. -/
theorem C90_everything (n : String) : Needed shipped computing n ↔ shipped n ≠ none := by
  constructor
  · intro h
    induction h with
    | named h' => exact preset_known (preset := "Computing") rfl _ h'
    | dep _ hf hm _ => exact C40_shipped_closed.dep _ _ hf _ hm
    | sub _ hf hs hm _ => exact C40_shipped_closed.sub _ _ _ hf hs _ hm
  · intro h
    obtain ⟨f, hf⟩ := Option.ne_none_iff_exists'.1 h
    have key : ∀ e ∈ shippedList, e.1 ∈ computing ∨ ∃ g ∈ computing,
        (shipped g).any (fun f => decide (e.1 ∈ f.deps ∨ e.1 ∈ f.subs.getD [])) = true := by decide +kernel
    rcases key _ (shipped_mem hf) with h | ⟨g, hg, h⟩
    · exact .named h
    · obtain ⟨f', hs, h⟩ := Option.any_eq_true _ _ |>.1 h
      rcases of_decide_eq_true h with h | h
      · exact .dep (.named hg) hs h
      · cases hsub : f'.subs with
        | none => simp [hsub] at h
        | some subs =>
          rw [hsub] at h
          exact .sub (.named hg) hs hsub h

/-- **C90**: a new calculator with the largest preset has every shipped feature and no other. -/
theorem C90_computing : ∃ fuel st, construct shipped fuel (some "Computing") = some (.ok (), st) ∧
    ∀ n, n ∈ st.installed ↔ shipped n ≠ none := by
  obtain ⟨fuel, st, names, hm, h1, -, h2⟩ := C90_loads (preset := "Computing") (by simp [listPresets, presets]) .fresh
  have : names = computing := by
    simp only [presets, List.mem_cons, Prod.mk.injEq, List.not_mem_nil, or_false] at hm
    rcases hm with ⟨h, -⟩ | ⟨h, -⟩ | ⟨h, -⟩ | ⟨-, h⟩
    · simp at h
    · simp at h
    · simp at h
    · exact h
  subst this
  refine ⟨fuel, st, h1, fun n => ?_⟩
  rw [h2, ← C90_everything]
  simp [fresh]

/-- **C90**: an unknown preset is refused and changes nothing. -/
theorem C90_unknown {preset : String} (hp : preset ∉ listPresets) (T : Table) (fuel : ℕ) (st : Install.St) :
    loadPreset T fuel preset st = some (.error (.py "KeyError"), st) := by
  have : presets.lookup preset = none := by
    simp only [listPresets, presets, List.map_cons, List.map_nil, List.mem_cons, List.not_mem_nil, or_false, not_or] at hp
    have hne : ∀ x, ¬ preset = x → (preset == x) = false := fun x h => by simpa using h
    simp [presets, List.lookup, hne _ hp.1, hne _ hp.2.1, hne _ hp.2.2.1, hne _ hp.2.2.2]
  unfold loadPreset
  rw [this]

/-- The smallest preset and an unknown one. -/
example : "Basic" ∈ listPresets ∧ "basic" ∉ listPresets := by decide

example : ∃ fuel st, loadPreset shipped fuel "Basic" fresh = some (.ok (), st) ∧ "structure.operators" ∈ st.installed := by
  exact ⟨3, _, rfl, by decide⟩

end MC.Props
