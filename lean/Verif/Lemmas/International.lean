import Verif.Lemmas.ShippedNorm

/-! # From the check of the table to the meaning of the texts -/

namespace MC.Unit.Table
open MC.Spec.International

attribute [local irreducible] units worths lines

/-- What a unit is worth in the calculator. -/
def worthOf (u : Made) (w : Worth) : Prop :=
  w.value = u.step ∧ quantities.map u.power = w.powers.map (fun z : ℤ => (z : ℚ))

theorem lowerText_append (a b : Parse.Text) : lowerText (a ++ b) = lowerText a ++ lowerText b := by
  unfold lowerText
  exact List.map_append

theorem fits_means {u : Made} {d : Definition × Worth} (hd : d ∈ worths) (h : fits u d = true) :
    worthOf u ⟨u.step, d.2.powers⟩ ∧
    (∀ m ∈ u.names, ∀ text, lowerText text = lowerText m → Means text ⟨u.step, d.2.powers⟩) ∧
    (u.pre.bind (·.name) ≠ some "kibi" → ∀ s ∈ u.symbols, Means s ⟨u.step, d.2.powers⟩) := by
  unfold fits at h
  simp only [Bool.and_eq_true, decide_eq_true_eq, List.all_eq_true, List.contains_iff_mem] at h
  obtain ⟨⟨⟨hn, hs⟩, hp⟩, hq⟩ := h
  refine ⟨⟨rfl, hq⟩, ?_⟩
  cases hpre : u.pre.bind (·.name) with
  | none =>
    simp only [hpre, Bool.and_eq_true, decide_eq_true_eq] at hp
    have hw : (⟨u.step, d.2.powers⟩ : Worth) = d.2 := by rw [hp.1]
    rw [hw]
    refine ⟨?_, ?_⟩
    · intro m hm text ht
      unfold Made.names at hm
      simp only [hpre] at hm
      obtain ⟨n, hn', rfl⟩ := List.mem_map.1 hm
      obtain ⟨k, hk, e⟩ := List.mem_map.1 (hn n hn')
      refine ⟨d, hd, .inl ⟨.inl ⟨k, hk, ?_⟩, rfl⟩⟩
      rw [e, ← ht]
      rfl
    · intro _ s hm
      have hsym : u.symbols = u.cls.symbols.map String.toList := by
        unfold Made.symbols
        cases hu : u.pre with
        | none => rfl
        | some p =>
          rw [hu] at hp hpre
          simp only [Option.bind_some] at hp hpre
          simp [hp.2, hpre]
      rw [hsym] at hm
      obtain ⟨n, hn', rfl⟩ := List.mem_map.1 hm
      exact ⟨d, hd, .inl ⟨.inr ⟨n, hs n hn', rfl⟩, rfl⟩⟩
  | some pn =>
    simp only [hpre, List.any_eq_true, Bool.and_eq_true, Bool.or_eq_true, decide_eq_true_eq] at hp
    obtain ⟨q, hq', ⟨⟨rfl, hsy⟩, hlow⟩, hstep⟩ := hp
    have hw : (⟨u.step, d.2.powers⟩ : Worth) = { d.2 with value := q.factor * d.2.value } := by
      rw [hstep]
    rw [hw]
    refine ⟨?_, ?_⟩
    · intro m hm text ht
      unfold Made.names at hm
      simp only [hpre] at hm
      obtain ⟨n, hn', rfl⟩ := List.mem_map.1 hm
      obtain ⟨k, hk, e⟩ := List.mem_map.1 (hn n hn')
      refine ⟨d, hd, .inr ⟨q, hq', .inl ⟨k, hk, ?_⟩, rfl⟩⟩
      rw [e, ← hlow, ← lowerText_append, ← ht]
      rfl
    · intro hk s hm
      have hk' : q.name ≠ "kibi" := by simpa using hk
      have hsy' : some q.symbol = u.pre.bind (·.symbol) := by
        rcases hsy with h | h
        · exact absurd h hk'
        · exact h
      have hsym : u.symbols = u.cls.symbols.map (fun n => q.symbol.toList ++ n.toList) := by
        unfold Made.symbols
        cases hu : u.pre with
        | none => rw [hu] at hsy'; simp at hsy'
        | some p =>
          rw [hu] at hsy'
          simp only [Option.bind_some] at hsy'
          simp [← hsy']
      rw [hsym] at hm
      obtain ⟨n, hn', rfl⟩ := List.mem_map.1 hm
      exact ⟨d, hd, .inr ⟨q, hq', .inr ⟨n, hs n hn', rfl⟩, rfl⟩⟩

theorem unit_means {u : Made} (hu : u ∈ units) (ho : u.cls ∉ odd) :
    ∃ w, worthOf u w ∧
    (∀ m ∈ u.names, ∀ text, lowerText text = lowerText m → Means text w) ∧
    (u.pre.bind (·.name) ≠ some "kibi" → ∀ s ∈ u.symbols, Means s w) := by
  rcases all_fit u hu with h | h
  · exact absurd h ho
  · obtain ⟨d, hd, hf⟩ := List.any_eq_true.1 h
    exact ⟨_, fits_means hd hf⟩

end MC.Unit.Table
