import Verif.Lemmas.Registry

/-! # C60: unit lookup is unambiguous -/

namespace MC.Props
open MC.Unit.Registry MC.Unit.Registry.Spec

variable {U : Type} {lower : String → String} {info : U → Def}

/-- C60, lookup: whatever was registered, a name that no ambiguous unit goes by resolves to the
last registered unit with that name (irrespective of case); when there is none, to the last
registered unit with that symbol; and when there is none, to nothing. -/
theorem C60_lookup {prefs : List String} {ops : List (Op U)} {r : Reg U}
    (h : build lower info prefs ops = .ok r) (n : String)
    (ha : ∀ a ∈ r.ambiguous, ¬ goesBy lower n a) :
    (∃ u, getUnit lower r n = .ok (some (.unit u)) ∧
      Last (registered ops) (named lower info n) u) ∨
    (∃ u, getUnit lower r n = .ok (some (.unit u)) ∧
      (∀ v ∈ registered ops, ¬ named lower info n v) ∧
      Last (registered ops) (symboled info n) u) ∨
    (getUnit lower r n = .ok none ∧
      ∀ v ∈ registered ops, ¬ named lower info n v ∧ ¬ symboled info n v) := by
  obtain ⟨hi, _⟩ := inv_build h
  have no : ¬ ∃ a ∈ r.ambiguous, goesBy lower n a := fun ⟨a, h1, h2⟩ => ha a h1 h2
  unfold getUnit
  rw [find_goesBy.2 ha]
  simp only
  cases hn : r.names.lookup (lower n) with
  | some e =>
    cases e with
    | unit u => exact .inl ⟨u, rfl, (hi.name_unit n u hn).resolve_right no⟩
    | amb a => exact absurd (hi.name_amb n a hn) no
  | none =>
    right
    have h1 := hi.name_none n hn
    cases hs : r.symbols.lookup n with
    | some e =>
      cases e with
      | unit u => exact .inl ⟨u, rfl, h1, (hi.sym_unit n u hs).resolve_right no⟩
      | amb a => exact absurd (hi.sym_amb n a hs) no
    | none => exact .inr ⟨rfl, fun v hv => ⟨h1 v hv, hi.sym_none n hs v hv⟩⟩

/-- C60, ambiguous units: a name that an ambiguous unit goes by resolves to the member of the
first such ambiguous unit for the first preferred system it has a member for. -/
theorem C60_ambiguous {prefs : List String} {ops : List (Op U)} {r : Reg U}
    (h : build lower info prefs ops = .ok r) {n : String} {pre post : List (Amb U)} {a : Amb U}
    (hr : r.ambiguous = pre ++ a :: post) (hpre : ∀ b ∈ pre, ¬ goesBy lower n b)
    (ha : goesBy lower n a) {before after : List String} {s : String}
    (hp : prefs = before ++ s :: after) (hb : ∀ x ∈ before, x ∉ a.members.map (·.1))
    (hs : s ∈ a.members.map (·.1)) :
    ∃ u, (s, u) ∈ a.members ∧ getUnit lower r n = .ok (some (.unit u)) := by
  obtain ⟨_, hpr⟩ := inv_build h
  have hf : r.ambiguous.find? (fun a => isUnit lower a.names a.symbols n) = some a := by
    rw [hr, List.find?_append]
    have : pre.find? (fun a => isUnit lower a.names a.symbols n) = none := by
      rw [List.find?_eq_none]
      intro b hb hg
      exact hpre b hb ((isUnit_iff b n).1 hg)
    rw [this, List.find?_cons]
    rw [(isUnit_iff a n).2 ha]
    rfl
  have hsys : preferredSystem r.prefs (a.members.map (·.1)) = some s := by
    unfold preferredSystem
    rw [hpr, hp, List.find?_append]
    have : before.find? (fun s => (a.members.map (·.1)).contains s) = none := by
      rw [List.find?_eq_none]
      intro x hx hc
      exact hb x hx (List.contains_iff_mem.1 hc)
    rw [this, List.find?_cons, List.contains_iff_mem.2 hs]
    rfl
  have hl := lookup_isSome_of_mem hs
  cases hu : a.members.lookup s with
  | none => rw [hu] at hl; simp at hl
  | some u =>
    refine ⟨u, ?_, ?_⟩
    · obtain ⟨l₁, l₂, e, _⟩ := List.lookup_eq_some_iff.1 hu
      rw [e]; simp
    · unfold getUnit preferredUnit
      rw [hf]
      simp only
      rw [hsys]
      simp only [hu]
      rfl

/-- C60, case: two spellings of a name that differ in case only, neither of which is a symbol of
an ambiguous unit, resolve to the same unit if some unit has the name. -/
theorem C60_case_insensitive {prefs : List String} {ops : List (Op U)} {r : Reg U}
    (h : build lower info prefs ops = .ok r) {n m : String} (hnm : lower n = lower m)
    (ha : ∀ a ∈ r.ambiguous, n ∉ a.symbols ∧ m ∉ a.symbols)
    (hu : (∃ u ∈ registered ops, named lower info n u) ∨
      ∃ a ∈ r.ambiguous, goesBy lower n a) :
    getUnit lower r n = getUnit lower r m := by
  obtain ⟨hi, _⟩ := inv_build h
  have hfind : r.ambiguous.find? (fun a => isUnit lower a.names a.symbols n)
      = r.ambiguous.find? (fun a => isUnit lower a.names a.symbols m) := by
    have hp : ∀ a ∈ r.ambiguous, isUnit lower a.names a.symbols n
        = isUnit lower a.names a.symbols m := by
      intro a hm
      unfold isUnit
      have h1 : a.symbols.contains n = false := by
        simpa [List.contains_iff_mem] using (ha a hm).1
      have h2 : a.symbols.contains m = false := by
        simpa [List.contains_iff_mem] using (ha a hm).2
      rw [h1, h2, hnm]
    generalize r.ambiguous = l at hp
    induction l with
    | nil => rfl
    | cons a l ih =>
      rw [List.find?_cons, List.find?_cons, hp a List.mem_cons_self,
        ih (fun b hb => hp b (List.mem_cons_of_mem _ hb))]
  unfold getUnit
  rw [← hfind]
  cases hf : r.ambiguous.find? (fun a => isUnit lower a.names a.symbols n) with
  | some a => rfl
  | none =>
    simp only
    rw [find_goesBy] at hf
    rcases hu with ⟨u, h1, h2⟩ | ⟨a, h1, h2⟩
    · rw [← hnm]
      cases hn : r.names.lookup (lower n) with
      | some e => rfl
      | none => exact absurd h2 (hi.name_none n hn u h1)
    · exact absurd h2 (hf a h1)

/-- C60, ambiguous units: registering an ambiguous unit two of whose members are in the same
system is rejected, in every registry. -/
theorem C60_second_member_rejected {r : Reg U} {n m s : String} {u v : U}
    (hn : getUnit lower r n = .ok (some (.unit u)))
    (hm : getUnit lower r m = .ok (some (.unit v))) (hu : s ∈ (info u).systems)
    (hv : s ∈ (info v).systems) (names symbols pre mid post : List String) :
    ∃ e, addAmbiguous lower info names symbols (pre ++ n :: mid ++ m :: post) r = .error e := by
  obtain ⟨e, he⟩ := addMembers_twice (pre := pre) (mid := mid) (post := post) (ms := []) hn hm hu hv
  refine ⟨e, ?_⟩
  unfold addAmbiguous
  rw [he]
  rfl

/-- C60 as stated is false: a second unit with the same name and system as the first is accepted,
and the first cannot be found any more. -/
theorem C60_duplicate_violation :
    ∃ (info : Bool → Def) (r : Reg Bool),
      build id info ["si"] [.dim "mass", .unit "mass" false, .unit "mass" true] = .ok r ∧
      "ton" ∈ (info false).names ∧ "ton" ∈ (info true).names ∧
      (info false).systems = (info true).systems ∧
      getUnit id r "ton" = .ok (some (.unit true)) :=
  ⟨fun _ => ⟨["ton"], ["t"], ["si"]⟩, _, rfl, by simp, by simp, rfl, rfl⟩

section Example

/-- Two tons, for the example: `false` is the short and `true` the long ton. -/
private def tonInfo : Bool → Def
  | false => ⟨["short tons", "short ton"], [], ["us"]⟩
  | true => ⟨["long tons", "long ton"], [], ["uk"]⟩

private def tonOps : List (Op Bool) :=
  [.dim "mass", .unit "mass" false, .unit "mass" true,
    .amb ["tons", "ton"] ["t"] ["short ton", "long ton"]]

example : ∃ r, build id tonInfo ["si", "us", "uk"] tonOps = .ok r ∧
    getUnit id r "ton" = .ok (some (.unit false)) ∧
    getUnit id r "t" = .ok (some (.unit false)) ∧
    getUnit id r "long ton" = .ok (some (.unit true)) ∧
    getUnit id r "pound" = .ok none ∧ (∀ a ∈ r.ambiguous, ¬ goesBy id "long ton" a) :=
  ⟨_, rfl, rfl, rfl, rfl, rfl, by
    intro a ha
    rw [List.mem_singleton.1 ha]
    simp [goesBy]⟩

/-- Registering an ambiguous unit with two members for one system is rejected. -/
example : ∃ e, build id tonInfo ["us"]
    [.dim "mass", .unit "mass" false, .amb ["tons"] [] ["short ton", "short tons"]] = .error e :=
  ⟨_, rfl⟩

end Example
end MC.Props
