import Verif.Lemmas.UnitTable

/-! # C68: every shipped unit can be found by each of its names and symbols -/

namespace MC.Props
open MC.Parse (Text)
open MC.Unit MC.Unit.Table MC.Unit.Registry MC.Unit.Registry.Spec

attribute [local irreducible] ops shippedAmbs

theorem units_eq : units = registered ops := by
  unfold units registered
  congr 1
  funext o
  cases o <;> rfl

theorem mem_units {u : Made} : u ∈ units ↔ u ∈ registered ops := by rw [units_eq]

attribute [local irreducible] units

theorem op_of_unit {u : Made} (h : u ∈ units) : ∃ d, Op.unit d u ∈ ops := by
  rw [units_eq] at h
  obtain ⟨o, ho, e⟩ := List.mem_filterMap.1 h
  cases o with
  | unit d v => simp only [Option.some.injEq] at e; subst e; exact ⟨d, ho⟩
  | dim d => simp at e
  | amb a b c => simp at e

/-- C68: all shipped units are accepted, whichever systems are preferred. -/
theorem C68_accepted (prefs : List String) :
    ∃ r, build lower info prefs ops = .ok r ∧ r.ambiguous = shippedAmbs := by
  obtain ⟨r, h1, h2, _⟩ := fine_shipped.build (prefs := prefs)
  exact ⟨r, h1, h2⟩

theorem shipped_ambiguous {prefs : List String} {r : Reg Made}
    (h : build lower info prefs ops = .ok r) : r.ambiguous = shippedAmbs := by
  obtain ⟨r', h1, h2⟩ := C68_accepted prefs
  rw [h] at h1
  cases h1
  exact h2

theorem not_ambiguous {u : Made} (hu : u ∈ units) {n : String}
    (hn : (∃ m ∈ u.names, lowerText m = lowerText n.toList) ∨ n.toList ∈ u.symbols) :
    ∀ a ∈ shippedAmbs, ¬ goesBy lower n a := by
  intro a ha hg
  obtain ⟨us, ho⟩ := fine_shipped.ambs_mem a ha
  obtain ⟨d, hd⟩ := op_of_unit hu
  have : Op.unit d u = Op.amb a.names a.symbols us := by
    rcases hn with ⟨m, hm, e⟩ | hs
    · rcases hg with ⟨k, hk, e'⟩ | hk
      · exact ops_distinct hd ho (.inl ⟨m, hm, k.toList, List.mem_map.2 ⟨k, hk, rfl⟩, by
          rw [e, (lower_eq_iff.1 e')]⟩)
      · exact (ops_distinct ho hd (.inr (.inr ⟨n.toList, List.mem_map.2 ⟨n, hk, rfl⟩, m, hm, e.symm⟩))).symm
    · rcases hg with ⟨k, hk, e'⟩ | hk
      · exact ops_distinct hd ho (.inr (.inr ⟨n.toList, hs, k.toList, List.mem_map.2 ⟨k, hk, rfl⟩,
          (lower_eq_iff.1 e').symm⟩))
      · exact ops_distinct hd ho (.inr (.inl ⟨n.toList, hs, List.mem_map.2 ⟨n, hk, rfl⟩⟩))
  cases this

theorem unit_unique {u v : Made} (hu : u ∈ units) (hv : v ∈ units)
    (h : (∃ n ∈ u.names, ∃ m ∈ v.names, lowerText n = lowerText m) ∨
      (∃ n ∈ u.symbols, n ∈ v.symbols) ∨
      ∃ n ∈ u.symbols, ∃ m ∈ v.names, lowerText n = lowerText m) : u = v := by
  obtain ⟨d, hd⟩ := op_of_unit hu
  obtain ⟨d', hd'⟩ := op_of_unit hv
  have := ops_distinct hd hd' h
  cases this
  rfl

theorem named_iff {n : String} {u : Made} :
    named lower info n u ↔ ∃ m ∈ u.names, lowerText m = lowerText n.toList := by
  rw [← hasName_iff]
  simp [Made.hasName]

/-- **C68**, names: every name of every shipped unit, in any letter case, finds that unit,
whichever systems are preferred. -/
theorem C68_names {prefs : List String} {r : Reg Made} (h : build lower info prefs ops = .ok r)
    {u : Made} (hu : u ∈ units) {n : String}
    (hn : ∃ m ∈ u.names, lowerText m = lowerText n.toList) :
    getUnit lower r n = .ok (some (.unit u)) := by
  refine getUnit_unique h ?_ (mem_units.1 hu) (named_iff.2 hn) ?_
  · rw [shipped_ambiguous h]
    exact not_ambiguous hu (.inl hn)
  · intro v hv hnv
    obtain ⟨m, hm, e⟩ := hn
    obtain ⟨k, hk, e'⟩ := named_iff.1 hnv
    exact unit_unique (mem_units.2 hv) hu (.inl ⟨k, hk, m, hm, by rw [e, e']⟩)

/-- **C68**, symbols: every symbol of every shipped unit finds that unit, whichever systems are
preferred. -/
theorem C68_symbols {prefs : List String} {r : Reg Made} (h : build lower info prefs ops = .ok r)
    {u : Made} (hu : u ∈ units) {n : String} (hn : n.toList ∈ u.symbols) :
    getUnit lower r n = .ok (some (.unit u)) := by
  have hs : n ∈ (info u).symbols := by
    unfold info
    exact List.mem_map.2 ⟨n.toList, hn, by simp⟩
  rcases C60_lookup h n (by rw [shipped_ambiguous h]; exact not_ambiguous hu (.inr hn)) with
    ⟨w, h1, h2⟩ | ⟨w, h1, _, h2⟩ | ⟨_, h2⟩
  · obtain ⟨pre, post, e, hw, _⟩ := h2
    have hw' : w ∈ units := by rw [mem_units, e]; simp
    obtain ⟨m, hm, e'⟩ := named_iff.1 hw
    rw [h1, unit_unique hu hw' (.inr (.inr ⟨n.toList, hn, m, hm, e'.symm⟩))]
  · obtain ⟨pre, post, e, hw, _⟩ := h2
    have hw' : w ∈ units := by rw [mem_units, e]; simp
    obtain ⟨m, hm, e'⟩ := List.mem_map.1 hw
    have : n.toList ∈ w.symbols := by rw [← e']; simpa using hm
    rw [h1, unit_unique hu hw' (.inr (.inl ⟨n.toList, hn, this⟩))]
  · exact absurd hs (h2 u (mem_units.1 hu)).2

/-- The names that stand for different units in the US and in the UK: names, symbols, the unit in
the US, the unit in the UK. -/
def twoMeanings : List (List String × List String × String × String) :=
  [(["tons", "ton"], [], "short ton", "long ton"),
   (["fluid ounces", "fluid ounce"], ["floz", "fl.oz"], "US fluid ounce", "UK fluid ounce"),
   (["pints", "pint"], ["pt"], "US pint", "UK pint"),
   (["quarts", "quart"], [], "US quart", "UK quart"),
   (["gallons", "gallon"], ["gal"], "US gallon", "UK gallon")]

set_option maxRecDepth 100000 in
theorem shippedAmbs_eq : shippedAmbs.map (fun a => (a.names, a.symbols)) =
    twoMeanings.map (fun m => (m.1, m.2.1)) := by decide +kernel

/-- Has the ambiguous unit these two members? -/
def hasTwo (m : List String × List String × String × String) (a : Amb Made) : Bool :=
  match a.members with
  | [(s, u), (t, v)] => s == "us" && t == "uk" && u.hasName m.2.2.1 && v.hasName m.2.2.2 &&
      units.contains u && units.contains v
  | _ => false

set_option maxRecDepth 100000 in
theorem shippedAmbs_members : ∀ m ∈ twoMeanings, ∀ a ∈ shippedAmbs, a.names = m.1 → a.symbols = m.2.1 →
    hasTwo m a = true := by decide +kernel

theorem hasTwo_spec {m : List String × List String × String × String} {a : Amb Made}
    (h : hasTwo m a = true) : ∃ u v, a.members = [("us", u), ("uk", v)] ∧ u ∈ units ∧ v ∈ units ∧
      named lower info m.2.2.1 u ∧ named lower info m.2.2.2 v := by
  unfold hasTwo at h
  split at h
  · rename_i s u t v e
    simp only [Bool.and_eq_true, beq_iff_eq, List.contains_iff_mem] at h
    obtain ⟨⟨⟨⟨⟨h1, h2⟩, h3⟩, h4⟩, h5⟩, h6⟩ := h
    subst h1 h2
    exact ⟨u, v, e, h5, h6, hasName_iff.1 h3, hasName_iff.1 h4⟩
  · simp at h

theorem names_nodup : (twoMeanings.map (fun m => (m.1, m.2.1))).Nodup := by decide +kernel

/-- **C68**, names with two meanings: a name that stands for different units in the US and in the UK
finds the one of the system that is preferred. -/
theorem C68_two_meanings {prefs : List String} {r : Reg Made} (h : build lower info prefs ops = .ok r)
    {m : List String × List String × String × String} (hm : m ∈ twoMeanings) {n : String}
    (hn : (∃ k ∈ m.1, lower k = lower n) ∨ n ∈ m.2.1) :
    ∃ u v, u ∈ units ∧ v ∈ units ∧ named lower info m.2.2.1 u ∧ named lower info m.2.2.2 v ∧
      (∀ before after, prefs = before ++ "us" :: after → "us" ∉ before → "uk" ∉ before →
        getUnit lower r n = .ok (some (.unit u))) ∧
      (∀ before after, prefs = before ++ "uk" :: after → "us" ∉ before → "uk" ∉ before →
        getUnit lower r n = .ok (some (.unit v))) := by
  have hmem : (m.1, m.2.1) ∈ shippedAmbs.map (fun a => (a.names, a.symbols)) := by
    rw [shippedAmbs_eq]
    exact List.mem_map.2 ⟨m, hm, rfl⟩
  obtain ⟨a, ha, e⟩ := List.mem_map.1 hmem
  simp only [Prod.mk.injEq] at e
  obtain ⟨e1, e2⟩ := e
  obtain ⟨u, v, h1, h2, h3, h4, h5⟩ := hasTwo_spec (shippedAmbs_members m hm a ha e1 e2)
  have hg : goesBy lower n a := by
    unfold goesBy
    rw [e1, e2]
    exact hn
  obtain ⟨pre, post, hp⟩ := List.append_of_mem ha
  have hpre : ∀ b ∈ pre, ¬ goesBy lower n b := by
    intro b hb hgb
    have hb' : b ∈ shippedAmbs := by rw [hp]; exact List.mem_append_left _ hb
    obtain ⟨ua, oa⟩ := fine_shipped.ambs_mem a ha
    obtain ⟨ub, ob⟩ := fine_shipped.ambs_mem b hb'
    have heq : (Op.amb (U := Made)) a.names a.symbols ua =
        Op.amb (U := Made) b.names b.symbols ub := by
      rcases hg with ⟨k, hk, ek⟩ | hk
      · rcases hgb with ⟨l, hl, el⟩ | hl
        · exact ops_distinct oa ob (.inl ⟨k.toList, List.mem_map.2 ⟨k, hk, rfl⟩, l.toList,
            List.mem_map.2 ⟨l, hl, rfl⟩, by rw [lower_eq_iff.1 ek, lower_eq_iff.1 el]⟩)
        · exact (ops_distinct ob oa (.inr (.inr ⟨n.toList, List.mem_map.2 ⟨n, hl, rfl⟩, k.toList,
            List.mem_map.2 ⟨k, hk, rfl⟩, (lower_eq_iff.1 ek).symm⟩))).symm
      · rcases hgb with ⟨l, hl, el⟩ | hl
        · exact ops_distinct oa ob (.inr (.inr ⟨n.toList, List.mem_map.2 ⟨n, hk, rfl⟩, l.toList,
            List.mem_map.2 ⟨l, hl, rfl⟩, (lower_eq_iff.1 el).symm⟩))
        · exact ops_distinct oa ob (.inr (.inl ⟨n.toList, List.mem_map.2 ⟨n, hk, rfl⟩,
            List.mem_map.2 ⟨n, hl, rfl⟩⟩))
    have hnd := names_nodup
    rw [← shippedAmbs_eq, hp, List.map_append, List.map_cons, List.nodup_append] at hnd
    refine hnd.2.2 _ (List.mem_map.2 ⟨b, hb, rfl⟩) _ List.mem_cons_self ?_
    simp only [Op.amb.injEq] at heq
    rw [heq.1, heq.2.1]
  refine ⟨u, v, h2, h3, h4, h5, ?_, ?_⟩
  · intro before after hb hu1 hk1
    obtain ⟨w, hw, hr⟩ := C60_ambiguous h (n := n) (pre := pre) (post := post) (a := a)
      (by rw [shipped_ambiguous h, hp]) hpre hg hb (by
        intro x hx hc
        simp only [h1, List.map_cons, List.map_nil, List.mem_cons, List.not_mem_nil, or_false] at hc
        rcases hc with e | e <;> subst e <;> contradiction) (by simp [h1])
    rw [h1] at hw
    simp at hw
    rw [hr, hw]
  · intro before after hb hu1 hk1
    obtain ⟨w, hw, hr⟩ := C60_ambiguous h (n := n) (pre := pre) (post := post) (a := a)
      (by rw [shipped_ambiguous h, hp]) hpre hg hb (by
        intro x hx hc
        simp only [h1, List.map_cons, List.map_nil, List.mem_cons, List.not_mem_nil, or_false] at hc
        rcases hc with e | e <;> subst e <;> contradiction) (by simp [h1])
    rw [h1] at hw
    simp at hw
    rw [hr, hw]

/-- Non-vacuity: the kilometre is one of the units, under four names and a symbol, and `ton` is one
of the names with two meanings; with the shipped preferences it is the short ton. -/
example : ∃ u ∈ units, u.names = ["kilometers".toList, "kilometer".toList, "kilometres".toList,
    "kilometre".toList] ∧ u.symbols = ["km".toList] ∧ u.scale = 1000 := by
  refine ⟨meter.make "distance" (some ⟨some "kilo", some "k", 1000⟩) none, ?_⟩
  decide +kernel

example {r : Reg Made} (h : build lower info preference ops = .ok r) :
    ∃ u ∈ units, named lower info "short ton" u ∧
      getUnit lower r "TON" = .ok (some (.unit u)) := by
  obtain ⟨u, _, h1, _, h2, _, h3, _⟩ := C68_two_meanings h (n := "TON")
    (List.mem_cons_self ..) (.inl ⟨"ton", by simp, by decide +kernel⟩)
  exact ⟨u, h1, h2, h3 ["gregorian", "si"] ["uk", "asu", "nautical", "iec"] rfl (by decide) (by decide)⟩

end MC.Props
