import Mathlib.Data.Rat.Floor
import Verif.Lemmas.FormatTable
import Verif.Props.International
import Verif.Props.Units2

/-!
# C75: `format` writes a quantity as a sum of units

`format(100000 seconds)` is `1 day, 3 hours, 46 minutes, 40 seconds`.
-/

namespace MC.Props
open MC.Unit MC.Unit.Spec MC.Unit.Table MC.Unit.Format MC.Spec.Format

section
variable {U T K : Type} [Field K] [LinearOrder K] {size : U → K} {kind : U → T}

theorem breakdown_together {sys bases : List U} {q : K} {parts : List (K × U)}
    (h : Breakdown size kind sys bases q parts) : together size parts = q := by
  obtain ⟨as, hd, hf⟩ := h
  rw [← hd.all]
  have h1 : together size parts = together size (as.filter (fun a => a.1 ≠ 0)) := by
    generalize as.filter (fun a => a.1 ≠ 0) = bs at hf
    induction hf with
    | nil => rfl
    | cons h _ ih =>
      unfold together at ih ⊢
      rw [List.map_cons, List.map_cons, List.sum_cons, List.sum_cons, ih, h.2.2.1]
  rw [h1]
  clear hf hd h1
  induction as with
  | nil => rfl
  | cons a as ih =>
    unfold together at ih ⊢
    by_cases h0 : a.1 = 0
    · rw [List.filter_cons_of_neg (by simpa using h0), ih]; simp [h0]
    · rw [List.filter_cons_of_pos (by simpa using h0)]; simp only [List.map_cons, List.sum_cons, ih]

end

section
variable {K : Type} [Field K] [LinearOrder K] [IsStrictOrderedRing K] [FloorRing K]

/-- The size of a shipped unit, in base units. -/
def unitSize (K : Type) [Field K] (u : Shipped) : K := (u.1.scale : K)

/-- `sys` lists the units of a dimension that belong to a system, largest first; without the units
that are not meant for use (weeks, gills, ...). -/
structure Measures (system dim : String) (sys : List Shipped) : Prop where
  mem : ∀ x, x ∈ sys ↔ x.1.dim = dim ∧ system ∈ x.1.systems ∧ x.1.cls.use = true
  order : sys.Pairwise (fun a b => b.1.scale < a.1.scale ∨ b.1.scale = a.1.scale)
  nodup : sys.Nodup

/-- The unit has no prefix. -/
def unprefixed (u : Shipped) : Bool := (u.1.pre.bind (·.name)).isNone

/-- What units are called, without prefixes. -/
def kindOf (u : Shipped) : List Char := (u.1.cls.names.headD "").toList

variable {pw : K → ℚ → K} {closer : K → K → Except Raise Bool} {simpler : K → K → Bool}

/-- The powers 1 and -1 are as they should be. -/
def OneInv (pw : K → ℚ → K) : Prop :=
  ∀ q : ℚ, 0 < q → pw (q : K) 1 = (q : K) ∧ pw (q : K) (-1) = (q : K)⁻¹

theorem shipped_sound (hp : OneInv pw) (u : Shipped) (hu : u.1.dim ≠ "temperature") :
    Sound pw ((norm K closer simpler).info u) := by
  have hk := scale_kind u.1 u.2 hu
  have hs : 0 < u.1.scale := by
    have := step_pos u.1 u.2
    unfold Made.step at this
    rw [hk] at this
    exact this
  exact ⟨hk, Rat.cast_pos.2 hs, (hp _ hs).1, (hp _ hs).2⟩

theorem flat_single {A B : Type} [DecidableEq A] (l : List A) (f : A → List B) (d : A) (hn : l.Nodup)
    (hd : d ∈ l) :
    ((l.map (fun a => (a, f a))).filter (fun e => e.1 = d)).flatMap (fun e => e.2) = f d := by
  induction l with
  | nil => cases hd
  | cons a l ih =>
    rw [List.map_cons]
    have hn' := List.nodup_cons.1 hn
    by_cases h : a = d
    · subst h
      rw [List.filter_cons_of_pos (by simp), List.flatMap_cons]
      have : (l.map (fun x => (x, f x))).filter (fun e => e.1 = a) = [] := by
        rw [List.filter_eq_nil_iff]
        intro e he
        obtain ⟨x, hx, rfl⟩ := List.mem_map.1 he
        simp only [decide_eq_true_eq]
        rintro rfl
        exact hn'.1 hx
      rw [this]; simp
    · rw [List.filter_cons_of_neg (by simpa using h)]
      exact ih hn'.2 (by rcases List.mem_cons.1 hd with h' | h'; exact absurd h'.symm h; exact h')

attribute [local irreducible] Table.units Table.lines Table.ops Table.dimNames

/-- The list that `format` goes through. -/
theorem systemUnits_eq {s d : String} (hd : d ∈ dimNames) :
    systemUnits pw (norm K closer simpler) face s d =
      (Table.units.attach.filter (fun u => decide (u.1.dim = d) && (u.1.systems.contains s && u.1.cls.use))).insertionSort
        (fun a b => sortKey pw (norm K closer simpler) b ≤ sortKey pw (norm K closer simpler) a) := by
  unfold systemUnits
  have : (norm K closer simpler).units
      = dimNames.map (fun d => (d, Table.units.attach.filter (fun u => u.1.dim = d))) := rfl
  rw [this, flat_single _ (fun d => Table.units.attach.filter (fun u => u.1.dim = d)) d dims_nodup hd,
    List.filter_filter]
  refine congrArg _ (List.filter_congr (fun x _ => ?_))
  rw [Bool.and_comm]
  rfl

theorem systemUnits_map (hp : OneInv pw) {s d : String} (hd : d ∈ dimNames) (ht : d ≠ "temperature") :
    (systemUnits pw (norm K closer simpler) face s d).map (·.1) = sysMade s d := by
  rw [systemUnits_eq hd]
  unfold sysMade
  rw [List.map_insertionSort (fun a b => sortKey pw (norm K closer simpler) b ≤ sortKey pw (norm K closer simpler) a)
    (fun a b : Made => b.scale ≤ a.scale)]
  · refine congrArg _ ?_
    have := List.filter_map (f := fun u : Shipped => u.1) (l := Table.units.attach)
      (p := fun u : Made => decide (u.dim = d) && (u.systems.contains s && u.cls.use))
    rw [List.attach_map_subtype_val] at this
    exact this.symm
  · intro a ha b hb
    have h1 := (List.mem_filter.1 ha).2
    have h2 := (List.mem_filter.1 hb).2
    simp only [Bool.and_eq_true, decide_eq_true_eq] at h1 h2
    rw [sortKey_eq (shipped_sound hp a (by rw [h1.1]; exact ht)),
      sortKey_eq (shipped_sound hp b (by rw [h2.1]; exact ht))]
    exact Rat.cast_le

theorem systemUnits_measures (hp : OneInv pw) {s d : String} (hd : d ∈ dimNames) (ht : d ≠ "temperature") :
    Measures s d (systemUnits pw (norm K closer simpler) face s d) where
  mem x := by
    rw [systemUnits_eq hd, List.mem_insertionSort, List.mem_filter]
    simp
  order := by
    have h1 : (sysMade s d).Pairwise (fun a b => b.scale ≤ a.scale) := by
      have : IsTrans Made (fun a b => b.scale ≤ a.scale) := ⟨fun _ _ _ h1 h2 => le_trans h2 h1⟩
      have : Std.Total (fun a b : Made => b.scale ≤ a.scale) := ⟨fun a b => le_total _ _⟩
      exact List.pairwise_insertionSort _ _
    rw [← systemUnits_map (closer := closer) (simpler := simpler) hp hd ht, List.pairwise_map] at h1
    exact h1.imp (fun h => lt_or_eq_of_le h)
  nodup := by
    rw [systemUnits_eq hd]
    refine (List.perm_insertionSort _ _).nodup_iff.2 (List.Nodup.filter _ ?_)
    exact List.nodup_attach.2 units_nodup

theorem simplify_single (n : ℕ) (v : K) (u : Shipped) :
    simplifyUnits pw (norm K closer simpler) n v [(u, 1)] = some (.ok (v, some [(u, 1)])) := by
  unfold simplifyUnits
  have : needsSimplify [(u, (1 : ℚ))] = false := by
    simp [needsSimplify]
  rw [this]
  simp [dedupe, checkEmpty, bind, Except.bind, pure, Except.pure]

theorem bases_eq (sys : List Shipped) :
    sys.filter (fun x => !((norm K closer simpler).info x).prefixed) = sys.filter unprefixed := by
  refine List.filter_congr (fun x _ => ?_)
  change (!(x.1.pre.bind (·.name)).isSome) = (x.1.pre.bind (·.name)).isNone
  cases x.1.pre.bind (·.name) <;> rfl

/-- The smallest of the units and the smallest without a prefix are of the same kind. -/
theorem systemUnits_chained (hp : OneInv pw) {s d : String} (hd : d ∈ dimNames) (ht : d ≠ "temperature")
    (hs : s ∈ preference) {x : Shipped} (hx : x ∈ systemUnits pw (norm K closer simpler) face s d) :
    ∃ b e, ((systemUnits pw (norm K closer simpler) face s d).filter unprefixed).getLast? = some b ∧
      (systemUnits pw (norm K closer simpler) face s d).getLast? = some e ∧ kindOf e = kindOf b := by
  have h1 := all_chained s hs d hd ht
  rw [← systemUnits_map (closer := closer) (simpler := simpler) hp hd ht] at h1
  generalize systemUnits pw (norm K closer simpler) face s d = sys at h1 hx
  unfold chained at h1
  have h2 : (sys.map (·.1)).filter (fun u => !(u.pre.bind (·.name)).isSome) = (sys.filter unprefixed).map (·.1) := by
    rw [List.filter_map]
    refine congrArg _ (List.filter_congr (fun x _ => ?_))
    change (!(x.1.pre.bind (·.name)).isSome) = (x.1.pre.bind (·.name)).isNone
    cases x.1.pre.bind (·.name) <;> rfl
  rw [h2, List.getLast?_map, List.getLast?_map] at h1
  cases he : sys.getLast? with
  | none =>
    rw [List.getLast?_eq_none_iff] at he
    rw [he] at hx; cases hx
  | some e =>
    rw [he] at h1
    cases hb : (sys.filter unprefixed).getLast? with
    | none => rw [hb] at h1; exact absurd h1 (by simp)
    | some b =>
      rw [hb] at h1
      refine ⟨b, e, rfl, rfl, ?_⟩
      simp only [Option.map_some, beq_iff_eq] at h1
      unfold kindOf
      rw [h1]

/-- After simplification to a single unit, the loop divides the value among the units of the system. -/
theorem loop_shipped (hp : OneInv pw) {s : String} {u : Shipped} (hu : u.1.dim ≠ "temperature")
    (hx : ∃ x : Shipped, x.1.dim = u.1.dim ∧ s ∈ x.1.systems ∧ x.1.cls.use = true) (v : K) :
    let sys := systemUnits pw (norm K closer simpler) face s u.1.dim
    Measures s u.1.dim sys ∧ sys.isEmpty = false ∧
    ∃ parts, Unit.Format.loop pw (norm K closer simpler) face sys
        (sys.filter (fun x => !((norm K closer simpler).info x).prefixed)).getLast?
        (sys.filter (fun x => !((norm K closer simpler).info x).prefixed)) v u = .ok parts ∧
      Breakdown (unitSize K) kindOf sys (sys.filter unprefixed) (v * unitSize K u) parts := by
  intro sys
  have hd := unit_dims u.1 u.2
  have hm : Measures s u.1.dim sys := systemUnits_measures hp hd hu
  obtain ⟨x, hx⟩ := hx
  have hmem := (hm.mem x).2 hx
  refine ⟨hm, ?_, ?_⟩
  · cases h : sys with
    | nil => rw [h] at hmem; cases hmem
    | cons => rfl
  · rw [bases_eq]
    obtain ⟨b, e, hb, he, hk⟩ := systemUnits_chained (closer := closer) (simpler := simpler) hp hd hu
      (unit_systems x.1 x.2 s hx.2.1) hmem
    have hs : ∀ y ∈ sys, Sound pw ((norm K closer simpler).info y) := fun y hy =>
      shipped_sound hp y (by rw [((hm.mem y).1 hy).1]; exact hu)
    have := loop_spec (F := face) (N := norm K closer simpler) (pw := pw) (sys := sys) hs
      (hm.order.imp (fun {a c} h => by
        have : c.1.scale ≤ a.1.scale := h.elim le_of_lt le_of_eq
        exact (Rat.cast_le (K := K)).2 this))
      (last := b) ⟨e, he, hk⟩ (bases := sys.filter unprefixed)
      (fun y hy => (List.mem_filter.1 hy).1) (hm.nodup.filter _) hb
      (shipped_sound hp u hu) v
    rw [show (sys.filter unprefixed).getLast? = some b from hb]
    exact this

/-- C75, with a system: whenever the system has units for what is measured, `format` succeeds, and its
parts are the value written with the units of the system, largest first: of every unit without a prefix
as many as fit, and the rest in the smallest one. -/
theorem C75_system_partial (hp : OneInv pw) {prefs : List String} (n : ℕ) (v : K) {u : Shipped}
    (hu : u.1.dim ≠ "temperature") {s : String}
    (hx : ∃ x : Shipped, x.1.dim = u.1.dim ∧ s ∈ x.1.systems ∧ x.1.cls.use = true) :
    ∃ sys parts, Measures s u.1.dim sys ∧
      Unit.Format.format pw (norm K closer simpler) face prefs n v [(u, 1)] (some s) = some (.ok parts) ∧
      Breakdown (unitSize K) kindOf sys (sys.filter unprefixed) (v * unitSize K u) parts ∧
      together (unitSize K) parts = v * unitSize K u := by
  obtain ⟨h1, h2, parts, h3, h4⟩ := loop_shipped (closer := closer) (simpler := simpler) hp hu hx v
  refine ⟨_, parts, h1, ?_, h4, breakdown_together h4⟩
  unfold Unit.Format.format
  rw [simplify_single]
  simp only [ne_eq, not_true_eq_false, if_false]
  change (if (systemUnits pw (norm K closer simpler) face s u.1.dim).isEmpty = true then _ else _) = _
  rw [h2]
  simp only [Bool.false_eq_true, if_false, Option.some.injEq]
  exact h3

/-- C75, without a system: the first system in the order of preference which the unit belongs to is
taken; it always has units. -/
theorem C75_default_partial (hp : OneInv pw) (n : ℕ) (v : K) {u : Shipped}
    (hu : u.1.dim ≠ "temperature") (hs : u.1.systems ≠ []) :
    ∃ s sys parts, preference.find? (fun s => s ∈ u.1.systems) = some s ∧ Measures s u.1.dim sys ∧
      Unit.Format.format pw (norm K closer simpler) face preference n v [(u, 1)] none = some (.ok parts) ∧
      Breakdown (unitSize K) kindOf sys (sys.filter unprefixed) (v * unitSize K u) parts ∧
      together (unitSize K) parts = v * unitSize K u := by
  have h0 := unit_preferred u.1 u.2 hs
  have hf : preference.find? (fun s => u.1.systems.contains s) = preference.find? (fun s => s ∈ u.1.systems) := by
    congr 1; funext s; simp
  rw [hf] at h0
  rw [List.any_eq_true] at h0
  obtain ⟨x, hx, h0⟩ := h0
  simp only [Bool.and_eq_true, decide_eq_true_eq] at h0
  cases hs' : preference.find? (fun s => s ∈ u.1.systems) with
  | none => rw [hs'] at h0; exact absurd h0.2 (by simp)
  | some s =>
    rw [hs'] at h0
    obtain ⟨h1, h2, parts, h3, h4⟩ := loop_shipped (closer := closer) (simpler := simpler) hp hu (s := s)
      ⟨⟨x, hx⟩, h0.1.1, by simpa using h0.2, h0.1.2⟩ v
    refine ⟨s, _, parts, rfl, h1, ?_, h4, breakdown_together h4⟩
    unfold Unit.Format.format
    rw [simplify_single]
    simp only [ne_eq, not_true_eq_false, if_false]
    have hi : ((norm K closer simpler).info u).systems = u.1.systems := rfl
    rw [hi]
    have hp' : preferredSystem preference u.1.systems = some s := by
      unfold preferredSystem; rw [hf]; exact hs'
    cases hss : u.1.systems with
    | nil => exact absurd hss hs
    | cons a as =>
      simp only [← hss, hp']
      change (if (systemUnits pw (norm K closer simpler) face s u.1.dim).isEmpty = true then _ else _) = _
      rw [h2]
      simp only [Bool.false_eq_true, if_false, Option.some.injEq]
      exact h3

/-- C75: when the system has no units for what is measured, `format` reports an error. -/
theorem C75_no_units (hp : OneInv pw) {prefs : List String} (n : ℕ) (v : K) {u : Shipped}
    (hu : u.1.dim ≠ "temperature") {s : String}
    (hx : ¬ ∃ x : Shipped, x.1.dim = u.1.dim ∧ s ∈ x.1.systems ∧ x.1.cls.use = true) :
    ∃ m, Unit.Format.format pw (norm K closer simpler) face prefs n v [(u, 1)] (some s) = some (.error (.calc m)) := by
  have hm := systemUnits_measures (closer := closer) (simpler := simpler) (s := s) hp (unit_dims u.1 u.2) hu
  unfold Unit.Format.format
  rw [simplify_single]
  simp only [ne_eq, not_true_eq_false, if_false]
  change ∃ m, (if (systemUnits pw (norm K closer simpler) face s u.1.dim).isEmpty = true then _ else _) = _
  cases hsys : systemUnits pw (norm K closer simpler) face s u.1.dim with
  | nil => exact ⟨_, rfl⟩
  | cons x xs => exact absurd ⟨x, (hm.mem x).1 (by rw [hsys]; simp)⟩ hx

/-- C75, compound units: whatever the unit of the value, an answer is that quantity written with the
units of a system. -/
theorem C75_compound_partial (hp : Powers pw) {n : ℕ} {v : K} {l : PL Shipped}
    (hl : Without (norm K closer simpler) "temperature" l) {prefs : List String} {s : String} {parts : List (K × Shipped)}
    (h : Unit.Format.format pw (norm K closer simpler) face prefs n v l (some s) = some (.ok parts)) :
    ∃ d sys, Measures s d sys ∧ sys ≠ [] ∧
      Breakdown (unitSize K) kindOf sys (sys.filter unprefixed)
        (quantity pw (norm K closer simpler) (v, some l)) parts ∧
      together (unitSize K) parts = quantity pw (norm K closer simpler) (v, some l) := by
  have hq : OneInv pw := fun q h => ⟨by simpa using hp.int q h 1, by simpa using hp.int q h (-1)⟩
  obtain ⟨hL, hC, hT⟩ := C74_registry (closer := closer) (simpler := simpler) hp
  unfold Unit.Format.format at h
  cases hs : simplifyUnits pw (norm K closer simpler) n v l with
  | none => rw [hs] at h; exact absurd h (by simp)
  | some res =>
    rw [hs] at h
    match res, hs, h with
    | .error e, _, h => exact absurd h (by simp)
    | .ok (w, none), _, h => exact absurd h (by simp)
    | .ok (w, some []), _, h => exact absurd h (by simp)
    | .ok (w, some (a :: b :: c)), _, h => exact absurd h (by simp)
    | .ok (w, some [(u, p)]), hs, h =>
      simp only at h
      by_cases h1 : p = 1
      · subst h1
        simp only [ne_eq, not_true_eq_false, if_false] at h
        obtain ⟨s', hk, hd, _⟩ := simplify_cases hL hC hT hl hs
        have hu : u.1.dim ≠ "temperature" :=
          (dedupe_value hL (without_prop hT) hk.all hd).2 (u, 1) (by simp)
        have hval := C45_simplify_partial hL hC hT hl hs
        have hsz : quantity pw (norm K closer simpler) (w, some [(u, 1)]) = w * unitSize K u := by
          unfold quantity
          rw [Option.getD_some, size_single hp]
          have := scale_kind u.1 u.2 hu
          unfold unitSize Made.step
          rw [this]
        change (if (systemUnits pw (norm K closer simpler) face s u.1.dim).isEmpty = true then _ else _) = _ at h
        have hm := systemUnits_measures (closer := closer) (simpler := simpler) (s := s) hq (unit_dims u.1 u.2) hu
        cases hsys : systemUnits pw (norm K closer simpler) face s u.1.dim with
        | nil => rw [hsys] at h; exact absurd h (by simp)
        | cons x xs =>
          have hx := (hm.mem x).1 (by rw [hsys]; simp)
          obtain ⟨h1, h2, parts', h3, h4⟩ := loop_shipped (closer := closer) (simpler := simpler) hq hu
            ⟨x, hx⟩ w
          rw [h2] at h
          simp only [Bool.false_eq_true, if_false, Option.some.injEq] at h
          have : parts = parts' := by
            have := h.symm.trans h3
            simpa using this
          subst this
          rw [← hval, hsz]
          exact ⟨u.1.dim, _, h1, by rw [hsys]; simp, h4, breakdown_together h4⟩
      · simp only [ne_eq, h1, not_false_eq_true, if_true] at h
        exact absurd h (by simp)

end

/-! ### Examples, with rational numbers and integer powers -/

/-- Integer powers. -/
def intPow (x : ℚ) (p : ℚ) : ℚ := if p.num < 0 then (x ^ p.num.natAbs)⁻¹ else x ^ p.num.natAbs

theorem intPow_one : OneInv intPow := by
  intro q _
  have h1 : (1 : ℚ).num = 1 := by decide +kernel
  have h2 : (-1 : ℚ).num = -1 := by decide +kernel
  simp [intPow, h1, h2]

/-- C75, the text: each part is said with its number and the name of its unit, the singular for exactly one
and the plural for others, and there are commas between the parts.  The plural and the singular are the first
two names of the unit. -/
theorem C75_text {K : Type} [Field K] [LinearOrder K] (shows : K → Parse.Text)
    (names : Shipped → Parse.Text × Parse.Text) (hn : ∀ u, ∃ more, u.1.names = (names u).1 :: (names u).2 :: more)
    (parts : List (K × Shipped)) : Wording shows names parts (Unit.Format.text face shows parts) := by
  have hs : ∀ c u, Says shows names c u
      (shows c ++ [' '] ++ (if c = 1 then face.singular u else face.plural u)) := by
    intro c u
    obtain ⟨more, e⟩ := hn u
    by_cases h : c = 1
    · refine .inl ⟨h, ?_⟩
      rw [if_pos h]
      simp [face, e]
    · refine .inr ⟨h, ?_⟩
      rw [if_neg h]
      simp [face, e]
  induction parts with
  | nil => exact .none
  | cons p ps ih =>
    obtain ⟨c, u⟩ := p
    cases ps with
    | nil =>
      have := Wording.one (hs c u)
      simpa [Unit.Format.text, List.intercalate] using this
    | cons q ps =>
      have := Wording.more (hs c u) ih
      simpa [Unit.Format.text, List.intercalate] using this

/-- The shipped units have these names. -/
example : ∃ names : Shipped → Parse.Text × Parse.Text,
    ∀ u, ∃ more, u.1.names = (names u).1 :: (names u).2 :: more := by
  refine ⟨fun u => (face.plural u, face.singular u), fun u => ?_⟩
  have h : Table.units.all (fun u => decide (2 ≤ u.names.length)) = true := by decide +kernel
  have := List.all_eq_true.1 h u.1 u.2
  match hu : u.1.names, of_decide_eq_true this with
  | a :: b :: more, _ => exact ⟨more, by simp [face, hu]⟩

/-- The shipped units, for examples. -/
def plainNorm : Norm Shipped String ℚ := norm ℚ (fun _ _ => .ok false) (fun _ _ => false)

/-- A shipped unit by its name, in a list of parts. -/
def named (ps : List (ℚ × Shipped)) : List (ℚ × String) :=
  ps.map (fun p => (p.1, String.ofList (if p.1 = 1 then face.singular p.2 else face.plural p.2)))

/-- `format` of a number of a shipped unit. -/
def formatted (v : ℚ) (unit : String) (system : Option String) : Option (Option (List (ℚ × String))) :=
  (byName unit).bind (fun u =>
    (Unit.Format.format intPow plainNorm face preference 9 v [(u, 1)] system).map
      (fun r => match r with | .ok ps => some (named ps) | .error _ => none))

/-- `format(100000 seconds)` -/
example : formatted 100000 "seconds" none
    = some (some [(1, "day"), (3, "hours"), (46, "minutes"), (40, "seconds")]) := by decide +kernel

/-- `format(5281.5 feet, us)` -/
example : formatted (10563 / 2) "feet" (some "us")
    = some (some [(1, "mile"), (1, "foot"), (6, "inches")]) := by decide +kernel

/-- `format(1500.25 bytes)` -/
example : formatted (6001 / 4) "bytes" none = some (some [(3 / 2, "kilobytes"), (2, "bits")]) := by
  decide +kernel

/-- `format(-3 feet, uk)` -/
example : formatted (-3) "feet" (some "uk") = some (some [(-36, "inches")]) := by decide +kernel

/-- `format(0 meters)` is empty, `format(1 second, uk)` and `format(1 gee)` are errors. -/
example : formatted 0 "meters" none = some (some []) ∧ formatted 1 "seconds" (some "uk") = some none
    ∧ formatted 1 "gees" none = some none := by decide +kernel

/-- The text. -/
example : (byName "hours").map (fun h => Unit.Format.text face (fun n : ℚ => if n = 1 then ['1'] else ['3'])
    [(3, h), (1, h)]) = some "3 hours, 1 hour".toList := by decide +kernel

/-- The hypotheses of the theorems, for a unit of time. -/
example : ∃ u : Shipped, u.1.cls = hour ∧ ∃ sys parts, Measures "gregorian" "time" sys ∧
    Unit.Format.format intPow plainNorm face preference 9 (7 / 2) [(u, 1)] (some "gregorian") = some (.ok parts) ∧
    together (unitSize ℚ) parts = 7 / 2 * 3600 := by
  have hm : ∃ u ∈ Table.units, u.cls = hour ∧ u.dim = "time" ∧ u.cls.use = true ∧ "gregorian" ∈ u.systems
      ∧ u.scale = 3600 := by decide +kernel
  obtain ⟨u, hu, h1, h2, h3, h4, h5⟩ := hm
  refine ⟨⟨u, hu⟩, h1, ?_⟩
  obtain ⟨sys, parts, ha, hb, _, hc⟩ := C75_system_partial (closer := fun _ _ => .ok false)
    (simpler := fun _ _ => false) intPow_one (prefs := preference) 9 (7 / 2) (u := ⟨u, hu⟩)
    (by rw [h2]; decide) (s := "gregorian") ⟨⟨u, hu⟩, rfl, h4, h3⟩
  refine ⟨sys, parts, h2 ▸ ha, hb, ?_⟩
  rw [hc]; simp [unitSize, h5]

/-- C75 is false for temperatures: `format(20 Celsius)` is `20 Celsius, 273.15 kelvin`, although both
parts are the whole temperature: the rest of zero degrees is converted to kelvin. -/
theorem C75_temperature_violation :
    formatted 20 "Celsius" none = some (some [(20, "Celsius"), (27315 / 100, "kelvin")]) := by
  decide +kernel

end MC.Props
