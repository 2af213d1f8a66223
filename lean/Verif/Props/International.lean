import Mathlib.Analysis.SpecialFunctions.Pow.Real
import Mathlib.Analysis.Real.Pi.Bounds
import Mathlib.Analysis.Real.Pi.Irrational
import Verif.Lemmas.International
import Verif.Props.Units
import Verif.Props.UnitTable

/-! # C74: conversions between shipped units follow the international definitions -/

set_option linter.unusedSectionVars false

namespace MC.Props
open MC.Unit MC.Unit.Table MC.Unit.Spec MC.Unit.Registry MC.Spec.International

attribute [local irreducible] Table.units worths lines Table.ops shippedAmbs

/-- `pw` raises positive rational numbers to rational powers. -/
structure Powers {K : Type} [Field K] (pw : K → ℚ → K) : Prop where
  one : ∀ p, pw 1 p = 1
  law : ∀ q : ℚ, 0 < q → PowLaw pw (q : K)
  int : ∀ q : ℚ, 0 < q → ∀ n : ℤ, pw (q : K) (n : ℚ) = (q : K) ^ n

/-- The text is a name of the unit, in any letter case, or a symbol. -/
def UnitText (text : String) (u : Made) : Prop :=
  (∃ m ∈ u.names, lowerText m = lowerText text.toList) ∨ text.toList ∈ u.symbols

/-- Not the parsec, the degree, the acre, the pound-force per square inch, the US dram, and not a
symbol of a unit with the prefix kibi (with its name: yes). -/
def Standard (text : String) (u : Made) : Prop :=
  u.cls ∉ odd ∧ (u.pre.bind (·.name) = some "kibi" →
    ∃ m ∈ u.names, lowerText m = lowerText text.toList)

variable {K : Type} [Field K] [CharZero K] {pw : K → ℚ → K}
variable {closer : K → K → Except Raise Bool} {simpler : K → K → Bool}

/-- C74: what the theorems on conversion (C42 to C46, C48, C61) suppose about the units holds of the
shipped ones. -/
theorem C74_registry (hp : Powers pw) : Lawful pw (norm K closer simpler) ∧
    Coherent (norm K closer simpler) ∧ Thermal (norm K closer simpler) "temperature" := by
  refine ⟨⟨hp.one, fun u => ?_⟩, coherent_norm, thermal_norm⟩
  rw [stepSize_norm]
  exact hp.law _ (step_pos u.1 u.2)

theorem text_means {text : String} {u : Made} (hu : u ∈ Table.units) (ht : UnitText text u)
    (hs : Standard text u) : ∃ w, worthOf u w ∧ Means text.toList w := by
  obtain ⟨w, h1, h2, h3⟩ := unit_means hu hs.1
  refine ⟨w, h1, ?_⟩
  by_cases hk : ∃ m ∈ u.names, lowerText m = lowerText text.toList
  · obtain ⟨m, hm, e⟩ := hk
    exact h2 m hm _ e.symm
  · rcases ht with ht | ht
    · exact absurd ht hk
    · exact h3 (fun e => hk (hs.2 e)) _ ht

theorem text_found {prefs : List String} {r : Reg Made}
    (h : build lower Table.info prefs Table.ops = .ok r) {text : String} {u : Made}
    (hu : u ∈ Table.units) (ht : UnitText text u) :
    getUnit lower r text = .ok (some (.unit u)) := by
  rcases ht with ht | ht
  · exact C68_names h hu ht
  · exact C68_symbols h hu ht

theorem steady_single (u : Shipped) : Steady (contributions (norm K closer simpler) [(u, 1)]) := by
  apply steady_of_nodup
  unfold contributions
  simp only [List.flatMap_cons, List.flatMap_nil, List.append_nil]
  cases h : (norm K closer simpler).rel ((norm K closer simpler).info u).dim with
  | none => simp
  | some l =>
    simp only [List.map_map]
    exact (rel_proper _ _ h).1.1

theorem dimOf_single (u : Shipped) (d : String) :
    dimOf (norm K closer simpler) [(u, 1)] d = u.1.power d := by
  unfold dimOf
  simp [unitDim_norm]

theorem size_single (hp : Powers pw) (u : Shipped) :
    size pw (norm K closer simpler) [(u, 1)] = (u.1.step : K) := by
  unfold Unit.Spec.size
  have := hp.int _ (step_pos u.1 u.2) 1
  simp only [Int.cast_one, zpow_one] at this
  simp [stepSize_norm, this]

theorem power_self {u : Made} (h : u.dim = "temperature") : u.power "temperature" = 1 := by
  unfold Made.power
  have : relOf u.dim = none := by
    rw [h]
    exact (thermal_norm (K := ℚ) (closer := fun _ _ => .ok true) (simpler := fun _ _ => true)).base
  rw [this]
  simp [h]

/-- Conversion of a number in one shipped unit to another. -/
theorem convert_single (hp : Powers pw) (u v : Shipped) (x : K) {rel : Bool}
    (hr : rel = true ∨ u.1.dim ≠ "temperature") :
    ((∀ d, u.1.power d = v.1.power d) →
      unitConversion pw (norm K closer simpler) x (some [(u, 1)]) (some [(v, 1)]) rel
        = .ok (x * (u.1.step : K) / (v.1.step : K), some [(v, 1)])) ∧
    ((∃ d, u.1.power d ≠ v.1.power d) →
      ∃ m, unitConversion pw (norm K closer simpler) x (some [(u, 1)]) (some [(v, 1)]) rel
        = .error (.calc m)) := by
  obtain ⟨hL, _, _⟩ := C74_registry (closer := closer) (simpler := simpler) hp
  constructor
  · intro hd
    have hr' : rel = true ∨ v.1.dim ≠ "temperature" := by
      rcases hr with h | h
      · exact .inl h
      · refine .inr fun e => ?_
        have h1 := power_self e
        rw [← hd, no_temperature u.1 u.2 h] at h1
        exact absurd h1 (by norm_num)
    have pa : ∀ w : Shipped, (rel = true ∨ w.1.dim ≠ "temperature") →
        Proportional (norm K closer simpler) rel [(w, 1)] := by
      intro w hw o ho
      rw [List.mem_singleton] at ho
      subst ho
      rcases hw with h | h
      · exact .inl h
      · exact .inr (scale_kind w.1 w.2 h)
    obtain ⟨⟨w, s⟩, hw⟩ := C43_same_dimension_partial hL (steady_single u) (steady_single v) (pa u hr)
      (pa v hr') (by intro d; rw [dimOf_single, dimOf_single, hd]) x
    obtain ⟨h1, l, h2, h3⟩ := C42_conversion_value hL (pa u hr) (pa v hr') hw
    rw [size_single hp, size_single hp] at h1
    rw [List.perm_singleton] at h3
    subst h3 h2
    have hne : (v.1.step : K) ≠ 0 := by
      rw [Ne, Rat.cast_eq_zero]
      exact (step_pos v.1 v.2).ne'
    rw [hw, ← h1, mul_div_assoc, div_self hne, mul_one]
  · rintro ⟨d, hd⟩
    exact (C43_conversion_partial (steady_single u) (steady_single v) x rel).2
      ⟨d, by rw [dimOf_single, dimOf_single]; exact hd⟩

theorem powers_iff {u v : Shipped} {a b : Worth} (ha : worthOf u.1 a) (hb : worthOf v.1 b) :
    a.powers = b.powers ↔ ∀ d, u.1.power d = v.1.power d := by
  constructor
  · intro h d
    by_cases hd : d ∈ quantities
    · have : quantities.map u.1.power = quantities.map v.1.power := by rw [ha.2, hb.2, h]
      exact List.map_inj_left.1 this d hd
    · rw [power_other u.2 hd, power_other v.2 hd]
  · intro h
    have : quantities.map u.1.power = quantities.map v.1.power := List.map_congr_left fun d _ => h d
    rw [ha.2, hb.2] at this
    exact List.map_injective_iff.2 Int.cast_injective this

/-- **C74**, one unit to another: two texts that name shipped units find these units; by the
international definitions both texts mean units of some worth; and the conversion of a number of the
one to the other multiplies with the quotient of their sizes if they measure the same quantity, and is
an error if not.  Missing: the units that are not `Standard`; readings of temperature scales, for which
see `C74_temperatures`. -/
theorem C74_convert_partial (hp : Powers pw) {prefs : List String} {r : Reg Made}
    (h : build lower Table.info prefs Table.ops = .ok r) {s t : String} {u v : Shipped}
    (hs : UnitText s u.1) (ht : UnitText t v.1) (su : Standard s u.1) (sv : Standard t v.1)
    (x : K) {rel : Bool} (hr : rel = true ∨ u.1.dim ≠ "temperature") :
    getUnit lower r s = .ok (some (.unit u.1)) ∧ getUnit lower r t = .ok (some (.unit v.1)) ∧
    ∃ a b, Means s.toList a ∧ Means t.toList b ∧
      (a.powers = b.powers →
        unitConversion pw (norm K closer simpler) x (some [(u, 1)]) (some [(v, 1)]) rel
          = .ok (x * (a.value : K) / (b.value : K), some [(v, 1)])) ∧
      (a.powers ≠ b.powers →
        ∃ m, unitConversion pw (norm K closer simpler) x (some [(u, 1)]) (some [(v, 1)]) rel
          = .error (.calc m)) := by
  obtain ⟨a, ha, ma⟩ := text_means u.2 hs su
  obtain ⟨b, hb, mb⟩ := text_means v.2 ht sv
  obtain ⟨h1, h2⟩ := convert_single (closer := closer) (simpler := simpler) hp u v x hr
  refine ⟨text_found h u.2 hs, text_found h v.2 ht, a, b, ma, mb, ?_, ?_⟩
  · intro e
    rw [ha.1, hb.1]
    exact h1 ((powers_iff ha hb).1 e)
  · intro e
    apply h2
    by_contra hc
    push Not at hc
    exact e ((powers_iff ha hb).2 hc)

/-- The size of a product of powers of units that are worth so much. -/
def productSize (ts : List (String × ℤ)) (ws : List Worth) : ℚ :=
  (List.zipWith (fun t w => w.value ^ t.2) ts ws).prod

/-- The texts with their powers name the units with their powers. -/
def Written (ts : List (String × ℤ)) (us : PL Shipped) : Prop :=
  List.Forall₂ (fun t o => UnitText t.1 o.1.1 ∧ Standard t.1 o.1.1 ∧ o.2 = t.2) ts us

theorem written_size (hp : Powers pw) {ts : List (String × ℤ)} {us : PL Shipped}
    (h : Written ts us) : ∃ ws, List.Forall₂ (fun t w => Means t.1.toList w) ts ws ∧
      Unit.Spec.size pw (norm K closer simpler) us = ((productSize ts ws : ℚ) : K) := by
  unfold Written at h
  induction h with
  | nil => exact ⟨[], .nil, by simp [Unit.Spec.size, productSize]⟩
  | @cons t o ts us hto _ ih =>
    obtain ⟨ws, h1, h2⟩ := ih
    obtain ⟨w, hw, mw⟩ := text_means o.1.2 hto.1 hto.2.1
    refine ⟨w :: ws, .cons mw h1, ?_⟩
    have hi := hp.int _ (step_pos o.1.1 o.1.2) t.2
    unfold Unit.Spec.size productSize at h2 ⊢
    simp only [List.map_cons, List.prod_cons, List.zipWith_cons_cons]
    rw [h2, stepSize_norm, hto.2.2, hi, hw.1]
    push_cast
    rfl

/-- **C74**, products: converting between products of powers of units multiplies with the quotient of
the sizes which the international definitions give to the products. -/
theorem C74_products_partial (hp : Powers pw) {ss ts : List (String × ℤ)} {us vs : PL Shipped}
    (hs : Written ss us) (ht : Written ts vs) {rel : Bool}
    (hr : rel = true ∨ ∀ o ∈ us ++ vs, o.1.1.dim ≠ "temperature") {x y : K}
    {res : Option (PL Shipped)}
    (h : unitConversion pw (norm K closer simpler) x (some us) (some vs) rel = .ok (y, res)) :
    ∃ as bs, List.Forall₂ (fun t w => Means t.1.toList w) ss as ∧
      List.Forall₂ (fun t w => Means t.1.toList w) ts bs ∧
      y * ((productSize ts bs : ℚ) : K) = x * ((productSize ss as : ℚ) : K) := by
  obtain ⟨hL, _, _⟩ := C74_registry (closer := closer) (simpler := simpler) hp
  obtain ⟨as, h1, h2⟩ := written_size (closer := closer) (simpler := simpler) hp hs
  obtain ⟨bs, h3, h4⟩ := written_size (closer := closer) (simpler := simpler) hp ht
  have pr : ∀ l : PL Shipped, (∀ o ∈ l, o ∈ us ++ vs) →
      Proportional (norm K closer simpler) rel l := by
    intro l hl o ho
    rcases hr with e | e
    · exact .inl e
    · exact .inr (scale_kind o.1.1 o.1.2 (e o (hl o ho)))
  refine ⟨as, bs, h1, h3, ?_⟩
  rw [← h2, ← h4]
  exact (C42_conversion_value hL (pr us fun o ho => List.mem_append_left _ ho)
    (pr vs fun o ho => List.mem_append_right _ ho) h).1

theorem kelvin_mem : kelvin.make "temperature" (some ⟨none, none, 1⟩) none ∈ Table.units := by
  decide +kernel

theorem celsius_mem : celsius.make "temperature" none none ∈ Table.units := by decide +kernel

theorem fahrenheit_mem : fahrenheit.make "temperature" none none ∈ Table.units := by
  decide +kernel

/-- **C74**, temperatures: the units found by the names of the three scales convert readings as the
scales are defined: 0 °C is 273.15 K, and 32 °F is 0 °C. -/
theorem C74_temperatures (hp : Powers pw) {prefs : List String} {r : Reg Made}
    (h : build lower Table.info prefs Table.ops = .ok r) : ∃ k c f : Shipped,
    getUnit lower r "kelvin" = .ok (some (.unit k.1)) ∧
    getUnit lower r "celsius" = .ok (some (.unit c.1)) ∧
    getUnit lower r "fahrenheit" = .ok (some (.unit f.1)) ∧ ∀ x : K,
    unitConversion pw (norm K closer simpler) x (some [(c, 1)]) (some [(k, 1)]) false
      = .ok (x + 27315 / 100, some [(k, 1)]) ∧
    unitConversion pw (norm K closer simpler) x (some [(k, 1)]) (some [(c, 1)]) false
      = .ok (x - 27315 / 100, some [(c, 1)]) ∧
    unitConversion pw (norm K closer simpler) x (some [(c, 1)]) (some [(f, 1)]) false
      = .ok (x * (9 / 5) + 32, some [(f, 1)]) ∧
    unitConversion pw (norm K closer simpler) x (some [(f, 1)]) (some [(c, 1)]) false
      = .ok ((x - 32) * (5 / 9), some [(c, 1)]) := by
  obtain ⟨hL, _, _⟩ := C74_registry (closer := closer) (simpler := simpler) hp
  refine ⟨⟨_, kelvin_mem⟩, ⟨_, celsius_mem⟩, ⟨_, fahrenheit_mem⟩,
    C68_names h kelvin_mem ⟨"kelvin".toList, by decide +kernel, rfl⟩,
    C68_names h celsius_mem ⟨"Celsius".toList, by decide +kernel, by decide +kernel⟩,
    C68_names h fahrenheit_mem ⟨"Fahrenheit".toList, by decide +kernel, by decide +kernel⟩, ?_⟩
  intro x
  have key := C48_temperature_formulas (N := norm K closer simpler) hL
    (k := ⟨_, kelvin_mem⟩) (c := ⟨_, celsius_mem⟩) (f := ⟨_, fahrenheit_mem⟩) rfl rfl rfl
    (by show ((kelvin.make "temperature" (some ⟨none, none, 1⟩) none).scale : K) = 1
        norm_num [Made.scale, Cls.make, kelvin]) rfl rfl
  obtain ⟨k1, k2, _, _, k5⟩ := key x
  have hback : unitConversion pw (norm K closer simpler) x
      (some [(⟨_, fahrenheit_mem⟩, 1)]) (some [(⟨_, celsius_mem⟩, 1)]) false
      = .ok ((x - 32) * (5 / 9), some [(⟨_, celsius_mem⟩, 1)]) := by
    have h5 := (key ((x - 32) * (5 / 9))).2.2.2.2
    have e : ((x - 32) * (5 / 9) + 27315 / 100) * (9 / 5) - 45967 / 100 = x := by
      field_simp
      ring
    rw [e] at h5
    obtain ⟨s, hs⟩ := C48_temperature_back hL (by norm_num) (by norm_num) h5
    rcases unitConversion_cases hs with ⟨hperm, _⟩ | ⟨_, _, y, z, _, _, e'⟩
    · rw [List.perm_singleton] at hperm
      exact absurd hperm (by decide +kernel)
    · rw [hs]
      simp only [Prod.mk.injEq] at e'
      rw [e'.2]
  refine ⟨k2, k1, ?_, hback⟩
  rw [k5]
  congr 2
  ring

/-! ### Where the shipped sizes differ from the definitions -/

theorem means_name {text : List Char} {n : String} {w : Worth}
    (h : worths.any (fun d => d.1.names.contains n && decide (d.2 = w)) = true)
    (ht : text.map Char.toLower = n.toList) : Means text w := by
  obtain ⟨d, hd, e⟩ := List.any_eq_true.1 h
  simp only [Bool.and_eq_true, List.contains_iff_mem, decide_eq_true_eq] at e
  exact ⟨d, hd, .inl ⟨.inl ⟨n, e.1, ht⟩, e.2.symm⟩⟩

/-- What is the size of one shipped unit in another, when both have the same dimension. -/
theorem convert_one (hp : Powers pw) {u v : Made} (hu : u ∈ Table.units) (hv : v ∈ Table.units)
    (hd : u.dim = v.dim) (ht : u.dim ≠ "temperature") {q : ℚ} (hq : u.step = q * v.step) :
    unitConversion pw (norm K closer simpler) 1 (some [(⟨u, hu⟩, 1)]) (some [(⟨v, hv⟩, 1)]) false
      = .ok ((q : K), some [(⟨v, hv⟩, 1)]) := by
  obtain ⟨h1, _⟩ := convert_single (closer := closer) (simpler := simpler) hp ⟨u, hu⟩ ⟨v, hv⟩ 1
    (rel := false) (.inr ht)
  rw [h1 (fun d => by unfold Made.power; rw [hd])]
  have hne : (v.step : K) ≠ 0 := by
    rw [Ne, Rat.cast_eq_zero]
    exact (step_pos v hv).ne'
  simp only [hq, Rat.cast_mul, one_mul]
  rw [mul_div_assoc, div_self hne, mul_one]

theorem floz_mem : uSFluidOunce.make "volume" none none ∈ Table.units := by decide +kernel

theorem dram_mem : uSDram.make "volume" none none ∈ Table.units := by decide +kernel

/-- C74 is false of the US dram: the calculator counts sixteen of them in a US fluid ounce.  There are
eight. -/
theorem C74_dram_violation (hp : Powers pw) {prefs : List String} {r : Reg Made}
    (h : build lower Table.info prefs Table.ops = .ok r) : ∃ u v : Shipped,
    getUnit lower r "US fluid ounce" = .ok (some (.unit u.1)) ∧
    getUnit lower r "US dram" = .ok (some (.unit v.1)) ∧
    unitConversion pw (norm K closer simpler) 1 (some [(u, 1)]) (some [(v, 1)]) false
      = .ok (((16 : ℚ) : K), some [(v, 1)]) ∧
    ∃ a b, Means "US fluid ounce".toList a ∧ Means "US dram".toList b ∧ a.powers = b.powers ∧
      a.value / b.value = 8 := by
  refine ⟨⟨_, floz_mem⟩, ⟨_, dram_mem⟩,
    C68_names h floz_mem ⟨"US fluid ounce".toList, by decide +kernel, rfl⟩,
    C68_names h dram_mem ⟨"US dram".toList, by decide +kernel, rfl⟩,
    convert_one hp floz_mem dram_mem (by decide +kernel) (by decide +kernel) (by decide +kernel),
    ⟨295735295625 / 10 ^ 16, [3, 0, 0, 0, 0, 0, 0, 0, 0, 0]⟩,
    ⟨36966911953125 / 10 ^ 19, [3, 0, 0, 0, 0, 0, 0, 0, 0, 0]⟩,
    means_name (n := "us fluid ounce") (by decide +kernel) (by decide +kernel),
    means_name (n := "us dram") (by decide +kernel) (by decide +kernel), rfl, by norm_num⟩

theorem hectare_mem : hectare.make "area" none none ∈ Table.units := by decide +kernel

theorem acre_mem : acre.make "area" none none ∈ Table.units := by decide +kernel

/-- C74 is false of the acre: the calculator rounds it to 4046.9 square metres.  It is 4840 square
yards, which are 4046.8564224 square metres. -/
theorem C74_acre_violation (hp : Powers pw) {prefs : List String} {r : Reg Made}
    (h : build lower Table.info prefs Table.ops = .ok r) : ∃ u v : Shipped,
    getUnit lower r "acre" = .ok (some (.unit u.1)) ∧
    getUnit lower r "hectare" = .ok (some (.unit v.1)) ∧
    unitConversion pw (norm K closer simpler) 1 (some [(u, 1)]) (some [(v, 1)]) false
      = .ok (((40469 / 100000 : ℚ) : K), some [(v, 1)]) ∧
    ∃ a b, Means "acre".toList a ∧ Means "hectare".toList b ∧ a.powers = b.powers ∧
      a.value / b.value = 40468564224 / 100000000000 := by
  refine ⟨⟨_, acre_mem⟩, ⟨_, hectare_mem⟩,
    C68_names h acre_mem ⟨"acre".toList, by decide +kernel, rfl⟩,
    C68_names h hectare_mem ⟨"hectare".toList, by decide +kernel, rfl⟩,
    convert_one hp acre_mem hectare_mem (by decide +kernel) (by decide +kernel) (by decide +kernel),
    ⟨40468564224 / 10000000, [2, 0, 0, 0, 0, 0, 0, 0, 0, 0]⟩,
    ⟨10000, [2, 0, 0, 0, 0, 0, 0, 0, 0, 0]⟩,
    means_name (n := "acre") (by decide +kernel) (by decide +kernel),
    means_name (n := "hectare") (by decide +kernel) (by decide +kernel), rfl, by norm_num⟩

theorem psi_mem : pSI.make "pressure" none none ∈ Table.units := by decide +kernel

theorem atm_mem : atmosphere.make "pressure" none none ∈ Table.units := by decide +kernel

/-- C74 is false of the pound-force per square inch, which the calculator rounds to 6894.757
pascals. -/
theorem C74_psi_violation (hp : Powers pw) {prefs : List String} {r : Reg Made}
    (h : build lower Table.info prefs Table.ops = .ok r) : ∃ u v : Shipped,
    getUnit lower r "pound-force per square inch" = .ok (some (.unit u.1)) ∧
    getUnit lower r "atmosphere" = .ok (some (.unit v.1)) ∧
    unitConversion pw (norm K closer simpler) 1 (some [(u, 1)]) (some [(v, 1)]) false
      = .ok (((6894757 / 101325000 : ℚ) : K), some [(v, 1)]) ∧
    ∃ a b, Means "pound-force per square inch".toList a ∧ Means "atmosphere".toList b ∧
      a.powers = b.powers ∧ 6894757 / 101325000 < a.value / b.value := by
  refine ⟨⟨_, psi_mem⟩, ⟨_, atm_mem⟩,
    C68_names h psi_mem ⟨"pound-force per square inch".toList, by decide +kernel, rfl⟩,
    C68_names h atm_mem ⟨"atmosphere".toList, by decide +kernel, rfl⟩,
    convert_one hp psi_mem atm_mem (by decide +kernel) (by decide +kernel) (by decide +kernel),
    ⟨45359237 / 100000000 * (980665 / 100000) / (254 / 10000) ^ 2,
      [-1, 1, -2, 0, 0, 0, 0, 0, 0, 0]⟩,
    ⟨101325, [-1, 1, -2, 0, 0, 0, 0, 0, 0, 0]⟩,
    means_name (n := "pound-force per square inch") (by decide +kernel) (by decide +kernel),
    means_name (n := "atmosphere") (by decide +kernel) (by decide +kernel), rfl, by norm_num⟩

theorem degree_mem : degree.make "angle" none none ∈ Table.units := by decide +kernel

/-- C74 for the degree, which is π / 180: the calculator uses a number that is not that, as no
rational number is, but the difference is less than a unit of the twentieth decimal place. -/
theorem C74_degree_violation {prefs : List String} {r : Reg Made}
    (h : build lower Table.info prefs Table.ops = .ok r) : ∃ u : Shipped,
    getUnit lower r "degree" = .ok (some (.unit u.1)) ∧
    (u.1.step : ℝ) ≠ Real.pi / 180 ∧ |(u.1.step : ℝ) - Real.pi / 180| < 1 / 10 ^ 20 := by
  refine ⟨⟨_, degree_mem⟩, C68_names h degree_mem ⟨"degree".toList, by decide +kernel, rfl⟩, ?_, ?_⟩
  · intro e
    refine irrational_pi ⟨(degree.make "angle" none none).step * 180, ?_⟩
    push_cast
    rw [e]
    ring
  · have h1 := Real.pi_gt_d20
    have h2 := Real.pi_lt_d20
    have e : (degree.make "angle" none none).step = 314159265358979323846264338327950288419716939937511 / 18000000000000000000000000000000000000000000000000000 := by
      decide +kernel
    show |((degree.make "angle" none none).step : ℝ) - _| < _
    rw [e, abs_lt]
    push_cast
    constructor <;> linarith

theorem parsec_mem : parsec.make "distance" (some ⟨none, none, 1⟩) none ∈ Table.units := by
  decide +kernel

/-- C74 for the parsec, which is 648000 / π astronomical units: the calculator uses a number that is
smaller by between 4900 and 5000 kilometres. -/
theorem C74_parsec_violation {prefs : List String} {r : Reg Made}
    (h : build lower Table.info prefs Table.ops = .ok r) : ∃ u : Shipped,
    getUnit lower r "parsec" = .ok (some (.unit u.1)) ∧
    4.9 * 10 ^ 6 < 648000 / Real.pi * 149597870700 - (u.1.step : ℝ) ∧
    648000 / Real.pi * 149597870700 - (u.1.step : ℝ) < 5 * 10 ^ 6 := by
  refine ⟨⟨_, parsec_mem⟩, C68_names h parsec_mem ⟨"parsec".toList, by decide +kernel, rfl⟩, ?_⟩
  have h1 := Real.pi_gt_d20
  have h2 := Real.pi_lt_d20
  have hpi := Real.pi_pos
  have e : (parsec.make "distance" (some ⟨none, none, 1⟩) none).step = 30856775810000000 := by
    decide +kernel
  show _ < _ - ((parsec.make "distance" (some ⟨none, none, 1⟩) none).step : ℝ) ∧
    _ - ((parsec.make "distance" (some ⟨none, none, 1⟩) none).step : ℝ) < _
  rw [e, div_mul_eq_mul_div]
  push_cast
  constructor
  · rw [lt_sub_iff_add_lt, lt_div_iff₀ hpi]
    norm_num at h1 h2 ⊢
    linarith
  · rw [sub_lt_iff_lt_add, div_lt_iff₀ hpi]
    norm_num at h1 h2 ⊢
    linarith

theorem kibibyte_mem : byte.make "data" (some ⟨some "kibi", some "ki", 1024⟩) (some ["iec"]) ∈
    Table.units := by decide +kernel

theorem no_KiB : ∀ u ∈ Table.units, ¬ (∃ m ∈ u.names, lowerText m = lowerText "KiB".toList) ∧
    "KiB".toList ∉ u.symbols := by decide +kernel

theorem no_amb_KiB : ∀ a ∈ shippedAmbs, ¬ ((∃ m ∈ a.names, lower m = lower "KiB") ∨ "KiB" ∈ a.symbols) := by
  decide +kernel

/-- C74 is false of the symbol of the kibibyte: the international `KiB` is not known, `kiB` is. -/
theorem C74_kibi_violation {prefs : List String} {r : Reg Made}
    (h : build lower Table.info prefs Table.ops = .ok r) :
    getUnit lower r "KiB" = .ok none ∧ (∃ w, Means "KiB".toList w ∧ w.value = 8192) ∧
    ∃ u ∈ Table.units, getUnit lower r "kiB" = .ok (some (.unit u)) ∧ u.step = 8192 := by
  refine ⟨?_, ?_, _, kibibyte_mem, C68_symbols h kibibyte_mem (by decide +kernel), by decide +kernel⟩
  · rcases C60_lookup h "KiB" (by
      rw [shipped_ambiguous h]
      exact no_amb_KiB) with ⟨w, _, h2⟩ | ⟨w, _, _, h2⟩ | ⟨h1, _⟩
    · obtain ⟨pre, post, e, hw, _⟩ := h2
      exact absurd (named_iff.1 hw) (no_KiB w (by rw [mem_units, e]; simp)).1
    · obtain ⟨pre, post, e, hw, _⟩ := h2
      obtain ⟨m, hm, e'⟩ := List.mem_map.1 hw
      exact absurd (by rw [← e']; simpa using hm) (no_KiB w (by rw [mem_units, e]; simp)).2
    · exact h1
  · have : worths.any (fun d => d.1.symbols.contains "B" && d.1.prefixes.contains ⟨"kibi", "Ki", 1024⟩
        && decide (d.2.value = 8)) = true := by decide +kernel
    obtain ⟨d, hd, e⟩ := List.any_eq_true.1 this
    simp only [Bool.and_eq_true, List.contains_iff_mem, decide_eq_true_eq] at e
    refine ⟨{ d.2 with value := 1024 * d.2.value }, ⟨d, hd, .inr ⟨_, e.1.2, .inr ⟨"B", e.1.1, ?_⟩, rfl⟩⟩, ?_⟩
    · decide +kernel
    · simp only [e.2]
      norm_num

/-! ### Non-vacuity -/

/-- Real numbers have such powers. -/
theorem powers_real : Powers (fun (x : ℝ) (p : ℚ) => x ^ (p : ℝ)) where
  one p := Real.one_rpow _
  law q hq := by
    have : (0 : ℝ) < (q : ℝ) := by exact_mod_cast hq
    refine ⟨by simp, fun a b => ?_⟩
    simp only [Rat.cast_add]
    exact Real.rpow_add this _ _
  int q hq n := by
    simp only [Rat.cast_intCast]
    exact Real.rpow_intCast _ n

theorem mile_standard : Standard "MILE" (mile.make "distance" none none) :=
  ⟨by decide +kernel, by decide +kernel⟩

theorem km_standard :
    Standard "km" (meter.make "distance" (some ⟨some "kilo", some "k", 1000⟩) none) :=
  ⟨by decide +kernel, by decide +kernel⟩

/-- A mile is 1609.344 metres, and the meanings of the texts are what they should be. -/
example {prefs : List String} {r : Reg Made} (h : build lower Table.info prefs Table.ops = .ok r) :
    ∃ u v : Shipped, getUnit lower r "MILE" = .ok (some (.unit u.1)) ∧
      getUnit lower r "km" = .ok (some (.unit v.1)) ∧ Standard "MILE" u.1 ∧ Standard "km" v.1 ∧
      unitConversion (fun (x : ℝ) (p : ℚ) => x ^ (p : ℝ)) (norm ℝ (fun _ _ => .ok true) (fun _ _ => true)) 1
        (some [(u, 1)]) (some [(v, 1)]) false = .ok (((1609344 / 1000000 : ℚ) : ℝ), some [(v, 1)]) := by
  have hm : mile.make "distance" none none ∈ Table.units := by decide +kernel
  have hk : meter.make "distance" (some ⟨some "kilo", some "k", 1000⟩) none ∈ Table.units := by
    decide +kernel
  exact ⟨⟨_, hm⟩, ⟨_, hk⟩, C68_names h hm ⟨"mile".toList, by decide +kernel, by decide +kernel⟩,
    C68_symbols h hk (by decide +kernel), mile_standard, km_standard,
    convert_one powers_real hm hk (by decide +kernel) (by decide +kernel) (by decide +kernel)⟩

theorem hour_mem : hour.make "time" none none ∈ Table.units := by decide +kernel

theorem mile_mem : mile.make "distance" none none ∈ Table.units := by decide +kernel

theorem knot_mem : knot.make "velocity" none none ∈ Table.units := by decide +kernel

/-- Miles per hour convert to knots, and the hypotheses of the theorem on products are met. -/
example : Written [("mile", 1), ("hour", -1)] [(⟨_, mile_mem⟩, 1), (⟨_, hour_mem⟩, -1)] ∧
    Written [("kn", 1)] [(⟨_, knot_mem⟩, 1)] ∧
    ∃ w, unitConversion (fun (x : ℝ) (p : ℚ) => x ^ (p : ℝ))
      (norm ℝ (fun _ _ => .ok true) (fun _ _ => true)) 1
      (some [(⟨_, mile_mem⟩, 1), (⟨_, hour_mem⟩, -1)]) (some [(⟨_, knot_mem⟩, 1)]) false = .ok w := by
  have s1 : UnitText "mile" (mile.make "distance" none none) ∧
      Standard "mile" (mile.make "distance" none none) :=
    ⟨.inl (by decide +kernel), by decide +kernel, by decide +kernel⟩
  have s2 : UnitText "hour" (hour.make "time" none none) ∧
      Standard "hour" (hour.make "time" none none) :=
    ⟨.inl (by decide +kernel), by decide +kernel, by decide +kernel⟩
  have s3 : UnitText "kn" (knot.make "velocity" none none) ∧
      Standard "kn" (knot.make "velocity" none none) :=
    ⟨.inr (by decide +kernel), by decide +kernel, by decide +kernel⟩
  refine ⟨.cons ⟨s1.1, s1.2, by norm_num⟩ (.cons ⟨s2.1, s2.2, by norm_num⟩ .nil),
    .cons ⟨s3.1, s3.2, by norm_num⟩ .nil, ?_⟩
  have hd : ∀ d, (mile.make "distance" none none).power d - (hour.make "time" none none).power d
      = (knot.make "velocity" none none).power d := by
    intro d
    by_cases hq : d ∈ quantities
    · revert d
      decide +kernel
    · rw [power_other mile_mem hq, power_other hour_mem hq, power_other knot_mem hq]
      norm_num
  refine C43_same_dimension_partial (C74_registry powers_real).1 ?_ (steady_single _) ?_ ?_ ?_ 1
  · apply steady_of_nodup
    have e : contributions (norm ℝ (fun _ _ => .ok true) (fun _ _ => true))
        [((⟨_, mile_mem⟩ : Shipped), (1 : ℚ)), (⟨_, hour_mem⟩, -1)] = [("distance", 1), ("time", -1)] := by
      unfold contributions
      have r1 : relOf "distance" = none := by decide +kernel
      have r2 : relOf "time" = none := by decide +kernel
      have e1 : ((norm ℝ (fun _ _ => .ok true) (fun _ _ => true)).info (⟨_, mile_mem⟩ : Shipped)).dim
        = "distance" := rfl
      have e2 : ((norm ℝ (fun _ _ => .ok true) (fun _ _ => true)).info (⟨_, hour_mem⟩ : Shipped)).dim
        = "time" := rfl
      simp only [List.flatMap_cons, List.flatMap_nil, e1, e2, rel_norm, r1, r2, List.append_nil,
        List.cons_append, List.nil_append]
    rw [e]
    decide
  · intro o ho
    rcases List.mem_cons.1 ho with rfl | ho
    · exact .inr rfl
    · rw [List.mem_singleton] at ho
      subst ho
      exact .inr rfl
  · intro o ho
    rw [List.mem_singleton] at ho
    subst ho
    exact .inr rfl
  · intro d
    rw [dimOf_single]
    unfold dimOf
    simp only [List.map_cons, List.map_nil, List.sum_cons, List.sum_nil, unitDim_norm, one_mul,
      neg_one_mul, add_zero]
    rw [← sub_eq_add_neg]
    exact hd d

end MC.Props
