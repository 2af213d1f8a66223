import Mathlib.Algebra.Order.Floor.Ring
import Mathlib.Tactic.FieldSimp
import Mathlib.Tactic.Ring
import Mathlib.Tactic.Linarith
import Verif.Model.Format
import Verif.Spec.Format
import Verif.Spec.Units

/-! # `format`: the loop divides the quantity -/

namespace MC.Unit.Format
open MC.Spec.Format MC.Unit.Spec

variable {U D K : Type} [DecidableEq U] [DecidableEq D]
variable [Field K] [LinearOrder K] [IsStrictOrderedRing K] [FloorRing K] {pw : K → ℚ → K} {N : Norm U D K} {F : Face U}

/-- The unit is proportional to the base unit, with a positive size, and the powers 1 and -1 of the
size are as they should be. -/
structure Sound (pw : K → ℚ → K) (i : Info D K) : Prop where
  kind : i.kind = .scale
  pos : 0 < i.scale
  one : pw i.scale 1 = i.scale
  inv : pw i.scale (-1) = i.scale⁻¹

theorem convert_from {i : Info D K} (h : Sound pw i) (x : K) :
    convert pw i x (-1) false = .ok (x * i.scale) := by
  unfold convert; rw [h.kind]; simp [h.inv]

theorem convert_to {i : Info D K} (h : Sound pw i) (x : K) :
    convert pw i x 1 false = .ok (x / i.scale) := by
  unfold convert; rw [h.kind]; simp [h.one]

theorem sortKey_eq {u : U} (h : Sound pw (N.info u)) : sortKey pw N u = (N.info u).scale := by
  unfold sortKey; rw [convert_from h]; simp

/-- The size of a unit. -/
def sz (N : Norm U D K) (u : U) : K := (N.info u).scale

theorem firstOf_spec {last : Option U} {q : K} {L : List U} (hs : ∀ u ∈ L, Sound pw (N.info u))
    (hsort : L.Pairwise (fun a b => sz N b ≤ sz N a)) (hex : ∃ e ∈ L, 1 ≤ q / sz N e ∨ some e = last) :
    ∃ p, firstOf pw N last q L = .ok p ∧ p.2 ∈ L ∧ p.1 * sz N p.2 = q ∧ (1 ≤ p.1 ∨ some p.2 = last) ∧
      ∀ w ∈ L, sz N p.2 < sz N w → q < sz N w := by
  induction L with
  | nil => obtain ⟨e, he, _⟩ := hex; cases he
  | cons s ss ih =>
    have h0 := hs s List.mem_cons_self
    have hpos : 0 < sz N s := h0.pos
    unfold firstOf
    rw [convert_to h0]
    simp only [bind, Except.bind]
    by_cases h : 1 ≤ q / (N.info s).scale ∨ some s = last
    · rw [if_pos h]
      refine ⟨(q / (N.info s).scale, s), rfl, List.mem_cons_self, ?_, h, ?_⟩
      · exact div_mul_cancel₀ _ hpos.ne'
      · intro w hw hlt
        rcases List.mem_cons.1 hw with rfl | hw
        · exact absurd hlt (lt_irrefl _)
        · exact absurd hlt (not_lt.2 ((List.pairwise_cons.1 hsort).1 w hw))
    · rw [if_neg h]
      push Not at h
      obtain ⟨p, h1, h2, h3, h4, h5⟩ := ih (fun u hu => hs u (List.mem_cons_of_mem _ hu))
        (List.pairwise_cons.1 hsort).2 (by
          obtain ⟨e, he, hc⟩ := hex
          rcases List.mem_cons.1 he with rfl | he
          · exact absurd hc (by push Not; exact h)
          · exact ⟨e, he, hc⟩)
      refine ⟨p, h1, List.mem_cons_of_mem _ h2, h3, h4, ?_⟩
      intro w hw hlt
      rcases List.mem_cons.1 hw with rfl | hw
      · exact (div_lt_one hpos).1 h.1
      · exact h5 w hw hlt

theorem firstAtLeastOne_spec {sys : List U} (hs : ∀ u ∈ sys, Sound pw (N.info u))
    (hsort : sys.Pairwise (fun a b => sz N b ≤ sz N a)) {b : U} (hb : b ∈ sys) {k : K}
    (hk : 1 ≤ k ∨ ∃ e, sys.getLast? = some e ∧ F.kind e = F.kind b) :
    ∃ p, firstAtLeastOne pw N F sys k b = .ok p ∧ WrittenAs (sz N) F.kind sys (k, b) p := by
  unfold firstAtLeastOne
  rw [convert_from (hs b hb)]
  simp only [bind, Except.bind]
  have hpos : 0 < sz N b := (hs b hb).pos
  obtain ⟨p, h1, h2, h3, h4, h5⟩ := firstOf_spec (pw := pw) (last := sys.getLast?)
    (q := k * (N.info b).scale) (L := sys.filter (fun s => F.kind s = F.kind b))
    (fun u hu => hs u (List.mem_filter.1 hu).1) (hsort.filter _) (by
      rcases hk with hk | ⟨e, he, hke⟩
      · refine ⟨b, List.mem_filter.2 ⟨hb, by simp⟩, .inl ?_⟩
        have : k * (N.info b).scale / sz N b = k := mul_div_cancel_right₀ _ hpos.ne'
        rw [this]; exact hk
      · exact ⟨e, List.mem_filter.2 ⟨List.mem_of_getLast? he, by simpa using hke⟩, .inr he.symm⟩)
  have h2' := List.mem_filter.1 h2
  refine ⟨p, h1, h2'.1, by simpa using h2'.2, h3, ?_, ?_⟩
  · rcases h4 with h4 | h4
    · exact .inl h4
    · refine .inr (fun w hw => ?_)
      obtain ⟨l, hl⟩ : ∃ l, sys = l ++ [p.2] := by
        obtain ⟨l, hl⟩ := List.getLast?_eq_some_iff.1 h4.symm
        exact ⟨l, hl⟩
      rw [hl] at hw hsort
      rcases List.mem_append.1 hw with hw | hw
      · exact (List.pairwise_append.1 hsort).2.2 w hw p.2 (by simp)
      · rw [List.mem_singleton.1 hw]
  · intro w hw hkw hlt
    exact h5 w (List.mem_filter.2 ⟨hw, by simpa using hkw⟩) hlt

theorem written_zero {sys : List U} {b p : K × U} (hp : p.2 ∈ sys → 0 < sz N p.2) (hb : 0 < sz N b.2)
    (h : WrittenAs (sz N) F.kind sys b p) : p.1 = 0 ↔ b.1 = 0 := by
  have h1 := h.2.2.1
  have h2 := hp h.1
  constructor
  · intro h0; rw [h0, zero_mul] at h1
    rcases mul_eq_zero.1 h1.symm with h3 | h3
    · exact h3
    · exact absurd h3 hb.ne'
  · intro h0; rw [h0, zero_mul] at h1
    rcases mul_eq_zero.1 h1 with h3 | h3
    · exact h3
    · exact absurd h3 h2.ne'

theorem addPart_forall {sys : List U} {b p : K × U} (hp : p.2 ∈ sys → 0 < sz N p.2) (hb : 0 < sz N b.2)
    (h : WrittenAs (sz N) F.kind sys b p) {as ps : List (K × U)}
    (hr : List.Forall₂ (WrittenAs (sz N) F.kind sys) (as.filter (fun a => a.1 ≠ 0)) ps) :
    List.Forall₂ (WrittenAs (sz N) F.kind sys) ((b :: as).filter (fun a => a.1 ≠ 0)) (addPart p ps) := by
  have hz := written_zero hp hb h
  unfold addPart
  by_cases h0 : b.1 = 0
  · rw [if_neg (by simpa using hz.2 h0), List.filter_cons_of_neg (by simpa using h0)]; exact hr
  · rw [if_pos (by rw [ne_eq, hz]; exact h0), List.filter_cons_of_pos (by simpa using h0)]
    exact .cons h hr

/-- One more unit in front. -/
theorem divides_cons {s : U} {k q : K} {bases : List U} {as : List (K × U)} (hne : bases ≠ [])
    (hd : Divides (sz N) bases (q - k * sz N s) as) (hw : ∃ n : ℕ, k = (n : K))
    (hpos : 0 ≤ q → 0 ≤ q - k * sz N s ∧ q - k * sz N s < sz N s) (hneg : q < 0 → k = 0) :
    Divides (sz N) (s :: bases) q ((k, s) :: as) where
  units := by simp [hd.units]
  all := by
    have := hd.all
    unfold together at this ⊢
    simp only [List.map_cons, List.sum_cons, this]; ring
  whole := by
    intro pre b post he hp
    cases pre with
    | nil => cases he; exact hw
    | cons x pre => cases he; exact hd.whole pre b post rfl hp
  less := by
    intro pre b post he hp hq
    cases pre with
    | nil => cases he; rw [hd.all]; exact hpos hq
    | cons x pre => cases he; exact hd.less pre b post rfl hp (hpos hq).1
  negative := by
    intro pre b post he hp hq
    cases pre with
    | nil => cases he; exact hneg hq
    | cons x pre =>
      cases he
      exact hd.negative pre b post rfl hp (by rw [hneg hq]; simpa using hq)

theorem loop_spec {sys : List U} (hs : ∀ u ∈ sys, Sound pw (N.info u))
    (hsort : sys.Pairwise (fun a b => sz N b ≤ sz N a)) {last : U} 
    (hlast : ∃ e, sys.getLast? = some e ∧ F.kind e = F.kind last)
    {bases : List U} (hsub : ∀ b ∈ bases, b ∈ sys) (hnd : bases.Nodup) (hl : bases.getLast? = some last)
    {unit : U} (hu : Sound pw (N.info unit)) (num : K) :
    ∃ parts, loop pw N F sys (some last) bases num unit = .ok parts ∧
      Breakdown (sz N) F.kind sys bases (num * sz N unit) parts := by
  induction bases generalizing num unit with
  | nil => cases hl
  | cons s ss ih =>
    have hs0 := hs s (hsub s List.mem_cons_self)
    have hpos : 0 < sz N s := hs0.pos
    have hsys : ∀ p : K × U, p.2 ∈ sys → 0 < sz N p.2 := fun p hp => (hs p.2 hp).pos
    unfold loop
    rw [convert_from hu]
    simp only [bind, Except.bind, convert_to hs0]
    rw [show (N.info unit).scale = sz N unit from rfl, show (N.info s).scale = sz N s from rfl]
    generalize num * sz N unit = q
    have hq : q / sz N s * sz N s = q := div_mul_cancel₀ _ hpos.ne'
    cases ss with
    | nil =>
      have : s = last := by simpa using hl
      subst this
      rw [if_pos (.inr rfl), if_pos rfl]
      obtain ⟨p, h1, h2⟩ := firstAtLeastOne_spec (F := F) hs hsort (hsub s List.mem_cons_self)
        (k := q / sz N s) (.inr hlast)
      rw [h1]
      refine ⟨_, rfl, [(q / sz N s, s)], ?_, addPart_forall (hsys p) hpos h2 .nil⟩
      refine ⟨rfl, by simp [together, hq], ?_, ?_, ?_⟩ <;>
      · intro pre b post he hp
        rcases pre with _ | ⟨x, _ | ⟨y, pre⟩⟩
        · cases he; exact absurd rfl hp
        · cases he
        · cases he
    | cons t ss =>
      have hne : s ≠ last := by
        rintro rfl
        rw [List.getLast?_cons_cons] at hl
        exact (List.nodup_cons.1 hnd).1 (List.mem_of_getLast? hl)
      have hne' : ¬ some s = some last := by simpa using hne
      have IH := fun (u : U) (hu : Sound pw (N.info u)) (n : K) => ih (fun b hb => hsub b (List.mem_cons_of_mem _ hb))
        (List.nodup_cons.1 hnd).2 (by rw [List.getLast?_cons_cons] at hl; exact hl) (unit := u) hu n
      rw [if_neg hne']
      by_cases h1 : 1 ≤ q / sz N s
      · rw [if_pos (.inl h1)]
        have hk : (1 : K) ≤ ((⌊q / sz N s⌋ : ℤ) : K) := by
          have : (1 : ℤ) ≤ ⌊q / sz N s⌋ := Int.le_floor.2 (by simpa using h1)
          exact_mod_cast this
        obtain ⟨p, h2, h3⟩ := firstAtLeastOne_spec (F := F) hs hsort (hsub s List.mem_cons_self)
          (k := ((⌊q / sz N s⌋ : ℤ) : K)) (.inl hk)
        simp only [h2]
        have hp := hs p.2 h3.1
        have hpp : 0 < sz N p.2 := hp.pos
        have hval : p.1 * sz N p.2 = ((⌊q / sz N s⌋ : ℤ) : K) * sz N s := h3.2.2.1
        have hfl := Int.floor_le (q / sz N s)
        have hlt := Int.lt_floor_add_one (q / sz N s)
        have hdiv : ∀ as, Divides (sz N) (t :: ss) (q - ((⌊q / sz N s⌋ : ℤ) : K) * sz N s) as →
            Divides (sz N) (s :: t :: ss) q ((((⌊q / sz N s⌋ : ℤ) : K), s) :: as) := by
          intro as hd
          refine divides_cons (by simp) hd ?_ ?_ ?_
          · refine ⟨⌊q / sz N s⌋.toNat, ?_⟩
            have : 0 ≤ ⌊q / sz N s⌋ := by
              have : (1 : ℤ) ≤ ⌊q / sz N s⌋ := by exact_mod_cast hk
              omega
            rw [← Int.cast_natCast, Int.toNat_of_nonneg this]
          · intro _
            constructor
            · have := mul_le_mul_of_nonneg_right hfl hpos.le
              rw [hq] at this; linarith
            · have := mul_lt_mul_of_pos_right hlt hpos
              rw [hq] at this; linarith
          · intro hn
            have := (one_le_div hpos).1 h1
            linarith
        by_cases hw : p.2 = s
        · rw [if_pos hw]
          obtain ⟨ps, h4, as, h5, h6⟩ := IH s hs0 (q / sz N s - p.1)
          rw [h4]
          refine ⟨_, rfl, _, hdiv as ?_, addPart_forall (hsys p) hpos h3 h6⟩
          rw [hw] at hval
          rw [sub_mul, hq, hval] at h5
          exact h5
        · rw [if_neg hw]
          simp only [convert_from hs0, convert_to hp]
          obtain ⟨ps, h4, as, h5, h6⟩ := IH p.2 hp (q / sz N s * (N.info s).scale / (N.info p.2).scale - p.1)
          rw [h4]
          refine ⟨_, rfl, _, hdiv as ?_, addPart_forall (hsys p) hpos h3 h6⟩
          rw [show (N.info s).scale = sz N s from rfl, show (N.info p.2).scale = sz N p.2 from rfl,
            hq, sub_mul, div_mul_cancel₀ _ hpp.ne', hval] at h5
          exact h5
      · rw [if_neg (by push Not; exact ⟨not_le.1 h1, hne'⟩)]
        obtain ⟨ps, h4, as, h5, h6⟩ := IH s hs0 (q / sz N s)
        rw [h4]
        refine ⟨_, rfl, (0, s) :: as, ?_, ?_⟩
        · rw [hq] at h5
          refine divides_cons (by simp) (by simpa using h5) ⟨0, by simp⟩ ?_ (fun _ => rfl)
          intro h0
          have := (div_lt_one hpos).1 (not_le.1 h1)
          simpa using ⟨h0, this⟩
        · rw [List.filter_cons_of_neg (by simp)]; exact h6

end MC.Unit.Format
