import Verif.Lemmas.Ends
import Mathlib.Logic.Relation

/-! # The simplification of units comes to an end, as far as it does -/

set_option linter.unusedSectionVars false

namespace MC.Unit
open Spec

section
variable {U D K : Type} [DecidableEq U] [DecidableEq D] [Field K] [DecidableEq K] {pw : K → ℚ → K} {N : Norm U D K}

/-- One turn of the loop (`unitnormaliser.py:201-258`). -/
def turn (pw : K → ℚ → K) (N : Norm U D K) (s : K × PL U) : Except Raise (Option (K × PL U)) :=
  tryDims pw N (s.2.flatMap (fun u => (N.info u.1).systems)) s.1 s.2 ((simplifyJobs N).zip
    (findUnits ((simplifyJobs N).map (fun j => multiply j.2 (normDim N j.1))) (subunits N s.2)))

theorem closest_from {g : PL U} {power m : ℚ} {v : K} {systems : List String} {cs : List (Cand U)} {best : Option (Cand U × K)}
    {c : Cand U} {w : K} (h : closest pw N g power m v systems cs best = .ok (some (c, w))) :
    c ∈ cs ∨ ∃ w', best = some (c, w') := by
  induction cs generalizing best with
  | nil =>
    simp only [closest] at h
    cases h
    exact .inr ⟨w, rfl⟩
  | cons a cs ih =>
    have step : ∀ {b : Option (Cand U × K)}, (∀ w', b = some (c, w') → c = a ∨ ∃ w', best = some (c, w')) →
        closest pw N g power m v systems cs b = .ok (some (c, w)) → c ∈ a :: cs ∨ ∃ w', best = some (c, w') := by
      intro b hb h
      rcases ih h with h | ⟨w', h⟩
      · exact .inl (by simp [h])
      · rcases hb w' h with rfl | h
        · exact .inl (by simp)
        · exact .inr h
    unfold closest at h
    split at h
    · exact step (fun w' h => .inr ⟨w', h⟩) h
    · split at h
      · split at h
        · exact step (fun w' h => .inl (by cases h; rfl)) h
        · refine step (fun w' h => ?_) h
          split at h
          · cases h; exact .inl rfl
          · exact .inr ⟨w', h⟩
        · cases h
      · simp only [bind, Except.bind] at h
        split at h
        · cases h
        · split at h
          · exact step (fun w' h => .inl (by cases h; rfl)) h
          · split at h
            · cases h
            · refine step (fun w' h => ?_) h
              split at h
              · cases h; exact .inl rfl
              · exact .inr ⟨w', h⟩

theorem tryGroups_inv {d : D} {power : ℚ} {systems : List String} {v : K} {l : PL U} {gs : List (PL U)} {s : K × PL U}
    (h : tryGroups pw N d power systems v l gs = .ok (some s)) :
    ∃ g ∈ gs, ∃ m c, multPower l g = .ok m ∧ (1 < g.length ∨ soleNegative l power m = true) ∧ c ∈ candidates N d ∧
      s.2 = addAll c.list (power * m) (without (g.map (fun u => (u.1, u.2 * m))) l) := by
  induction gs with
  | nil => simp [tryGroups] at h
  | cons g gs ih =>
    have rest : tryGroups pw N d power systems v l gs = .ok (some s) →
        ∃ g' ∈ g :: gs, ∃ m c, multPower l g' = .ok m ∧ (1 < g'.length ∨ soleNegative l power m = true) ∧ c ∈ candidates N d ∧
          s.2 = addAll c.list (power * m) (without (g'.map (fun u => (u.1, u.2 * m))) l) := by
      intro h
      obtain ⟨g', hg', r⟩ := ih h
      exact ⟨g', by simp [hg'], r⟩
    unfold tryGroups at h
    simp only [bind, Except.bind] at h
    split at h
    · cases h
    · rename_i m hm
      split at h
      · rename_i hlen
        split at h
        · cases h
        · rename_i r hc
          cases r with
          | none => exact rest h
          | some cw =>
            obtain ⟨c, w⟩ := cw
            simp only at h
            split at h
            · cases h
            · rename_i s1 h1
              split at h
              · cases h
              · cases h
                refine ⟨g, by simp, m, c, hm, by simpa using hlen, ?_, ?_⟩
                · rcases closest_from hc with h | ⟨_, h⟩
                  · exact h
                  · cases h
                · simp only
                  rw [removeEach_without h1]
      · exact rest h

theorem tryDims_inv {systems : List String} {v : K} {l : PL U} {es : List ((D × ℚ) × List (PL U))} {s : K × PL U}
    (h : tryDims pw N systems v l es = .ok (some s)) :
    ∃ e ∈ es, ∃ g ∈ e.2, ∃ m c, multPower l g = .ok m ∧ (1 < g.length ∨ soleNegative l e.1.2 m = true) ∧ c ∈ candidates N e.1.1 ∧
      s.2 = addAll c.list (e.1.2 * m) (without (g.map (fun u => (u.1, u.2 * m))) l) := by
  induction es with
  | nil => simp [tryDims] at h
  | cons e es ih =>
    unfold tryDims at h
    simp only [bind, Except.bind] at h
    split at h
    · cases h
    · rename_i r hr
      cases r with
      | none =>
        obtain ⟨e', he', r⟩ := ih h
        exact ⟨e', by simp [he'], r⟩
      | some s' =>
        cases h
        obtain ⟨g, hg, r⟩ := tryGroups_inv hr
        exact ⟨e, by simp, g, hg, r⟩

/-- What a turn does to the units. -/
theorem turn_inv (hR : GoodRel N) {s s' : K × PL U} (h : turn pw N s = .ok (some s')) :
    ∃ (j : D × ℚ) (g : PL U) (m : ℚ) (c : Cand U) (cs : List ℚ), (j.2 = 1 ∨ j.2 = -1) ∧ Valid ((s.2.map (·.2)).map bounds) cs ∧ g = pick (subunits N s.2) cs ∧
      multPower s.2 g = .ok m ∧ (1 < g.length ∨ soleNegative s.2 j.2 m = true) ∧ c ∈ candidates N j.1 ∧
      s'.2 = addAll c.list (j.2 * m) (without (g.map (fun u => (u.1, u.2 * m))) s.2) := by
  obtain ⟨e, he, g, hg, m, c, h1, h2, h3, h4⟩ := tryDims_inv h
  obtain ⟨i, hi⟩ := List.getElem?_of_mem he
  rw [List.getElem?_zip_eq_some] at hi
  obtain ⟨hj, hf⟩ := hi
  have hjob : e.1.2 = 1 ∨ e.1.2 = -1 := by
    have := List.mem_of_getElem? hj
    unfold simplifyJobs at this
    rw [List.mem_flatMap] at this
    obtain ⟨x, _, hx⟩ := this
    simp only [List.mem_cons, List.not_mem_nil, or_false] at hx
    rcases hx with h | h <;> rw [h] <;> simp
  have hgoal := multiply_good (normDim_good hR e.1.1) (p := e.1.2) (by rcases hjob with h | h <;> rw [h] <;> norm_num)
  obtain ⟨fl, h5, h6, -⟩ := findUnits_get (N := N) (goals := (simplifyJobs N).map (fun j => multiply j.2 (normDim N j.1)))
    (j := i) (g := multiply e.1.2 (normDim N e.1.1)) (by rw [List.getElem?_map, hj]; rfl) hgoal.1.1 hgoal.2 hgoal.1.2 s.2
  rw [hf] at h5
  cases h5
  obtain ⟨cs, h7, h8, -⟩ := (h6 g).1 hg
  exact ⟨e.1, g, m, c, cs, hjob, h7, h8, h1, h2, h3, h4⟩

theorem multPower_le {l g : PL U} {m : ℚ} (h : multPower l g = .ok m) : ∀ r ∈ g, ∃ p, find r.1 l = some p ∧ m ≤ p / r.2 := by
  induction g generalizing m with
  | nil => simp
  | cons r g ih =>
    unfold multPower at h
    split at h
    · cases h
    · rename_i p hp
      cases g with
      | nil =>
        cases h
        intro r' hr'
        rw [List.mem_singleton] at hr'
        subst hr'
        exact ⟨p, hp, le_refl _⟩
      | cons a g =>
        simp only [bind, Except.bind, pure, Except.pure] at h
        split at h
        · cases h
        · rename_i m' hm'
          cases h
          intro r' hr'
          rcases List.mem_cons.1 hr' with rfl | hr'
          · exact ⟨p, hp, min_le_left _ _⟩
          · obtain ⟨p', h1, h2⟩ := ih hm' r' hr'
            exact ⟨p', h1, (min_le_right _ _).trans h2⟩

theorem multPower_ge {l g : PL U} {m b : ℚ} (h : multPower l g = .ok m)
    (hb : ∀ r ∈ g, ∀ p, find r.1 l = some p → b ≤ p / r.2) : b ≤ m := by
  induction g generalizing m with
  | nil => simp [multPower] at h
  | cons r g ih =>
    unfold multPower at h
    split at h
    · cases h
    · rename_i p hp
      cases g with
      | nil =>
        cases h
        exact hb r (by simp) p hp
      | cons a g =>
        simp only [bind, Except.bind, pure, Except.pure] at h
        split at h
        · cases h
        · rename_i m' hm'
          cases h
          exact le_min (hb r (by simp) p hp) (ih hm' (fun r hr => hb r (by simp [hr])))

/-- The sizes of the powers, added up. -/
def sizes (l : PL U) : ℚ := pot (fun _ p => |p|) l

theorem sizes_nonneg (l : PL U) : 0 ≤ sizes l :=
  List.sum_nonneg (by
    intro x hx
    obtain ⟨o, _, rfl⟩ := List.mem_map.1 hx
    exact abs_nonneg _)

/-- The members of a group of units whose negative powers are whole. -/
theorem whole_member {p c : ℚ} (h : Ok (bounds p) c) (hc : c ≠ 0) (hw : p < 0 → ∃ z : ℤ, p = z) :
    1 ≤ |c| ∧ 1 ≤ p / c ∧ ∀ m, 0 ≤ m → m ≤ p / c → |p + 1 * -(c * m)| ≤ |p| - |c| * m := by
  rcases ok_bounds h hc with ⟨h1, h2, h3, k, hk⟩ | ⟨h1, h2, k, hk⟩
  · refine ⟨?_, ?_, ?_⟩
    · obtain ⟨z, hz⟩ := hw h1
      have hzk : c = ((z + k : ℤ) : ℚ) := by rw [hk, hz]; push_cast; rfl
      rw [hzk, ← Int.cast_abs]
      have : z + (k : ℤ) ≠ 0 := by
        intro e
        rw [e] at hzk
        exact hc (by simpa using hzk)
      exact_mod_cast Int.one_le_abs this
    · rw [le_div_iff_of_neg h3]; linarith
    · intro m hm0 hm
      rw [le_div_iff_of_neg h3] at hm
      rw [abs_of_neg h1, abs_of_neg h3, abs_of_nonpos (by nlinarith)]
      linarith
  · refine ⟨?_, ?_, ?_⟩
    · rw [hk, Nat.abs_cast]
      have : k ≠ 0 := by rintro rfl; simp [hk] at hc
      exact_mod_cast Nat.one_le_iff_ne_zero.2 this
    · rw [le_div_iff₀ h1]; linarith
    · intro m hm0 hm
      rw [le_div_iff₀ h1] at hm
      rw [abs_of_nonneg (by linarith), abs_of_pos h1, abs_of_nonneg (by nlinarith)]
      linarith

theorem sum_ge_length {g : PL U} {δ : U × ℚ → ℚ} {m : ℚ} (h : ∀ r ∈ g, m ≤ δ r) : (g.length : ℚ) * m ≤ (g.map δ).sum := by
  induction g with
  | nil => simp
  | cons r g ih =>
    have h1 := h r (by simp)
    have h2 := ih (fun r hr => h r (by simp [hr]))
    simp only [List.length_cons, List.map_cons, List.sum_cons]
    push_cast
    linarith

/-- The negative powers are whole numbers. -/
def WholeBelow (l : PL U) : Prop := ∀ o ∈ l, o.2 < 0 → ∃ z : ℤ, o.2 = z

/-- A turn that puts one unit in the place of others makes the powers smaller, or turns a single unit below over. -/
theorem turn_drop (hR : GoodRel N) (hM : ∀ d, N.multiunits d = []) {s s' : K × PL U} (hn : (s.2.map (·.1)).Nodup)
    (hw : WholeBelow s.2) (h : turn pw N s = .ok (some s')) :
    (s'.2.map (·.1)).Nodup ∧ (sizes s'.2 ≤ sizes s.2 - 1 ∨
      ∃ o u, s.2 = [o] ∧ o.2 < 0 ∧ s'.2 = [(u, -o.2)]) := by
  obtain ⟨j, g, m, c, cs, hj, hv, hg, hm, hlen, hc, hs⟩ := turn_inv hR h
  have hu : ∃ u, c = .one u := by
    unfold candidates at hc
    rw [hM] at hc
    simp only [List.map_nil, List.append_nil, List.mem_flatMap, List.mem_map] at hc
    obtain ⟨_, _, u, _, rfl⟩ := hc
    exact ⟨u, rfl⟩
  obtain ⟨u, rfl⟩ := hu
  have hgn : (g.map (·.1)).Nodup := by
    rw [hg]
    exact (pick_keys s.2 cs).nodup hn
  have hmem : ∀ r ∈ g, ∃ p, find r.1 s.2 = some p ∧ 1 ≤ |r.2| ∧ 1 ≤ p / r.2 ∧
      ∀ m, 0 ≤ m → m ≤ p / r.2 → |p + 1 * -(r.2 * m)| ≤ |p| - |r.2| * m := by
    intro r hr
    rw [hg] at hr
    obtain ⟨h1, p, h2, h3⟩ := pick_facts hv r hr
    obtain ⟨h4, h5, h6⟩ := whole_member h3 h1 (fun hp => hw _ h2 hp)
    exact ⟨p, find_of_mem hn h2, h4, h5, h6⟩
  have hm1 : 1 ≤ m := by
    refine multPower_ge hm ?_
    intro r hr p hp
    obtain ⟨p', h1, -, h2, -⟩ := hmem r hr
    rw [h1] at hp
    cases hp
    exact h2
  have hs' : s'.2 = add u (j.2 * m) (without (g.map (fun u => (u.1, u.2 * m))) s.2) := by
    simpa [addAll, Cand.list] using hs
  rw [hs']
  have hn1 := nodup_without (g := g.map (fun u => (u.1, u.2 * m))) hn
  refine ⟨nodup_add hn1, ?_⟩
  have hwo := pot_without (f := fun _ p => |p|) (fun _ => abs_zero) (fun r => |r.2|) (g := g.map (fun u => (u.1, u.2 * m)))
    (l := s.2) (by rw [List.map_map]; exact hgn) (by
    intro r' hr'
    obtain ⟨r, hr, rfl⟩ := List.mem_map.1 hr'
    obtain ⟨p, h1, -, -, h3⟩ := hmem r hr
    obtain ⟨p', h4, h5⟩ := multPower_le hm r hr
    rw [h1] at h4
    cases h4
    have := h3 m (by linarith) h5
    simp only [powAt, h1, Option.getD_some]
    rw [abs_mul, abs_of_nonneg (show (0 : ℚ) ≤ m by linarith)]
    exact this)
  have hsum : (g.length : ℚ) * m ≤ ((g.map (fun u => (u.1, u.2 * m))).map (fun r => |r.2|)).sum := by
    rw [List.map_map]
    refine sum_ge_length ?_
    intro r hr
    obtain ⟨p, -, h2, -⟩ := hmem r hr
    simp only [Function.comp]
    rw [abs_mul, abs_of_nonneg (show (0 : ℚ) ≤ m by linarith)]
    nlinarith
  have hadd : sizes (add u (j.2 * m) (without (g.map (fun u => (u.1, u.2 * m))) s.2)) ≤
      sizes (without (g.map (fun u => (u.1, u.2 * m))) s.2) + m := by
    unfold sizes
    rw [pot_add (f := fun _ p => |p|) (k := u) (by simp)]
    have h1 := abs_add_le (powAt u (without (g.map (fun u => (u.1, u.2 * m))) s.2)) (j.2 * m)
    have h2 : |j.2 * m| = m := by
      rw [abs_mul, abs_of_nonneg (show (0 : ℚ) ≤ m by linarith)]
      rcases hj with h | h <;> rw [h] <;> simp
    rw [h2] at h1
    linarith
  by_cases hlong : 1 < g.length
  · left
    have h2 : (2 : ℚ) ≤ g.length := by exact_mod_cast hlong
    have : 2 * m ≤ g.length * m := by nlinarith
    unfold sizes at hadd ⊢
    linarith
  · right
    have hso := hlen.resolve_left hlong
    obtain ⟨v, l⟩ := s
    unfold soleNegative at hso
    simp only at hso hm hmem hg hv
    split at hso
    · rename_i o
      simp only [Bool.and_eq_true, decide_eq_true_eq] at hso
      refine ⟨o, u, rfl, hso.1, ?_⟩
      have hg1 : ∃ q, g = [(o.1, q)] ∧ q ≠ 0 := by
        have hk := pick_keys (D := D) (N := N) [o] cs
        rw [← hg] at hk
        match g, hlong, hm, hk, hmem with
        | [], _, hm, _, _ => simp [multPower] at hm
        | [r], _, _, hk, hmem =>
          have : r.1 = o.1 := by simpa using hk
          refine ⟨r.2, by rw [← this], ?_⟩
          obtain ⟨_, _, h, _⟩ := hmem r (by simp)
          intro e
          rw [e] at h
          norm_num at h
        | _ :: _ :: _, h, _, _, _ => exact absurd (by simp) h
      obtain ⟨q, rfl, hq⟩ := hg1
      have hmq : m = o.2 / q := by
        simp only [multPower, find_cons, if_true] at hm
        cases hm
        rfl
      have hzero : without [(o.1, q * m)] [o] = [] := by
        have : q * m = o.2 := by rw [hmq]; field_simp
        simp [without, add, find_cons, bump, this]
      simp only [List.map_cons, List.map_nil]
      rw [hzero, hso.2]
      simp [add, find]
    · cases hso

/-- A single unit that is not below the line stays. -/
theorem turn_sole (hR : GoodRel N) {s s' : K × PL U} {o : U × ℚ} (hl : s.2 = [o]) (ho : 0 ≤ o.2)
    (h : turn pw N s = .ok (some s')) : False := by
  obtain ⟨j, g, m, c, cs, hj, hv, hg, hm, hlen, hc, hs⟩ := turn_inv hR h
  rcases hlen with h | h
  · have hk := (pick_keys (N := N) s.2 cs).length_le
    rw [← hg, hl] at hk
    simp at hk
    omega
  · rw [hl] at h
    simp [soleNegative, not_lt.2 ho] at h

theorem loop_turn (n : ℕ) (s : K × PL U) : simplifyLoop pw N (n + 1) s.1 s.2 =
    match turn pw N s with
    | .error e => some (.error e)
    | .ok none => some (.ok s)
    | .ok (some s') => simplifyLoop pw N n s'.1 s'.2 := rfl

theorem loop_settles (hR : GoodRel N) (hM : ∀ d, N.multiunits d = []) (m : ℕ) {s : K × PL U} (hn : (s.2.map (·.1)).Nodup)
    (hw : ∀ s', Relation.ReflTransGen (fun a b => turn pw N a = .ok (some b)) s s' → WholeBelow s'.2) (hm : sizes s.2 < m) :
    ∃ a, ∀ n ≥ 2 * m, simplifyLoop pw N n s.1 s.2 = some a := by
  induction m generalizing s with
  | zero => exact absurd hm (by simpa using sizes_nonneg s.2)
  | succ m ih =>
    cases ht : turn pw N s with
    | error e =>
      refine ⟨.error e, fun n hn => ?_⟩
      obtain ⟨k, rfl⟩ : ∃ k, n = k + 1 := ⟨n - 1, by omega⟩
      rw [loop_turn, ht]
    | ok r =>
      cases r with
      | none =>
        refine ⟨.ok s, fun n hn => ?_⟩
        obtain ⟨k, rfl⟩ : ∃ k, n = k + 1 := ⟨n - 1, by omega⟩
        rw [loop_turn, ht]
      | some s' =>
        obtain ⟨h1, h2 | ⟨o, u, h3, h4, h5⟩⟩ := turn_drop hR hM hn (hw s .refl) ht
        · obtain ⟨a, ha⟩ := ih h1 (fun x hx => hw x (.head ht hx)) (by push_cast at hm; linarith)
          refine ⟨a, fun n hn => ?_⟩
          obtain ⟨k, rfl⟩ : ∃ k, n = k + 1 := ⟨n - 1, by omega⟩
          rw [loop_turn, ht]
          exact ha k (by omega)
        · have hstop : ∃ a, ∀ n, 1 ≤ n → simplifyLoop pw N n s'.1 s'.2 = some a := by
            cases ht' : turn pw N s' with
            | error e =>
              refine ⟨.error e, fun n hn => ?_⟩
              obtain ⟨k, rfl⟩ : ∃ k, n = k + 1 := ⟨n - 1, by omega⟩
              rw [loop_turn, ht']
            | ok r =>
              cases r with
              | none =>
                refine ⟨.ok s', fun n hn => ?_⟩
                obtain ⟨k, rfl⟩ : ∃ k, n = k + 1 := ⟨n - 1, by omega⟩
                rw [loop_turn, ht']
              | some x => exact (turn_sole hR h5 (by simp; linarith) ht').elim
          obtain ⟨a, ha⟩ := hstop
          refine ⟨a, fun n hn => ?_⟩
          obtain ⟨k, rfl⟩ : ∃ k, n = k + 1 := ⟨n - 1, by omega⟩
          rw [loop_turn, ht]
          exact ha k (by omega)

end
end MC.Unit
