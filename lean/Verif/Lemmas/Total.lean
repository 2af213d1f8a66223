import Verif.Lemmas.Bases3

/-! Operations that never fail, whatever is rounded. -/

namespace MC
namespace Number

theorem mk'_total {p : ℕ} (hp : 1 ≤ p) (n : ℚ) {d : ℚ} (hd : d ≠ 0) : ∃ r, mk' p n d = .ok r ∧ 0 < r.den := by
  obtain ⟨r, hr⟩ := mk'_ok_iff (p := p) (n := n).mpr hd
  exact ⟨r, hr, mk'_den_pos hp hr⟩

theorem add_total {p : ℕ} (hp : 1 ≤ p) {a b : Number} (ha : 0 < a.den) (hb : 0 < b.den) :
    ∃ r, add p a b = .ok r ∧ 0 < r.den := by
  obtain ⟨_, _, hl, _⟩ := lcm_facts ha hb
  exact mk'_total hp _ (by
    show ((Int.lcm a.den b.den : ℕ):ℚ) ≠ 0
    exact_mod_cast hl.ne')

theorem sub_total {p : ℕ} (hp : 1 ≤ p) {a b : Number} (ha : 0 < a.den) (hb : 0 < b.den) :
    ∃ r, sub p a b = .ok r ∧ 0 < r.den := by
  obtain ⟨_, _, hl, _⟩ := lcm_facts ha hb
  exact mk'_total hp _ (by
    show ((Int.lcm a.den b.den : ℕ):ℚ) ≠ 0
    exact_mod_cast hl.ne')

theorem mul_total {p : ℕ} (hp : 1 ≤ p) {a b : Number} (ha : 0 < a.den) (hb : 0 < b.den) :
    ∃ r, mul p a b = .ok r ∧ 0 < r.den := by
  refine mk'_total hp _ ?_
  rw [Ne, rnd_eq_zero_iff hp]
  have : (a.den * b.den : ℤ) ≠ 0 := (mul_pos ha hb).ne'
  exact_mod_cast this

theorem div_total {p : ℕ} (hp : 1 ≤ p) {a b : Number} (ha : 0 < a.den) (hb : b.num ≠ 0) :
    ∃ r, div p a b = .ok r ∧ 0 < r.den := by
  refine mk'_total hp _ ?_
  rw [Ne, rnd_eq_zero_iff hp]
  have : (a.den * b.num : ℤ) ≠ 0 := mul_ne_zero ha.ne' hb
  exact_mod_cast this

theorem rnd_nat {p : ℕ} (n : ℕ) : ∃ m : ℕ, rnd p (n:ℚ) = m := by
  obtain ⟨m, hm⟩ := rnd_intCast_isInt p n
  push_cast at hm
  have := rnd_nonneg p (x := (n:ℚ)) (by positivity)
  rw [hm] at this
  have : 0 ≤ m := by exact_mod_cast this
  exact ⟨m.toNat, by rw [hm]; exact_mod_cast (Int.toNat_of_nonneg this).symm⟩

theorem decPow_total {p : ℕ} (powF) {x : ℤ} (hx : 1 ≤ x) (k : ℕ) (hp : 1 ≤ p) :
    ∃ r, decPow powF p (x:ℚ) (k:ℚ) = .ok r ∧ r ≠ 0 := by
  unfold decPow
  have hi : isInt (k:ℚ) := by rw [isInt_iff]; exact ⟨k, by simp⟩
  have hk : (0:ℚ) ≤ k := by positivity
  have hxq : (x:ℚ) ≠ 0 := by
    have : x ≠ 0 := by omega
    exact_mod_cast this
  rw [if_pos ⟨hi, hk⟩, if_neg (by rintro ⟨h1, _⟩; exact hxq h1)]
  refine ⟨_, rfl, ?_⟩
  rw [Ne, rnd_eq_zero_iff hp]
  exact pow_ne_zero _ hxq

theorem pow_total {p : ℕ} (hp : 1 ≤ p) (powF) {b : ℤ} (hb : 2 ≤ b) (j : ℤ) :
    ∃ r, Number.pow p powF ⟨b, 1⟩ ⟨j, 1⟩ = .ok r ∧ 0 < r.den := by
  unfold Number.pow
  have e : toDecimal p ⟨j, 1⟩ = rnd p (j:ℚ) := by unfold toDecimal; simp
  rw [e]
  simp only
  rcases lt_or_ge j 0 with h | h
  · obtain ⟨k, rfl⟩ : ∃ k : ℕ, j = -k := ⟨j.natAbs, by omega⟩
    have hk : (0:ℚ) < k := by
      have : 0 < k := by omega
      exact_mod_cast this
    push_cast
    rw [rnd_neg]
    have := rnd_pos hp hk
    rw [if_pos (by linarith), neg_neg, rnd_idem hp]
    obtain ⟨m, hm⟩ := rnd_nat (p := p) k
    rw [hm]
    obtain ⟨r1, h1, _⟩ := decPow_total (p := p) powF (x := 1) le_rfl m hp
    obtain ⟨r2, h2, h20⟩ := decPow_total (p := p) powF (x := b) (by omega) m hp
    rw [h2]
    push_cast at h1
    rw [h1]
    exact mk'_total hp _ h20
  · obtain ⟨k, rfl⟩ : ∃ k : ℕ, j = k := ⟨j.natAbs, by omega⟩
    push_cast
    have := rnd_nonneg p (x := (k:ℚ)) (by positivity)
    rw [if_neg (by linarith)]
    obtain ⟨m, hm⟩ := rnd_nat (p := p) k
    rw [hm]
    obtain ⟨r1, h1, h10⟩ := decPow_total (p := p) powF (x := 1) le_rfl m hp
    obtain ⟨r2, h2, _⟩ := decPow_total (p := p) powF (x := b) (by omega) m hp
    rw [h2]
    push_cast at h1
    rw [h1]
    exact mk'_total hp _ h10

end Number

open Number

/-- Reading digits either succeeds, when all are digits of the base, or raises a
calculator error. -/
theorem readDigits_total {p : ℕ} (hp : 1 ≤ p) (powF) {b : ℕ} (hb : 2 ≤ b) :
    ∀ (cs : List Char) (j : ℤ) (acc : Number), 0 < acc.den →
      ((∀ c ∈ cs, c = '.' ∨ ∃ d, findDigit c = some d ∧ d < b) ∧
        ∃ r, readDigits p powF (b:ℤ) cs j acc = .ok r ∧ 0 < r.den) ∨
      ((∃ c ∈ cs, c ≠ '.' ∧ ∀ d, findDigit c = some d → b ≤ d) ∧
        ∃ m, readDigits p powF (b:ℤ) cs j acc = .error (.calc m)) := by
  intro cs
  induction cs with
  | nil => intro j acc h; exact Or.inl ⟨by simp, acc, rfl, h⟩
  | cons c cs ih =>
    intro j acc h
    by_cases hdot : c = '.'
    · rw [readDigits, if_pos hdot]
      rcases ih j acc h with ⟨h1, h2⟩ | ⟨⟨x, hx, h1⟩, h2⟩
      · left
        refine ⟨?_, h2⟩
        intro x hx
        rcases List.mem_cons.mp hx with rfl | hx
        · exact Or.inl hdot
        · exact h1 x hx
      · exact Or.inr ⟨⟨x, List.mem_cons_of_mem _ hx, h1⟩, h2⟩
    · rw [readDigits, if_neg hdot]
      cases hf : findDigit c with
      | none =>
        right
        exact ⟨⟨c, by simp, hdot, by simp [hf]⟩, _, rfl⟩
      | some v =>
        simp only
        by_cases hv : (v:ℤ) > b - 1
        · rw [if_pos hv]
          right
          refine ⟨⟨c, by simp, hdot, ?_⟩, _, rfl⟩
          intro d hd; rw [hf] at hd; cases hd; omega
        · rw [if_neg hv, ofInt_eq hp, ofInt_eq hp, ofInt_eq hp]
          simp only [ok_bind]
          obtain ⟨bp, h1, d1⟩ := pow_total hp powF (b := (b:ℤ)) (by omega) j
          rw [h1]; simp only [ok_bind]
          obtain ⟨m, h2, d2⟩ := mul_total hp (a := ⟨(v:ℤ), 1⟩) (b := bp) (by norm_num) d1
          rw [h2]; simp only [ok_bind]
          obtain ⟨s, h3, d3⟩ := add_total hp h d2
          rw [h3]; simp only [ok_bind]
          rcases ih (j - 1) s d3 with ⟨g1, g2⟩ | ⟨⟨x, hx, g1⟩, g2⟩
          · left
            refine ⟨?_, g2⟩
            intro x hx
            rcases List.mem_cons.mp hx with rfl | hx
            · exact Or.inr ⟨v, hf, by omega⟩
            · exact g1 x hx
          · exact Or.inr ⟨⟨x, List.mem_cons_of_mem _ hx, g1⟩, g2⟩

/-- The decimal constructor on a plain decimal. -/
theorem decimalCtor_assemble {neg : Bool} {ip fp : List Char} (hi : AllDigits ip) (hin : ip ≠ [])
    (hf : AllDigits fp) : decimalCtor (assemble neg ip fp) = .ok (decimalOf neg ip fp) := by
  unfold decimalCtor assemble
  set body := ip ++ (if fp = [] then [] else '.' :: fp) with hbody
  have hs : (let s := (if neg = true then ['-'] else []) ++ ip ++ (if fp = [] then [] else '.' :: fp)
      (s.head? == some '-', if s.head? == some '-' then s.tail else s)) = (neg, body) := by
    cases neg with
    | true => simp [hbody]
    | false =>
      obtain ⟨c, t, rfl⟩ := List.exists_cons_of_ne_nil hin
      have hc : c ≠ '-' := by
        rintro rfl; have := hi '-' (by simp); revert this; decide
      simp [hc, hbody]
  simp only [Prod.mk.injEq] at hs
  simp only
  rw [hs.2, hs.1]
  have hspan : spanDigits body = (ip, if fp = [] then [] else '.' :: fp) := by
    rw [hbody]; apply span_digits_append hi
    intro c hc
    split at hc
    · simp at hc
    · simp at hc; subst hc; decide
  rw [hspan]
  by_cases hfp : fp = []
  · subst hfp
    simp [hin]
  · simp only [if_neg hfp, spanDigits_all hf]
    rw [if_neg (by rintro ⟨h, _⟩; exact hin h)]

end MC
