import Verif.Spec.BasesCut
import Verif.Lemmas.BasesCut
import Verif.Props.Bases2

/-! C98: what is shown for a number in another base. -/

namespace MC.Props
open MC Number

theorem cut_value {b prec I c : ℕ} (hb : 0 < b) {ip fp : List ℕ} (h6 : positional b ip = I) (h7 : fp.length ≤ prec)
    (h8 : positional b fp * b ^ (prec - fp.length) = c) :
    positionalQ b ip fp = (I:ℚ) + (c:ℚ) / (b:ℚ) ^ prec := by
  unfold positionalQ
  rw [h6, ← h8]
  have hbq : (b:ℚ) ≠ 0 := by exact_mod_cast hb.ne'
  have : (b:ℚ) ^ prec = (b:ℚ) ^ fp.length * (b:ℚ) ^ (prec - fp.length) := by rw [← pow_add]; congr 1; omega
  rw [this]
  push_cast
  rw [mul_div_mul_right _ _ (pow_ne_zero _ hbq)]

theorem cut_between {N D W I M c : ℕ} (hW : 0 < W) (hD : 1 ≤ D) (h : N = I * D + M) (h1 : c * D ≤ M * W)
    (h2 : M * W < (c + 1) * D) :
    (I:ℚ) + (c:ℚ) / (W:ℚ) ≤ (N:ℚ) / D ∧ (N:ℚ) / D < (I:ℚ) + (c:ℚ) / (W:ℚ) + 1 / (W:ℚ) := by
  have hDq : (0:ℚ) < D := by exact_mod_cast hD
  have hWq : (0:ℚ) < W := by exact_mod_cast hW
  have e : (N:ℚ) / D = I + (M:ℚ) / D := by rw [h]; push_cast; field_simp
  have h1' : (c:ℚ) * D ≤ M * W := by exact_mod_cast h1
  have h2' : (M:ℚ) * W < (c + 1) * D := by exact_mod_cast h2
  rw [e]
  constructor
  · have := (div_le_div_iff₀ hWq hDq).mpr h1'
    linarith
  · have := (div_lt_div_iff₀ hDq hWq).mpr h2'
    rw [add_div] at this
    linarith

theorem cut_facts {N D W : ℕ} (hD : 1 ≤ D) : N = N / D * D + N % D ∧ N % D * W / D * D ≤ N % D * W ∧
    N % D * W < (N % D * W / D + 1) * D :=
  ⟨(Nat.div_add_mod' N D).symm, Nat.div_mul_le_self _ _, by
    rw [mul_comm _ D]; exact Nat.lt_mul_div_succ _ hD⟩

theorem cut_below {N D b prec : ℕ} (hb : 0 < b) (hD : 1 ≤ D) :
    ((N / D : ℕ):ℚ) + ((N % D * b ^ prec / D : ℕ):ℚ) / (b:ℚ) ^ prec ≤ (N:ℚ) / D := by
  obtain ⟨h, h1, h2⟩ := cut_facts (N := N) (W := b ^ prec) hD
  have := (cut_between (pow_pos hb prec) hD h h1 h2).1
  rwa [Nat.cast_pow] at this

theorem cut_close {N D b prec : ℕ} (hb : 0 < b) (hD : 1 ≤ D) :
    (N:ℚ) / D < ((N / D : ℕ):ℚ) + ((N % D * b ^ prec / D : ℕ):ℚ) / (b:ℚ) ^ prec + 1 / (b:ℚ) ^ prec := by
  obtain ⟨h, h1, h2⟩ := cut_facts (N := N) (W := b ^ prec) hD
  have := (cut_between (pow_pos hb prec) hD h h1 h2).2
  rwa [Nat.cast_pow] at this

/-- The digits `decToBase` writes, with all that is known of them. -/
theorem cut_digits {p : ℕ} (hp : 1 ≤ p) (powF) {b prec : ℕ} (hb : 2 ≤ b) (hb36 : b ≤ 36) (hb10 : b ≠ 10)
    {a : Number} (ha : a.Canonical) (h5 : 5 * (b * a.num.natAbs * a.den.natAbs) < 10 ^ p)
    (hD : 5 * (a.den.natAbs * b * (a.den.natAbs * b ^ prec)) < 10 ^ p) {fuel : ℕ} (hf : a.num.natAbs < fuel) :
    ∃ ip fp, decToBase p powF prec fuel a (b:ℤ) = .ok (basedWith [] (decide (a.num < 0)) (ip.map chr) (fp.map chr)
        (decide (a.den ≠ 1 ∧ prec ≠ 0))) ∧
      (∀ d ∈ ip, d < b) ∧ (∀ d ∈ fp, d < b) ∧ CutOff b prec |a.val| ip fp ∧
      (fp = [] ↔ a.num.natAbs % a.den.natAbs * b ^ prec < a.den.natAbs) ∧
      positional b ip ≤ a.num.natAbs ∧ b ^ (ip.length - 1) ≤ a.num.natAbs + 1 := by
  have hb0 : 0 < b := by omega
  obtain ⟨hden, hcop⟩ := id ha
  generalize hNe : a.num.natAbs = N at *
  obtain ⟨D, hDe⟩ : ∃ D : ℕ, a.den = D := ⟨a.den.natAbs, by omega⟩
  rw [hDe] at hden hcop h5 hD ⊢
  simp only [Int.natAbs_natCast] at h5 hD ⊢
  have hD1 : 1 ≤ D := by exact_mod_cast hden
  have habs : |a.val| = (N:ℚ) / D := by
    unfold val
    rw [abs_div, hDe, ← hNe]
    simp [Nat.cast_natAbs]
  by_cases hN : N = 0
  · subst hN
    have hz : a = ⟨0, 1⟩ := canonical_zero ha (by rw [← abs_eq_zero, habs]; simp)
    subst hz
    have hD' : D = 1 := by simpa using hDe.symm
    subst hD'
    refine ⟨[0], [], ?_, by simpa using hb0, by simp, ⟨by simp, by simp, by simp, by simp, ?_, ?_⟩, by simp, by simp [positional], by simp⟩
    · rw [decToBase_zero]; simp [basedWith]; decide
    · rw [habs]; simp [positionalQ, positional]
    · rw [habs]; simp [positionalQ, positional, hb0]
  have hval : a.val = (if decide (a.num < 0) then -1 else 1) * ((N:ℚ) / (D:ℚ)) := by
    rw [← habs]
    have : a.val = (a.num:ℚ) / (D:ℚ) := by unfold val; rw [hDe]; simp
    have hDq : (0:ℚ) < D := by exact_mod_cast hD1
    by_cases hs : a.num < 0
    · have : a.val < 0 := by rw [this]; exact div_neg_of_neg_of_pos (by exact_mod_cast hs) hDq
      simp [hs, abs_of_neg this]
    · have : 0 ≤ a.val := by rw [this]; exact div_nonneg (by exact_mod_cast (not_lt.mp hs)) hDq.le
      simp [hs, abs_of_nonneg this]
  have hlog : Nat.log b (N / D) ≤ N := (Nat.log_le_self _ _).trans (Nat.div_le_self _ _)
  obtain ⟨ip, fp, h1, h2, h3, h4, h6, h7, h8, h9⟩ := decToBase_cut hp powF hb hb36 hb10 ha (by omega) hD1 hval h5 hD
    (fuel := fuel) (by omega)
  have hpt : (N % D = 0 ∨ prec = 0) ↔ ¬ ((D:ℤ) ≠ 1 ∧ prec ≠ 0) := by
    have : N % D = 0 ↔ D = 1 := by
      constructor
      · intro h
        have hd := Nat.dvd_of_mod_eq_zero h
        rw [← hNe] at hd
        exact Nat.eq_one_of_dvd_coprimes hcop hd dvd_rfl
      · rintro rfl; exact Nat.mod_one _
    rw [this]; push Not
    constructor
    · rintro (h | h) <;> intro h'
      · exact absurd (by exact_mod_cast h) h'
      · exact h
    · intro h
      by_cases hd : (D:ℤ) = 1
      · left; exact_mod_cast hd
      · exact Or.inr (h hd)
  have hI : b ^ (ip.length - 1) ≤ N / D + 1 := by
    rw [h4, Nat.add_sub_cancel]
    by_cases h0 : N / D = 0
    · simp [h0]
    · exact (Nat.pow_log_le_self b h0).trans (Nat.le_succ _)
  have hq : positionalQ b ip fp = ((N / D : ℕ):ℚ) + ((N % D * b ^ prec / D : ℕ):ℚ) / (b:ℚ) ^ prec ∧
      ((N / D : ℕ):ℚ) + ((N % D * b ^ prec / D : ℕ):ℚ) / (b:ℚ) ^ prec ≤ (N:ℚ) / D ∧
      (N:ℚ) / D < ((N / D : ℕ):ℚ) + ((N % D * b ^ prec / D : ℕ):ℚ) / (b:ℚ) ^ prec + 1 / (b:ℚ) ^ prec :=
    ⟨cut_value hb0 h6 h7 h8, cut_below hb0 hD1, cut_close hb0 hD1⟩
  have hND := Nat.div_le_self N D
  refine ⟨ip, fp, ?_, h2, h3, ⟨by intro h; simp [h] at h4, ?_, h7, h9, ?_, ?_⟩, ?_, by omega, by omega⟩
  · rw [h1]
    unfold basedWith
    by_cases hc : N % D = 0 ∨ prec = 0
    · rw [if_pos hc, decide_eq_false (hpt.mp hc)]; simp
    · rw [if_neg hc, decide_eq_true (not_not.mp ((not_congr hpt).mp hc))]; simp
  · by_cases hl : ip.length = 1
    · exact Or.inl hl
    · right
      intro h0
      obtain ⟨x, xs, rfl⟩ : ∃ x xs, ip = x :: xs := List.exists_cons_of_ne_nil (by intro h; simp [h] at h4)
      simp only [List.head?_cons, Option.some.injEq] at h0
      subst h0
      rw [positional_cons] at h6
      have hlt := positional_lt (b := b) (ds := xs) (fun d hd => h2 d (by simp [hd]))
      have hxs : xs.length = Nat.log b (N / D) := by simpa using h4
      have hne : N / D ≠ 0 := by
        intro h0; rw [h0] at hxs; simp at hxs; simp [hxs] at hl
      have := Nat.pow_log_le_self b hne
      rw [← hxs] at this
      omega
  · rw [habs, hq.1]
    exact hq.2.1
  · rw [habs, hq.1]
    exact hq.2.2
  · constructor
    · intro h
      rw [h] at h8
      have h0 : N % D * b ^ prec / D = 0 := by rw [← h8]; simp [positional]
      rcases Nat.div_eq_zero_iff.mp h0 with h | h
      · omega
      · exact h
    · intro h
      rw [Nat.div_eq_of_lt h] at h8
      have h0 : positional b fp = 0 := by
        rcases Nat.mul_eq_zero.mp h8 with h | h
        · exact h
        · exact absurd h (pow_pos hb0 _).ne'
      by_contra hne
      obtain ⟨xs, x, rfl⟩ : ∃ xs x, fp = xs ++ [x] := ⟨fp.dropLast, fp.getLast hne, (List.dropLast_append_getLast hne).symm⟩
      rw [positional_append] at h0
      have : x ≠ 0 := by simpa using h9
      have hx : positional b [x] = x := by simp [positional]
      omega

/-- Where the digits fit, all of it: what is shown, and the sizes needed to read it back. -/
theorem cut_all {p : ℕ} (hp : 1 ≤ p) (powF) {b prec : ℕ} (hb : 2 ≤ b) (hb36 : b ≤ 36) (hb10 : b ≠ 10)
    {a : Number} (ha : a.Canonical) (hfit : FitsBase p b prec a) {fuel : ℕ} (hf : a.num.natAbs < fuel) :
    ∃ ip fp, decToBase p powF prec fuel a (b:ℤ) = .ok (basedWith [] (decide (a.num < 0)) (ip.map chr) (fp.map chr)
        (decide (a.den ≠ 1 ∧ prec ≠ 0))) ∧
      (∀ d ∈ ip, d < b) ∧ (∀ d ∈ fp, d < b) ∧ CutOff b prec |a.val| ip fp ∧
      (fp = [] ↔ a.num.natAbs % a.den.natAbs * b ^ prec < a.den.natAbs) ∧
      (positional b ip * b ^ fp.length + positional b fp) * b ^ fp.length < 10 ^ p ∧
      b ^ (ip.length - 1) < 10 ^ p ∧ b ^ fp.length < 10 ^ p := by
  obtain ⟨f1, f2, f3⟩ := hfit
  obtain ⟨ip, fp, h1, h2, h3, h4, h5, h6, h7⟩ := cut_digits hp powF (prec := prec) hb hb36 hb10 ha f1 f2 hf
  have hbp : ∀ n, 1 ≤ b ^ n := fun n => Nat.one_le_pow _ _ (by omega)
  have hl : b ^ fp.length ≤ b ^ prec := Nat.pow_le_pow_right (by omega) h4.places
  have hlt := positional_lt h3
  have e2 : b ^ (2 * prec) = b ^ prec * b ^ prec := by rw [two_mul, pow_add]
  rw [e2] at f3
  refine ⟨ip, fp, h1, h2, h3, h4, h5, lt_of_le_of_lt ?_ f3, lt_of_le_of_lt ?_ f3, lt_of_le_of_lt ?_ f3⟩
  · rw [← mul_assoc]
    refine Nat.mul_le_mul ?_ hl
    calc positional b ip * b ^ fp.length + positional b fp ≤ a.num.natAbs * b ^ fp.length + b ^ fp.length := by
          have := Nat.mul_le_mul_right (b ^ fp.length) h6
          omega
      _ = (a.num.natAbs + 1) * b ^ fp.length := by ring
      _ ≤ _ := Nat.mul_le_mul_left _ hl
  · refine h7.trans (Nat.le_mul_of_pos_right _ (Nat.mul_pos (hbp _) (hbp _)))
  · calc b ^ fp.length ≤ b ^ prec := hl
      _ ≤ b ^ prec * b ^ prec := Nat.le_mul_of_pos_right _ (hbp _)
      _ ≤ _ := Nat.le_mul_of_pos_left _ (by omega)

/-- With a point only in front of places, the text is a literal. -/
theorem basedWith_literal {a : Number} {b prec : ℕ} {ip fp : List ℕ} (hD : 1 ≤ a.den)
    (hc : fp.length ≤ prec) (he : fp = [] ↔ a.num.natAbs % a.den.natAbs * b ^ prec < a.den.natAbs)
    (hk : fp ≠ [] ∨ a.den = 1 ∨ prec = 0) (pre : List Char) (neg : Bool) :
    basedWith pre neg (ip.map chr) (fp.map chr) (decide (a.den ≠ 1 ∧ prec ≠ 0)) =
      literalText pre neg (ip.map chr) (fp.map chr) := by
  unfold basedWith literalText
  by_cases h : a.den = 1 ∨ prec = 0
  · have hfp : fp = [] := by
      rcases h with h | h
      · rw [he, h]; simp [Nat.mod_one]
      · rw [h] at hc; exact List.length_eq_zero_iff.mp (by omega)
    rw [decide_eq_false (by rcases h with h | h <;> simp [h]), hfp]; simp
  · have h1 : a.den ≠ 1 ∧ prec ≠ 0 := not_or.mp h
    have hfp : fp ≠ [] := by
      rcases hk with hk | hk | hk
      · exact hk
      · exact absurd hk h1.1
      · exact absurd hk h1.2
    rw [decide_eq_true h1]
    simp [hfp]

theorem addPrefix_with {neg point : Bool} {ip : List ℕ} {fcs : List Char} (hip : ip ≠ []) (h : ∀ d ∈ ip, d < 36)
    (pre : List Char) :
    addPrefix (basedWith [] neg (ip.map chr) fcs point) pre = .ok (basedWith pre neg (ip.map chr) fcs point) := by
  obtain ⟨d, ds, rfl⟩ := List.exists_cons_of_ne_nil hip
  have h1 := (chr_facts (h d (by simp))).2.2.1
  unfold basedWith
  cases neg with
  | true => simp [addPrefix]
  | false =>
    simp only [Bool.false_eq_true, if_false, List.map_cons, List.nil_append, List.cons_append]
    unfold addPrefix
    split
    · rename_i heq; cases heq
    · rename_i heq; simp at heq; exact absurd heq.1 h1
    · simp

/-! ## C98 What is shown in another base is the number cut off -/

/-- A number written in a base is the number cut off after the places set, with a minus sign if it
is negative and a point if it is not whole. -/
theorem C98_cut (p : ℕ) (hp : 1 ≤ p) (powF) (b prec : ℕ) (hb : 2 ≤ b) (hb36 : b ≤ 36) (hb10 : b ≠ 10)
    (a : Number) (ha : a.Canonical) (hfit : FitsBase p b prec a) (fuel : ℕ) (hf : a.num.natAbs < fuel) :
    ∃ ics fcs ip fp, DigitsAre b ics ip ∧ DigitsAre b fcs fp ∧ CutOff b prec |a.val| ip fp ∧
      decToBase p powF prec fuel a (b:ℤ) = .ok (basedWith [] (decide (a.num < 0)) ics fcs
        (decide (a.den ≠ 1 ∧ prec ≠ 0))) := by
  obtain ⟨ip, fp, h1, h2, h3, h4, h5, -⟩ := cut_all hp powF hb hb36 hb10 ha hfit hf
  exact ⟨_, _, ip, fp, DigitsAre.map_chr hb36 h2, DigitsAre.map_chr hb36 h3, h4, h1⟩

/-- The same with the prefixes: hexadecimal, octal, binary without a width, and any base. -/
theorem C98_prefixed (p : ℕ) (hp : 1 ≤ p) (powF) (prec : ℕ) (a : Number) (ha : a.Canonical) (fuel : ℕ)
    (hf : a.num.natAbs < fuel) :
    (FitsBase p 16 prec a → ∃ ics fcs ip fp, DigitsAre 16 ics ip ∧ DigitsAre 16 fcs fp ∧ CutOff 16 prec |a.val| ip fp ∧
      showHex p powF prec fuel a = .ok (basedWith "0x".toList (decide (a.num < 0)) ics fcs
        (decide (a.den ≠ 1 ∧ prec ≠ 0)))) ∧
    (FitsBase p 8 prec a → ∃ ics fcs ip fp, DigitsAre 8 ics ip ∧ DigitsAre 8 fcs fp ∧ CutOff 8 prec |a.val| ip fp ∧
      showOct p powF prec fuel a = .ok (basedWith "0o".toList (decide (a.num < 0)) ics fcs
        (decide (a.den ≠ 1 ∧ prec ≠ 0)))) ∧
    (FitsBase p 2 prec a → ∃ ics fcs ip fp, DigitsAre 2 ics ip ∧ DigitsAre 2 fcs fp ∧ CutOff 2 prec |a.val| ip fp ∧
      showBin p powF prec fuel a none = .ok (basedWith "0b".toList (decide (a.num < 0)) ics fcs
        (decide (a.den ≠ 1 ∧ prec ≠ 0)))) ∧
    (∀ b, 2 ≤ b → b ≤ 36 → b ≠ 10 → FitsBase p b prec a → ∃ ics fcs ip fp, DigitsAre b ics ip ∧ DigitsAre b fcs fp ∧
      CutOff b prec |a.val| ip fp ∧
      showArb p powF prec fuel a b = .ok (basedWith (natText b ++ ['z']) (decide (a.num < 0)) ics fcs
        (decide (a.den ≠ 1 ∧ prec ≠ 0)))) := by
  refine ⟨fun hfit => ?_, fun hfit => ?_, fun hfit => ?_, fun b hb hb36 hb10 hfit => ?_⟩
  · obtain ⟨ip, fp, h1, h2, h3, h4, h5, -⟩ := cut_all hp powF (by norm_num) (by norm_num) (by norm_num) ha hfit hf
    refine ⟨_, _, ip, fp, DigitsAre.map_chr (by norm_num) h2, DigitsAre.map_chr (by norm_num) h3, h4, ?_⟩
    unfold showHex
    rw [show (16:ℤ) = ((16:ℕ):ℤ) by norm_num, h1]
    exact addPrefix_with h4.whole (fun d hd => lt_of_lt_of_le (h2 d hd) (by norm_num)) _
  · obtain ⟨ip, fp, h1, h2, h3, h4, h5, -⟩ := cut_all hp powF (by norm_num) (by norm_num) (by norm_num) ha hfit hf
    refine ⟨_, _, ip, fp, DigitsAre.map_chr (by norm_num) h2, DigitsAre.map_chr (by norm_num) h3, h4, ?_⟩
    unfold showOct
    rw [show (8:ℤ) = ((8:ℕ):ℤ) by norm_num, h1]
    exact addPrefix_with h4.whole (fun d hd => lt_of_lt_of_le (h2 d hd) (by norm_num)) _
  · obtain ⟨ip, fp, h1, h2, h3, h4, h5, -⟩ := cut_all hp powF (by norm_num) (by norm_num) (by norm_num) ha hfit hf
    refine ⟨_, _, ip, fp, DigitsAre.map_chr (by norm_num) h2, DigitsAre.map_chr (by norm_num) h3, h4, ?_⟩
    unfold showBin
    rw [show (2:ℤ) = ((2:ℕ):ℤ) by norm_num, h1]
    exact addPrefix_with h4.whole (fun d hd => lt_of_lt_of_le (h2 d hd) (by norm_num)) _
  · obtain ⟨ip, fp, h1, h2, h3, h4, h5, -⟩ := cut_all hp powF hb hb36 hb10 ha hfit hf
    refine ⟨_, _, ip, fp, DigitsAre.map_chr hb36 h2, DigitsAre.map_chr hb36 h3, h4, ?_⟩
    unfold showArb
    rw [h1]
    exact addPrefix_with h4.whole (fun d hd => lt_of_lt_of_le (h2 d hd) hb36) _

theorem lost_iff {b prec : ℕ} (hb : 2 ≤ b) {a : Number} (ha : a.Canonical) :
    FractionLost b prec a ↔ a.den ≠ 1 ∧ a.num.natAbs % a.den.natAbs * b ^ prec < a.den.natAbs := by
  obtain ⟨hden, hcop⟩ := id ha
  obtain ⟨D, hDe⟩ : ∃ D : ℕ, a.den = D := ⟨a.den.natAbs, by omega⟩
  have hD1 : 1 ≤ D := by rw [hDe] at hden; exact_mod_cast hden
  have hDq : (0:ℚ) < D := by exact_mod_cast hD1
  have hbq : (0:ℚ) < (b:ℚ) ^ prec := pow_pos (by exact_mod_cast (by omega : 0 < b)) _
  have habs : |a.val| = (a.num.natAbs:ℚ) / D := by
    unfold val
    rw [abs_div, hDe]
    simp [Nat.cast_natAbs]
  have hm : a.num.natAbs % D = 0 ↔ D = 1 := by
    constructor
    · intro h
      rw [hDe] at hcop
      exact Nat.eq_one_of_dvd_coprimes hcop (Nat.dvd_of_mod_eq_zero h) dvd_rfl
    · rintro rfl; exact Nat.mod_one _
  unfold FractionLost
  rw [habs, Int.fract_div_natCast_eq_div_natCast_mod, hDe, Int.natAbs_natCast]
  refine and_congr ?_ ?_
  · constructor
    · intro h h1
      have h1' : D = 1 := by exact_mod_cast h1
      rw [hm.mpr h1'] at h; simp at h
    · intro h
      have h0 : a.num.natAbs % D ≠ 0 := fun e => h (by exact_mod_cast hm.mp e)
      exact div_pos (by exact_mod_cast Nat.pos_of_ne_zero h0) hDq
  · rw [div_lt_div_iff₀ hDq hbq, one_mul]
    exact_mod_cast Iff.rfl

theorem keeps_places {b prec : ℕ} (hb : 2 ≤ b) {a : Number} (ha : a.Canonical) {fp : List ℕ}
    (he : fp = [] ↔ a.num.natAbs % a.den.natAbs * b ^ prec < a.den.natAbs)
    (hk : ¬ FractionLost b prec a ∨ prec = 0) : fp ≠ [] ∨ a.den = 1 ∨ prec = 0 := by
  rcases hk with hk | hk
  · rw [lost_iff hb ha] at hk
    by_cases h1 : a.den = 1
    · exact Or.inr (Or.inl h1)
    · left
      intro h
      exact hk ⟨h1, he.mp h⟩
  · exact Or.inr (Or.inr hk)

/-- The digits cut off, with the sign, are near the number and not further from zero. -/
theorem cut_near {b prec : ℕ} {a r : Number} (hd : 0 < a.den) {ip fp : List ℕ} (h : CutOff b prec |a.val| ip fp)
    (hr : r.val = (if decide (a.num < 0) = true then -1 else 1) * positionalQ b ip fp) :
    |r.val| ≤ |a.val| ∧ |a.val - r.val| < 1 / (b:ℚ) ^ prec := by
  have h0 : 0 ≤ positionalQ b ip fp := by unfold positionalQ; positivity
  have hdq : (0:ℚ) < a.den := by exact_mod_cast hd
  have hb := h.below
  have hc := h.close
  by_cases hn : a.num < 0
  · have hv : a.val < 0 := div_neg_of_neg_of_pos (by exact_mod_cast hn) hdq
    rw [decide_eq_true hn, if_pos rfl] at hr
    rw [abs_of_neg hv] at hb hc ⊢
    rw [hr]
    refine ⟨by rw [neg_one_mul, abs_neg, abs_of_nonneg h0]; exact hb, ?_⟩
    rw [abs_lt]
    constructor <;> linarith
  · have hv : 0 ≤ a.val := div_nonneg (by exact_mod_cast (not_lt.mp hn)) hdq.le
    rw [decide_eq_false hn] at hr
    rw [abs_of_nonneg hv] at hb hc ⊢
    rw [hr]
    simp only [Bool.false_eq_true, if_false, one_mul]
    refine ⟨by rw [abs_of_nonneg h0]; exact hb, ?_⟩
    rw [abs_lt]
    constructor <;> linarith

/-- What is shown can be typed in again and is then less than one in the last place away from the
number shown, and not further from zero.  Missing: numbers whose fraction part is lost altogether,
see `C98_point_violation`. -/
theorem C98_reads_back_partial (p : ℕ) (hp : 1 ≤ p) (powF) (prec : ℕ) (a : Number) (ha : a.Canonical) (fuel : ℕ)
    (hf : a.num.natAbs < fuel) :
    (FitsBase p 16 prec a → ¬ FractionLost 16 prec a ∨ prec = 0 → ∃ t r, showHex p powF prec fuel a = .ok t ∧
      parseHex p powF t = some (.ok r) ∧ r.Canonical ∧ |r.val| ≤ |a.val| ∧ |a.val - r.val| < 1 / 16 ^ prec) ∧
    (FitsBase p 8 prec a → ¬ FractionLost 8 prec a ∨ prec = 0 → ∃ t r, showOct p powF prec fuel a = .ok t ∧
      parseOct p powF t = some (.ok r) ∧ r.Canonical ∧ |r.val| ≤ |a.val| ∧ |a.val - r.val| < 1 / 8 ^ prec) ∧
    (FitsBase p 2 prec a → ¬ FractionLost 2 prec a ∨ prec = 0 → ∃ t r w, showBin p powF prec fuel a none = .ok t ∧
      parseBin p powF t = some (.ok (r, w)) ∧ r.Canonical ∧ |r.val| ≤ |a.val| ∧ |a.val - r.val| < 1 / 2 ^ prec) ∧
    (∀ b, 2 ≤ b → b < 36 → b ≠ 10 → FitsBase p b prec a → ¬ FractionLost b prec a ∨ prec = 0 →
      ∃ t r, showArb p powF prec fuel a b = .ok t ∧
      parseArb p powF t = .ok (some (r, b)) ∧ r.Canonical ∧ |r.val| ≤ |a.val| ∧ |a.val - r.val| < 1 / (b:ℚ) ^ prec) := by
  refine ⟨fun hfit hk => ?_, fun hfit hk => ?_, fun hfit hk => ?_, fun b hb hb36 hb10 hfit hk => ?_⟩
  · obtain ⟨ip, fp, h1, h2, h3, h4, h5, s1, s2, s3⟩ := cut_all hp powF (by norm_num) (by norm_num) (by norm_num) ha hfit hf
    have hk' := keeps_places (b := 16) (by norm_num) ha h5 hk
    have hlit := basedWith_literal (ip := ip) ha.1 h4.places h5 hk' "0x".toList (decide (a.num < 0))
    have hd := DigitsAre.map_chr (b := 16) (by norm_num) h2
    obtain ⟨g1, g2, r, g3, g4, g5⟩ := literal_value hp powF (b := 16) (by norm_num) (by norm_num) (by norm_num)
      (pre := "0x".toList) (by decide) (by decide) (by decide) (c := 'x') (by decide)
      (Or.inr ⟨33, by decide, by norm_num⟩) (by decide) ok_hex (decide (a.num < 0)) hd
      (DigitsAre.map_chr (by norm_num) h3) (by simpa using h4.whole) s1 s2 s3
    have hs : showHex p powF prec fuel a = .ok (basedWith "0x".toList (decide (a.num < 0)) (ip.map chr) (fp.map chr)
        (decide (a.den ≠ 1 ∧ prec ≠ 0))) := by
      unfold showHex
      rw [show (16:ℤ) = ((16:ℕ):ℤ) by norm_num, h1]
      exact addPrefix_with h4.whole (fun d hd => lt_of_lt_of_le (h2 d hd) (by norm_num)) _
    have hn := cut_near ha.1 h4 g5
    rw [hlit] at hs
    refine ⟨_, r, hs, ?_, g4, hn.1, by exact_mod_cast hn.2⟩
    · unfold parseHex
      rw [if_pos g1]; congr 1
  · obtain ⟨ip, fp, h1, h2, h3, h4, h5, s1, s2, s3⟩ := cut_all hp powF (by norm_num) (by norm_num) (by norm_num) ha hfit hf
    have hk' := keeps_places (b := 8) (by norm_num) ha h5 hk
    have hlit := basedWith_literal (ip := ip) ha.1 h4.places h5 hk' "0o".toList (decide (a.num < 0))
    have hd := DigitsAre.map_chr (b := 8) (by norm_num) h2
    obtain ⟨g1, g2, r, g3, g4, g5⟩ := literal_value hp powF (b := 8) (by norm_num) (by norm_num) (by norm_num)
      (pre := "0o".toList) (by decide) (by decide) (by decide) (c := 'o') (by decide)
      (Or.inr ⟨24, by decide, by norm_num⟩) (by decide) ok_oct (decide (a.num < 0)) hd
      (DigitsAre.map_chr (by norm_num) h3) (by simpa using h4.whole) s1 s2 s3
    have hs : showOct p powF prec fuel a = .ok (basedWith "0o".toList (decide (a.num < 0)) (ip.map chr) (fp.map chr)
        (decide (a.den ≠ 1 ∧ prec ≠ 0))) := by
      unfold showOct
      rw [show (8:ℤ) = ((8:ℕ):ℤ) by norm_num, h1]
      exact addPrefix_with h4.whole (fun d hd => lt_of_lt_of_le (h2 d hd) (by norm_num)) _
    have hn := cut_near ha.1 h4 g5
    rw [hlit] at hs
    refine ⟨_, r, hs, ?_, g4, hn.1, by exact_mod_cast hn.2⟩
    · unfold parseOct
      rw [if_pos g1]; congr 1
  · obtain ⟨ip, fp, h1, h2, h3, h4, h5, s1, s2, s3⟩ := cut_all hp powF (by norm_num) (by norm_num) (by norm_num) ha hfit hf
    have hk' := keeps_places (b := 2) (by norm_num) ha h5 hk
    have hlit := basedWith_literal (ip := ip) ha.1 h4.places h5 hk' "0b".toList (decide (a.num < 0))
    have hd := DigitsAre.map_chr (b := 2) (by norm_num) h2
    obtain ⟨g1, g2, r, g3, g4, g5⟩ := literal_value hp powF (b := 2) (by norm_num) (by norm_num) (by norm_num)
      (pre := "0b".toList) (by decide) (by decide) (by decide) (c := 'b') (by decide)
      (Or.inr ⟨11, by decide, by norm_num⟩) (by decide) ok_bin (decide (a.num < 0)) hd
      (DigitsAre.map_chr (by norm_num) h3) (by simpa using h4.whole) s1 s2 s3
    have hs : showBin p powF prec fuel a none = .ok (basedWith "0b".toList (decide (a.num < 0)) (ip.map chr) (fp.map chr)
        (decide (a.den ≠ 1 ∧ prec ≠ 0))) := by
      unfold showBin
      rw [show (2:ℤ) = ((2:ℕ):ℤ) by norm_num, h1]
      exact addPrefix_with h4.whole (fun d hd => lt_of_lt_of_le (h2 d hd) (by norm_num)) _
    have hn := cut_near ha.1 h4 g5
    rw [hlit] at hs
    refine ⟨_, r, ip.length, hs, ?_, g4, hn.1, by exact_mod_cast hn.2⟩
    · unfold parseBin
      rw [if_pos g1]; congr 1
      have g3' : baseToDec p powF (removePrefix (literalText "0b".toList (decide (a.num < 0)) (ip.map chr) (fp.map chr))
        "0b".toList) 2 = .ok r := g3
      rw [g3', numberWidth_literal g2 hd (by simpa using h4.whole)]; rfl
  · obtain ⟨ip, fp, h1, h2, h3, h4, h5, s1, s2, s3⟩ := cut_all hp powF hb hb36.le hb10 ha hfit hf
    have hk' := keeps_places hb ha h5 hk
    have hlit := basedWith_literal (ip := ip) ha.1 h4.places h5 hk' (natText b ++ ['z']) (decide (a.num < 0))
    obtain ⟨r, g3, g4, g5⟩ := arb_value p hp powF b hb hb36.le hb10 (decide (a.num < 0)) (ip.map chr) (fp.map chr) ip fp
      (DigitsAre.map_chr hb36.le h2) (DigitsAre.map_chr hb36.le h3) (by simpa using h4.whole)
      (by
        intro d hd
        rcases List.mem_append.mp hd with hd | hd
        · have := h2 d hd; omega
        · have := h3 d hd; omega) s1 s2 s3
    have hs : showArb p powF prec fuel a b = .ok (basedWith (natText b ++ ['z']) (decide (a.num < 0)) (ip.map chr)
        (fp.map chr) (decide (a.den ≠ 1 ∧ prec ≠ 0))) := by
      unfold showArb
      rw [h1]
      exact addPrefix_with h4.whole (fun d hd => lt_trans (h2 d hd) hb36) _
    have hn := cut_near ha.1 h4 g5
    rw [hlit] at hs
    refine ⟨_, r, hs, g3, g4, hn.1, hn.2⟩

/-- A part ending in a point is not digits with an optional point and more digits. -/
theorem pointed_tail {ok : Char → Bool} (hok : ok '.' = false) (y : List Char) :
    (((y ++ ['.']).dropWhile (· ≠ '.')).isEmpty || (!((y ++ ['.']).dropWhile (· ≠ '.')).tail.isEmpty &&
      ((y ++ ['.']).dropWhile (· ≠ '.')).tail.all ok)) = false := by
  induction y with
  | nil => simp
  | cons c y ih =>
    by_cases hc : c = '.'
    · subst hc
      simp [List.all_append, hok]
    · rw [List.cons_append, List.dropWhile_cons_of_pos (by simpa using hc)]
      exact ih

theorem drop_pointed {pre : List Char} (hpre : '.' ∉ pre) {y : List Char} (h : pre <+: y ++ ['.']) :
    ∃ z, (y ++ ['.']).drop pre.length = z ++ ['.'] := by
  obtain ⟨t, ht⟩ := h
  have e : (y ++ ['.']).drop pre.length = t := by rw [← ht]; simp
  rw [e]
  rcases List.eq_nil_or_concat t with rfl | ⟨z, c, rfl⟩
  · exfalso
    rw [List.append_nil] at ht
    exact hpre (by rw [ht]; simp)
  · have := congrArg List.getLast? ht
    simp at this
    exact ⟨z, by simp [this]⟩

theorem unsigned_pointed (t : List Char) : ∃ y, (if (lowerText (t ++ ['.'])).head? == some '-' then (lowerText (t ++ ['.'])).tail
    else lowerText (t ++ ['.'])) = y ++ ['.'] := by
  have e : lowerText (t ++ ['.']) = lowerText t ++ ['.'] := by unfold lowerText; rw [List.map_append]; rfl
  rw [e]
  cases lowerText t with
  | nil => exact ⟨[], by simp⟩
  | cons c s =>
    by_cases hc : c = '-'
    · exact ⟨s, by simp [hc]⟩
    · exact ⟨c :: s, by simp [hc]⟩

/-- No text ending in a point is a literal. -/
theorem pointed_unread {pre : List Char} (hpre : '.' ∉ pre) {ok : Char → Bool} (hok : ok '.' = false) (t : List Char) :
    matchesBased pre ok (t ++ ['.']) = false := by
  unfold matchesBased
  obtain ⟨y, hy⟩ := unsigned_pointed t
  simp only [hy]
  split
  · rename_i h
    obtain ⟨z, hz⟩ := drop_pointed hpre h
    rw [hz, pointed_tail hok]
    simp
  · rfl

theorem pointed_arb (t : List Char) : matchArb (t ++ ['.']) = none := by
  unfold matchArb
  obtain ⟨y, hy⟩ := unsigned_pointed t
  simp only [hy]
  have hsp : (spanDigits (y ++ ['.'])).1 ++ (spanDigits (y ++ ['.'])).2 = y ++ ['.'] := by
    unfold spanDigits; rw [List.span_eq_takeWhile_dropWhile]; exact List.takeWhile_append_dropWhile
  generalize hb : (spanDigits (y ++ ['.'])).1 = bs at *
  generalize hr : (spanDigits (y ++ ['.'])).2 = rest at *
  split
  · rfl
  · rename_i body _
    have hbody : ∃ z, body = z ++ ['.'] := by
      rcases List.eq_nil_or_concat body with rfl | ⟨z, c, rfl⟩
      · have := congrArg List.getLast? hsp
        simp at this
      · have := congrArg List.getLast? hsp
        simp at this
        rw [← List.cons_append, List.getLast?_concat] at this
        exact ⟨z, by simpa using this⟩
    obtain ⟨z, rfl⟩ := hbody
    rw [if_neg]
    rw [pointed_tail (by decide)]
    simp
  · rfl

/-- What is shown should be readable, but a number whose fraction part is shorter than one in the
last place is shown with a point and nothing after it, which is no number literal. -/
theorem C98_point_violation (p : ℕ) (hp : 1 ≤ p) (powF) (prec : ℕ) (hprec : prec ≠ 0) (a : Number) (ha : a.Canonical)
    (fuel : ℕ) (hf : a.num.natAbs < fuel) :
    (FitsBase p 16 prec a → FractionLost 16 prec a → ∃ t, showHex p powF prec fuel a = .ok (t ++ ['.']) ∧
      parseHex p powF (t ++ ['.']) = none) ∧
    (FitsBase p 8 prec a → FractionLost 8 prec a → ∃ t, showOct p powF prec fuel a = .ok (t ++ ['.']) ∧
      parseOct p powF (t ++ ['.']) = none) ∧
    (FitsBase p 2 prec a → FractionLost 2 prec a → ∃ t, showBin p powF prec fuel a none = .ok (t ++ ['.']) ∧
      parseBin p powF (t ++ ['.']) = none) ∧
    (∀ b, 2 ≤ b → b ≤ 36 → b ≠ 10 → FitsBase p b prec a → FractionLost b prec a →
      ∃ t, showArb p powF prec fuel a b = .ok (t ++ ['.']) ∧ parseArb p powF (t ++ ['.']) = .ok none) := by
  refine ⟨fun hfit hk => ?_, fun hfit hk => ?_, fun hfit hk => ?_, fun b hb hb36 hb10 hfit hk => ?_⟩
  · obtain ⟨ip, fp, h1, h2, h3, h4, h5, -⟩ := cut_all hp powF (by norm_num) (by norm_num) (by norm_num) ha hfit hf
    obtain ⟨k1, k2⟩ := (lost_iff (by norm_num) ha).mp hk
    refine ⟨(if decide (a.num < 0) then ['-'] else []) ++ "0x".toList ++ ip.map chr, ?_, ?_⟩
    · unfold showHex
      rw [show (16:ℤ) = ((16:ℕ):ℤ) by norm_num, h1, h5.mpr k2, decide_eq_true (And.intro k1 hprec)]
      exact addPrefix_with h4.whole (fun d hd => lt_of_lt_of_le (h2 d hd) (by norm_num)) _
    · unfold parseHex
      rw [pointed_unread (by decide) (by decide)]; rfl
  · obtain ⟨ip, fp, h1, h2, h3, h4, h5, -⟩ := cut_all hp powF (by norm_num) (by norm_num) (by norm_num) ha hfit hf
    obtain ⟨k1, k2⟩ := (lost_iff (by norm_num) ha).mp hk
    refine ⟨(if decide (a.num < 0) then ['-'] else []) ++ "0o".toList ++ ip.map chr, ?_, ?_⟩
    · unfold showOct
      rw [show (8:ℤ) = ((8:ℕ):ℤ) by norm_num, h1, h5.mpr k2, decide_eq_true (And.intro k1 hprec)]
      exact addPrefix_with h4.whole (fun d hd => lt_of_lt_of_le (h2 d hd) (by norm_num)) _
    · unfold parseOct
      rw [pointed_unread (by decide) (by decide)]; rfl
  · obtain ⟨ip, fp, h1, h2, h3, h4, h5, -⟩ := cut_all hp powF (by norm_num) (by norm_num) (by norm_num) ha hfit hf
    obtain ⟨k1, k2⟩ := (lost_iff (by norm_num) ha).mp hk
    refine ⟨(if decide (a.num < 0) then ['-'] else []) ++ "0b".toList ++ ip.map chr, ?_, ?_⟩
    · unfold showBin
      rw [show (2:ℤ) = ((2:ℕ):ℤ) by norm_num, h1, h5.mpr k2, decide_eq_true (And.intro k1 hprec)]
      exact addPrefix_with h4.whole (fun d hd => lt_of_lt_of_le (h2 d hd) (by norm_num)) _
    · unfold parseBin
      rw [pointed_unread (by decide) (by decide)]; rfl
  · obtain ⟨ip, fp, h1, h2, h3, h4, h5, -⟩ := cut_all hp powF hb hb36 hb10 ha hfit hf
    obtain ⟨k1, k2⟩ := (lost_iff hb ha).mp hk
    refine ⟨(if decide (a.num < 0) then ['-'] else []) ++ (natText b ++ ['z']) ++ ip.map chr, ?_, ?_⟩
    · unfold showArb
      rw [h1, h5.mpr k2, decide_eq_true (And.intro k1 hprec)]
      exact addPrefix_with h4.whole (fun d hd => lt_of_lt_of_le (h2 d hd) hb36) _
    · unfold parseArb
      rw [pointed_arb]

/-- One third, with thirty places at the precision of a calculator. -/
example : (⟨1, 3⟩ : Number).Canonical ∧ FitsBase 100 2 30 ⟨1, 3⟩ ∧ ¬ FractionLost 2 30 ⟨1, 3⟩ ∧
    showBin 100 noPow 30 2 ⟨1, 3⟩ none = .ok "0b0.010101010101010101010101010101".toList := by
  have hc : (⟨1, 3⟩ : Number).Canonical := by unfold Number.Canonical; decide
  refine ⟨hc, by unfold FitsBase; decide +kernel, ?_, by decide +kernel⟩
  rw [lost_iff (by norm_num) hc]; decide +kernel

example : (⟨-1000, 7⟩ : Number).Canonical ∧ FitsBase 100 16 5 ⟨-1000, 7⟩ ∧
    showHex 100 noPow 5 1001 ⟨-1000, 7⟩ = .ok "-0x8E.DB6DB".toList := by
  refine ⟨by unfold Number.Canonical; decide, by unfold FitsBase; decide +kernel, by decide +kernel⟩

/-- A whole number and a fraction lost: `1 + 1/2^40` is shown as `0b1.`. -/
example : (⟨2 ^ 40 + 1, 2 ^ 40⟩ : Number).Canonical ∧ FitsBase 100 2 30 ⟨2 ^ 40 + 1, 2 ^ 40⟩ ∧
    FractionLost 2 30 ⟨2 ^ 40 + 1, 2 ^ 40⟩ ∧
    showBin 100 noPow 30 100 ⟨2 ^ 40 + 1, 2 ^ 40⟩ none = .ok "0b1.".toList ∧
    parseBin 100 noPow "0b1.".toList = none := by
  have hc : (⟨2 ^ 40 + 1, 2 ^ 40⟩ : Number).Canonical := by unfold Number.Canonical; decide
  refine ⟨hc, by unfold FitsBase; decide +kernel, ?_, by decide +kernel, ?_⟩
  · rw [lost_iff (by norm_num) hc]; decide +kernel
  · unfold parseBin
    rw [show "0b1.".toList = "0b1".toList ++ ['.'] by decide, pointed_unread (by decide) (by decide)]; rfl

end MC.Props
