import Verif.Lemmas.Total
import Verif.Props.Display

/-!
# C13 - C16: numbers in other bases

`p` is the precision (100), `prec` the number of places written (30).  `fuel` bounds
the search for the highest power; the text does not depend on it once it is large
enough.
-/

namespace MC.Props
open MC Number

/-- A power function that is never called by the examples below. -/
def noPow : ℚ → ℚ → Except Err ℚ := fun _ _ => .error (.py "unused")

/-! ## C13 Writing in a base and reading back -/

theorem decToBase_zero (p : ℕ) (powF) (prec fuel : ℕ) (b : ℤ) : decToBase p powF prec fuel ⟨0, 1⟩ b = .ok ['0'] := by
  unfold decToBase
  rw [if_pos (by unfold toDecimal; simp [rnd_zero])]

theorem baseToDec_zero {p : ℕ} (hp : 1 ≤ p) (powF) (b : ℤ) : baseToDec p powF ['0'] b = .ok ⟨0, 1⟩ := by
  unfold baseToDec
  rw [if_pos rfl, ofInt_eq hp]

theorem canonical_zero {a : Number} (ha : a.Canonical) (h : a.val = 0) : a = ⟨0, 1⟩ :=
  canonical_ext ha (canonical_int 0) (by rw [h]; simp [val])

/-- The written text, its digits, and reading it back. -/
theorem written {p : ℕ} (hp : 1 ≤ p) (powF) {b k prec : ℕ} (hb : 2 ≤ b) (hb36 : b ≤ 36) (hb10 : b ≠ 10)
    (hk : k ≤ prec) {a : Number} (ha : a.Canonical) {z : ℤ} (hz : z ≠ 0)
    (hval : a.val = (z:ℚ) / (b:ℚ) ^ k) (h5 : 5 * (b * z.natAbs * b ^ k) < 10 ^ p) :
    ∃ ip fp, (∀ d ∈ ip, d < b) ∧ (∀ d ∈ fp, d < b) ∧ ip ≠ [] ∧ fp.length ≤ k ∧
      ip.length = Nat.log b (z.natAbs / b ^ k) + 1 ∧ positional b ip = z.natAbs / b ^ k ∧
      positional b fp * b ^ (k - fp.length) = z.natAbs % b ^ k ∧ fp.getLast? ≠ some 0 ∧
      positionalQ b ip fp = |a.val| ∧
      (positional b ip * b ^ fp.length + positional b fp) * b ^ fp.length < 10 ^ p ∧
      b ^ (ip.length - 1) < 10 ^ p ∧ b ^ fp.length < 10 ^ p ∧
      ∀ fuel, z.natAbs < fuel → decToBase p powF prec fuel a b = .ok (basedText (decide (z < 0)) ip fp) := by
  have hN : 0 < z.natAbs := by omega
  have hbk : 1 ≤ b ^ k := Nat.one_le_pow _ _ (by omega)
  have hval' : a.val = (if decide (z < 0) then -1 else 1) * ((z.natAbs:ℚ) / ((b ^ k : ℕ):ℚ)) := by
    rw [hval]
    rcases lt_or_ge z 0 with h | h
    · have : ((z.natAbs : ℕ):ℚ) = -(z:ℚ) := by
        rw [Nat.cast_natAbs, abs_of_neg h]; push_cast; rfl
      simp [h, this, neg_div]
    · have : ((z.natAbs : ℕ):ℚ) = (z:ℚ) := by
        rw [Nat.cast_natAbs, abs_of_nonneg h]
      rw [this]
      have hd : decide (z < 0) = false := by simpa using h
      simp [hd]
  have hlog : Nat.log b (z.natAbs / b ^ k) ≤ z.natAbs := by
    calc Nat.log b (z.natAbs / b ^ k) ≤ z.natAbs / b ^ k := Nat.log_le_self _ _
      _ ≤ z.natAbs := Nat.div_le_self _ _
  obtain ⟨ip, fp, e, i1, i2, i3, i4, i5, i6, i7⟩ := decToBase_exact hp powF hb hb36 hb10 hk ha hN hval' h5
    (fuel := z.natAbs + 1) (by omega)
  have hbq : (0:ℚ) < (b:ℚ) := by
    have : 0 < b := by omega
    exact_mod_cast this
  have hsum : (positional b ip * b ^ fp.length + positional b fp) * b ^ (k - fp.length) = z.natAbs := by
    rw [Nat.add_mul, mul_assoc, ← pow_add, i6, i4, show fp.length + (k - fp.length) = k by omega]
    exact Nat.div_add_mod' _ _
  have hle : (positional b ip * b ^ fp.length + positional b fp) * b ^ fp.length ≤ z.natAbs * b ^ k := by
    rw [← hsum]
    apply Nat.mul_le_mul
    · exact Nat.le_mul_of_pos_right _ (by positivity)
    · exact Nat.pow_le_pow_right (by omega) i5
  have hNb : z.natAbs * b ^ k ≤ b * z.natAbs * b ^ k :=
    Nat.mul_le_mul_right _ (Nat.le_mul_of_pos_left _ (by omega))
  have hDN : b ^ k ≤ z.natAbs * b ^ k := Nat.le_mul_of_pos_left _ hN
  have hNN : z.natAbs ≤ z.natAbs * b ^ k := Nat.le_mul_of_pos_right _ hbk
  have hlen0 : ip ≠ [] := by intro h; rw [h] at i3; simp at i3
  refine ⟨ip, fp, i1, i2, hlen0, i5, i3, i4, i6, i7, ?_, by omega, ?_, ?_, ?_⟩
  · rw [hval', abs_mul, abs_of_nonneg (by positivity : (0:ℚ) ≤ (z.natAbs:ℚ) / ((b ^ k : ℕ):ℚ))]
    have e1 : |(if decide (z < 0) = true then (-1:ℚ) else 1)| = 1 := by
      split <;> simp
    rw [e1, one_mul, ← hsum]
    unfold positionalQ
    push_cast
    rw [show k = fp.length + (k - fp.length) by omega, pow_add]
    simp only [Nat.add_sub_cancel_left]
    field_simp
  · rw [i3, Nat.add_sub_cancel]
    rcases Nat.eq_zero_or_pos (z.natAbs / b ^ k) with h0 | h0
    · rw [h0]; simp; omega
    · have h1 := Nat.pow_log_le_self b h0.ne'
      have h2 := Nat.div_le_self z.natAbs (b ^ k)
      omega
  · have := Nat.pow_le_pow_right (by omega : 0 < b) i5
    omega
  · intro fuel hf
    obtain ⟨ip', fp', e', j1, j2, j3, j4, j5, j6, j7⟩ := decToBase_exact hp powF hb hb36 hb10 hk ha hN hval' h5
      (fuel := fuel) (by omega)
    have hip : ip' = ip := positional_inj j1 i1 (by rw [i3, j3]) (by rw [i4, j4])
    have hpad : fp' ++ List.replicate (k - fp'.length) 0 = fp ++ List.replicate (k - fp.length) 0 := by
      apply positional_inj (b := b)
      · intro d hd
        rcases List.mem_append.mp hd with hd | hd
        · exact j2 d hd
        · rw [List.mem_replicate] at hd; omega
      · intro d hd
        rcases List.mem_append.mp hd with hd | hd
        · exact i2 d hd
        · rw [List.mem_replicate] at hd; omega
      · simp; omega
      · rw [positional_append, positional_append, positional_replicate_zero, positional_replicate_zero]
        simp only [List.length_replicate, add_zero]
        rw [i6, j6]
    rw [e', hip]
    have hfp : fp' = fp := by
      have key : ∀ (x y : List ℕ), x.length ≤ y.length → x.getLast? ≠ some 0 → y.getLast? ≠ some 0 →
          x.length ≤ k → y.length ≤ k →
          x ++ List.replicate (k - x.length) 0 = y ++ List.replicate (k - y.length) 0 → x = y := by
        intro x y hl hx hy hxk hyk h
        have h1 : y = x ++ List.replicate (y.length - x.length) 0 := by
          have := congrArg (List.take y.length) h
          rw [List.take_left, List.take_append, List.take_of_length_le hl, List.take_replicate,
            Nat.min_eq_left (by omega)] at this
          exact this.symm
        rcases Nat.eq_zero_or_pos (y.length - x.length) with h0 | h0
        · rw [h0] at h1; simpa using h1.symm
        · exfalso
          apply hy
          rw [h1]
          obtain ⟨m, hm⟩ : ∃ m, y.length - x.length = m + 1 := ⟨_, (Nat.succ_pred_eq_of_pos h0).symm⟩
          rw [hm, List.replicate_succ', ← List.append_assoc]
          simp
      rcases le_total fp'.length fp.length with h | h
      · exact key _ _ h j7 i7 j5 i5 hpad
      · exact (key _ _ h i7 j7 i5 j5 hpad.symm).symm
    rw [hfp]

theorem basedText_signed (neg : Bool) (ip fp : List ℕ) :
    basedText neg ip fp = signedText neg (ip.map chr) (fp.map chr) := by
  unfold basedText signedText
  by_cases h : fp = [] <;> simp [h]

theorem sign_val {a : Number} {b k : ℕ} (hb : 2 ≤ b) {z : ℤ} (hval : a.val = (z:ℚ) / (b:ℚ) ^ k) :
    (if decide (z < 0) = true then (-1:ℚ) else 1) * |a.val| = a.val := by
  have hbq : (0:ℚ) < (b:ℚ) ^ k := by
    have : (0:ℚ) < (b:ℚ) := by
      have : 0 < b := by omega
      exact_mod_cast this
    positivity
  rcases lt_or_ge z 0 with h | h
  · have h2 : (z:ℚ) < 0 := by exact_mod_cast h
    have : a.val < 0 := by rw [hval]; exact div_neg_of_neg_of_pos h2 hbq
    simp only [h, decide_true, if_true, abs_of_neg this]; ring
  · have h2 : (0:ℚ) ≤ z := by exact_mod_cast h
    have : 0 ≤ a.val := by rw [hval]; exact div_nonneg h2 hbq.le
    have hd : decide (z < 0) = false := by simpa using h
    simp [hd, abs_of_nonneg this]

/-- In a base other than ten, a number `z / b^k` with at most `prec` places is written
as a text that reads back as exactly the same number. -/
theorem C13_round_trip (p : ℕ) (hp : 1 ≤ p) (powF) (b k prec : ℕ) (hb : 2 ≤ b) (hb36 : b ≤ 36)
    (hb10 : b ≠ 10) (hk : k ≤ prec) (a : Number) (ha : a.Canonical) (z : ℤ)
    (hval : a.val = (z:ℚ) / (b:ℚ) ^ k) (h5 : 5 * (b * z.natAbs * b ^ k) < 10 ^ p) :
    ∃ t F, (∀ fuel, F ≤ fuel → decToBase p powF prec fuel a b = .ok t) ∧
      baseToDec p powF t b = .ok a := by
  by_cases hz : z = 0
  · have h0 := canonical_zero ha (by rw [hval, hz]; simp)
    subst h0
    exact ⟨['0'], 0, fun fuel _ => decToBase_zero .., baseToDec_zero hp ..⟩
  · obtain ⟨ip, fp, i1, i2, i3, i4, i5, i6, i7, i8, i9, i10, i11, i12, i13⟩ :=
      written hp powF hb hb36 hb10 hk ha hz hval h5
    refine ⟨basedText (decide (z < 0)) ip fp, z.natAbs + 1, fun fuel hf => i13 fuel (by omega), ?_⟩
    rw [basedText_signed]
    obtain ⟨r, hr, hc, hv⟩ := baseToDec_exact hp powF hb hb36 hb10 (decide (z < 0))
      (DigitsAre.map_chr hb36 i1) (DigitsAre.map_chr hb36 i2) (by simpa using i3) i10 i11 i12
    rw [hr]; congr 1
    refine canonical_ext hc ha ?_
    rw [hv, i9]
    exact sign_val hb hval

/-- Every integer of at most `p - prec - 3` digits, in every base from 2 to 36
including ten, reads back from its text. -/
theorem C13_integers (p prec : ℕ) (powF) (b : ℕ) (hb : 2 ≤ b) (hb36 : b ≤ 36) (z : ℤ)
    (h : |z| * 10 ^ (prec + 3) < 10 ^ p) (hprec : prec < p) :
    ∃ t F, (∀ fuel, F ≤ fuel → decToBase p powF prec fuel ⟨z, 1⟩ b = .ok t) ∧
      baseToDec p powF t b = .ok ⟨z, 1⟩ := by
  have hp : 1 ≤ p := by omega
  by_cases hz : z = 0
  · subst hz
    exact ⟨['0'], 0, fun fuel _ => decToBase_zero .., baseToDec_zero hp ..⟩
  by_cases hb10 : b = 10
  · subst hb10
    have hb' : 10 ^ (prec + 1) * |z| < 10 ^ p := by
      refine lt_of_le_of_lt ?_ h
      rw [mul_comm]
      exact mul_le_mul_of_nonneg_left (pow_le_pow_right₀ (by norm_num) (by omega)) (abs_nonneg _)
    obtain ⟨t, r, ht, hr, hc, _, hex⟩ := C10_read_back p prec hprec ⟨z, 1⟩ (canonical_int z) hb'
    have hra := hex ⟨z * 10 ^ prec, by rw [val_int]; push_cast; field_simp⟩
    subst hra
    have hd0 : toDecimal p ⟨z, 1⟩ ≠ 0 := by
      unfold toDecimal
      rw [Ne, rnd_eq_zero_iff hp]
      simpa using hz
    refine ⟨t, 0, fun fuel _ => ?_, ?_⟩
    · unfold decToBase
      rw [if_neg hd0, if_pos (by norm_num), ht]
    · obtain ⟨neg, ip, fp, e, h1, h2, h3, _, _, _, _, hv⟩ := toText_ok ht
      have ht0 : t ≠ ['0'] := by
        intro h0
        rw [h0] at hr
        have e1 : parseDecimal p ['0'] = some (ofInt p 0) := by
          unfold parseDecimal
          have : matchDecimal ['0'] = some (false, ['0'], [], []) := by decide
          rw [this]
          simp only
          congr 1
          unfold ofInt
          congr 1
          simp [decimalOf, readNat, digitVal]
        rw [e1, ofInt_eq hp] at hr
        simp only [Option.some.injEq, Except.ok.injEq, Number.mk.injEq, and_true] at hr
        exact hz hr.symm
      unfold baseToDec
      rw [if_neg ht0, if_pos (by norm_num), e, decimalCtor_assemble h1 h2 h3]
      simp only [ok_bind]
      rw [e] at hr
      unfold parseDecimal at hr
      rw [matchDecimal_assemble h1 h2 h3] at hr
      simpa using hr
  · apply C13_round_trip p hp powF b 0 prec hb hb36 hb10 (by omega) _ (canonical_int z) z
    · rw [val_int]; simp
    · have e : |z| = (z.natAbs : ℤ) := Int.abs_eq_natAbs z
      rw [e] at h
      have h' : z.natAbs * 10 ^ (prec + 3) < 10 ^ p := by exact_mod_cast h
      refine lt_of_le_of_lt ?_ h'
      have : 1000 ≤ 10 ^ (prec + 3) := by
        calc 1000 = 10 ^ 3 := by norm_num
          _ ≤ 10 ^ (prec + 3) := Nat.pow_le_pow_right (by norm_num) (by omega)
      simp only [pow_zero, mul_one]
      calc 5 * (b * z.natAbs) ≤ 5 * (36 * z.natAbs) := by
            apply Nat.mul_le_mul_left; exact Nat.mul_le_mul_right _ hb36
        _ ≤ z.natAbs * 1000 := by omega
        _ ≤ _ := Nat.mul_le_mul_left _ this

/-- Equal texts mean equal integers. -/
theorem C13_injective (p prec : ℕ) (powF) (b : ℕ) (hb : 2 ≤ b) (hb36 : b ≤ 36) (y z : ℤ)
    (hy : |y| * 10 ^ (prec + 3) < 10 ^ p) (hz : |z| * 10 ^ (prec + 3) < 10 ^ p) (hprec : prec < p)
    (h : ∀ F, ∃ fuel, F ≤ fuel ∧ decToBase p powF prec fuel ⟨y, 1⟩ b = decToBase p powF prec fuel ⟨z, 1⟩ b) :
    y = z := by
  obtain ⟨t, F, h1, h2⟩ := C13_integers p prec powF b hb hb36 y hy hprec
  obtain ⟨u, G, g1, g2⟩ := C13_integers p prec powF b hb hb36 z hz hprec
  obtain ⟨fuel, hf, e⟩ := h (max F G)
  rw [h1 fuel (by omega), g1 fuel (by omega)] at e
  simp only [Except.ok.injEq] at e
  subst e
  rw [h2] at g2
  simpa using g2

example : ∃ t F, (∀ fuel, F ≤ fuel → decToBase 100 noPow 30 fuel ⟨-255, 1⟩ (16:ℕ) = .ok t) ∧
    baseToDec 100 noPow t (16:ℕ) = .ok ⟨-255, 1⟩ :=
  C13_integers 100 30 noPow 16 (by norm_num) (by norm_num) (-255) (by norm_num) (by norm_num)

example : decToBase 100 noPow 30 10 ⟨-255, 1⟩ 16 = .ok "-FF".toList := by decide +kernel
example : decToBase 100 noPow 30 10 ⟨11, 4⟩ 2 = .ok "10.11".toList := by decide +kernel

example : ∃ t F, (∀ fuel, F ≤ fuel → decToBase 100 noPow 30 fuel ⟨11, 4⟩ (2:ℕ) = .ok t) ∧
    baseToDec 100 noPow t (2:ℕ) = .ok ⟨11, 4⟩ :=
  C13_round_trip 100 (by norm_num) noPow 2 2 30 (by norm_num) (by norm_num) (by norm_num) (by norm_num)
    ⟨11, 4⟩ (by unfold Number.Canonical; decide) 11 (by unfold val; norm_num) (by norm_num)

end MC.Props
