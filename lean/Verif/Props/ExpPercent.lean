import Verif.Model.ExpPercent
import Verif.Props.Bases2

/-! # C17: percentage and exponent literals -/

namespace MC.Props
open MC Number

/-- The literal of a plain decimal. -/
theorem decimal_literal {p : ℕ} {neg : Bool} {ip fp : List Char} (hf : fp.length < p) :
    ∃ r, mk' p (decimalOf neg ip fp) 1 = .ok r ∧ r.Canonical ∧ r.val = decimalOf neg ip fp ∧
      r.den ∣ 10 ^ fp.length ∧ |r.num| ≤ (readNat ip * 10 ^ fp.length + readNat fp : ℕ) := by
  have hk : decimalOf neg ip fp =
      (((if neg then -1 else 1) * ((readNat ip : ℤ) * 10 ^ fp.length + readNat fp) : ℤ) : ℚ) / ((10 ^ fp.length : ℤ) : ℚ) := by
    unfold decimalOf; push_cast
    split <;> field_simp
  set k : ℤ := (if neg then -1 else 1) * ((readNat ip : ℤ) * 10 ^ fp.length + readNat fp) with hkdef
  have hdvd : ((decimalOf neg ip fp).den : ℤ) ∣ 10 ^ fp.length := by
    have := Rat.den_dvd k (10 ^ fp.length)
    rw [Rat.divInt_eq_div] at this
    rw [hk]; exact this
  have hlt : ((decimalOf neg ip fp).den : ℤ) < 10 ^ p :=
    lt_of_le_of_lt (Int.le_of_dvd (by positivity) hdvd) (pow_lt_pow_right₀ (by norm_num) hf)
  refine ⟨_, mk'_lit _ hlt, canonical_ofRat _, val_ofRat _, hdvd, ?_⟩
  have := num_le_of_val (canonical_ofRat (decimalOf neg ip fp)) (n := k) (d := 10 ^ fp.length) (by positivity)
    (by rw [val_ofRat, hk])
  refine this.trans ?_
  rw [hkdef, abs_mul]
  have e1 : |(if neg = true then (-1:ℤ) else 1)| = 1 := by split <;> simp
  rw [e1, one_mul, abs_of_nonneg (by positivity)]
  push_cast; rfl

/-- `n%` denotes `n / 100`. -/
theorem C17_percent_value (p : ℕ) (neg : Bool) (ics fcs : List Char) (ip fp : List ℕ) (hi : DigitsAre 10 ics ip)
    (hne : ics ≠ []) (hf : DigitsAre 10 fcs fp) (hsize : ip.length + fp.length + 2 < p) :
    ∃ r, parsePercent p ((if neg then ['-'] else []) ++ ics ++ (if fcs = [] then [] else '.' :: fcs) ++ ['%']) =
        some (.ok r) ∧ r.Canonical ∧ r.val = (if neg then -1 else 1) * positionalQ 10 ip fp / 100 := by
  have ea : (if neg then ['-'] else []) ++ ics ++ (if fcs = [] then [] else '.' :: fcs) = assemble neg ics fcs := rfl
  rw [ea]
  have hfl := hf.length
  have hil := hi.length
  unfold parsePercent
  rw [matchDecimal_append hi.ten.1 hne hf.ten.1 (by intro c hc; simp at hc; subst hc; decide)]
  simp only
  obtain ⟨m, h1, h2, h3, h4, h5⟩ := decimal_literal (p := p) (neg := neg) (ip := ics) (fp := fcs) (by omega)
  have hbound : readNat ics * 10 ^ fcs.length + readNat fcs < 10 ^ (ics.length + fcs.length) := by
    have a1 := readNat_lt hi.ten.1
    have a2 := readNat_lt hf.ten.1
    rw [pow_add]
    calc readNat ics * 10 ^ fcs.length + readNat fcs < readNat ics * 10 ^ fcs.length + 10 ^ fcs.length := by omega
      _ = (readNat ics + 1) * 10 ^ fcs.length := by ring
      _ ≤ _ := Nat.mul_le_mul_right _ a1
  have hp10 : (10:ℕ) ^ (ics.length + fcs.length) ≤ 10 ^ p := Nat.pow_le_pow_right (by norm_num) (by omega)
  have hden : m.den ≤ 10 ^ fcs.length := Int.le_of_dvd (by positivity) h4
  have hd2 : m.den * 100 < 10 ^ p := by
    calc m.den * 100 ≤ 10 ^ fcs.length * 10 ^ 2 := by
          have : m.den * 100 ≤ 10 ^ fcs.length * 100 := mul_le_mul_of_nonneg_right hden (by norm_num)
          linarith
      _ = 10 ^ (fcs.length + 2) := by rw [pow_add]
      _ < 10 ^ p := pow_lt_pow_right₀ (by norm_num) (by omega)
  obtain ⟨r, r1, r2, r3⟩ := div_exact (p := p) (a := m) (b := ⟨100, 1⟩) h2.1 (by norm_num) (by norm_num)
    (by
      rw [mul_one]
      refine lt_of_le_of_lt h5 ?_
      exact_mod_cast lt_of_lt_of_le hbound hp10)
    (by rw [abs_of_pos (mul_pos h2.1 (by norm_num))]; exact hd2)
  refine ⟨r, ?_, r2, ?_⟩
  · rw [h1, ofInt_eq (by omega)]
    simp only [ok_bind]
    rw [r1]
  · rw [r3, h3, decimalOf_positional hi hf]; unfold val; norm_num

example : ∃ r, parsePercent 100 "-12.5%".toList = some (.ok r) ∧ r.Canonical ∧ r.val = -1/8 := by
  obtain ⟨r, h1, h2, h3⟩ := C17_percent_value 100 true "12".toList "5".toList [1, 2] [5] (by unfold DigitsAre; decide)
    (by decide) (by unfold DigitsAre; decide) (by decide)
  exact ⟨r, h1, h2, by rw [h3]; norm_num [positionalQ, positional]⟩

/-- The power of ten with an integer exponent, as a number. -/
theorem pow_ten {p : ℕ} (powF) {e : ℤ} (he : e.natAbs < p) :
    ∃ t, (do Number.pow p powF (← ofInt p 10) ⟨e, 1⟩) = .ok t ∧ t.Canonical ∧ t.val = (10:ℚ) ^ e ∧
      t.num = 10 ^ e.toNat ∧ t.den = 10 ^ (-e).toNat := by
  have hp : 1 ≤ p := by omega
  have h := pow_base (p := p) powF (b := 10) (by norm_num) (j := e) (Nat.pow_lt_pow_right (by norm_num) he)
  rw [ofInt_eq hp]
  simp only [ok_bind]
  refine ⟨_, h, canonical_pow_base (by norm_num), ?_, ?_, ?_⟩
  · have := val_pow_base (b := 10) (j := e)
    push_cast at this ⊢; exact this
  · split
    · show ((10:ℕ):ℤ) ^ e.natAbs = _
      rw [show e.toNat = e.natAbs by omega]; norm_num
    · rw [show e.toNat = 0 by omega]; simp
  · split
    · rw [show (-e).toNat = 0 by omega]; simp
    · show ((10:ℕ):ℤ) ^ e.natAbs = _
      rw [show (-e).toNat = e.natAbs by omega]; norm_num

theorem mk'_intRat {p : ℕ} (hp : 1 ≤ p) (z : ℤ) : mk' p (z:ℚ) 1 = .ok ⟨z, 1⟩ := ofInt_eq hp z

/-- The core of reading an exponent literal. -/
theorem parseExp_parts {p : ℕ} (powF) {neg eneg : Bool} {ics fcs es : List Char} (hi : AllDigits ics)
    (hne : ics ≠ []) (hf : AllDigits fcs) (he : AllDigits es) (hen : es ≠ []) {c : Char} (hc : c.toLower = 'e')
    {m : Number} (hm : mk' p (decimalOf neg ics fcs) 1 = .ok m) (hmc : m.Canonical)
    (hsz : readNat es < p) (hnum : |m.num| * 10 ^ (if eneg then 0 else readNat es) < 10 ^ p)
    (hden : m.den * 10 ^ (if eneg then readNat es else 0) < 10 ^ p) :
    ∃ r, parseExp p powF (assemble neg ics fcs ++ c :: ((if eneg then ['-'] else []) ++ es)) = some (.ok r) ∧
      r.Canonical ∧ r.val = m.val * 10 ^ (if eneg then -(readNat es : ℤ) else (readNat es : ℤ)) := by
  have hp : 1 ≤ p := by omega
  set e : ℤ := if eneg then -(readNat es : ℤ) else (readNat es : ℤ) with hedef
  have hcd : c.isDigit = false ∧ c ≠ '.' := by
    have hlt : c = 'e' ∨ c = 'E' := by
      by_cases h1 : c.toNat < 128
      · have : ∀ n < 128, (Char.ofNat n).toLower = 'e' → Char.ofNat n = 'e' ∨ Char.ofNat n = 'E' := by decide +kernel
        have hch : c = Char.ofNat c.toNat := (Char.ofNat_toNat c).symm
        rw [hch] at hc ⊢; exact this _ h1 hc
      · have : c.toLower = c := by
          unfold Char.toLower; rw [dif_neg]; intro h
          have : c.toNat ≤ 90 := h.2
          omega
        rw [this] at hc; exact Or.inl hc
    rcases hlt with rfl | rfl <;> decide
  unfold parseExp
  rw [matchDecimal_append hi hne hf (by intro x hx; simp at hx; subst hx; exact hcd)]
  simp only [if_pos hc]
  have hes : ((((if eneg then ['-'] else []) ++ es).head? == some '-'),
      if (((if eneg then ['-'] else []) ++ es).head? == some '-') then ((if eneg then ['-'] else []) ++ es).tail
        else ((if eneg then ['-'] else []) ++ es)) = (eneg, es) := by
    cases eneg with
    | true => simp
    | false => simp [digits_head_ne_minus he]
  simp only [Prod.mk.injEq] at hes
  rw [hes.2, hes.1, spanDigits_all he]
  obtain ⟨d0, ds0, hd0⟩ := List.exists_cons_of_ne_nil hen
  rw [hd0]
  simp only
  rw [← hd0, hm]
  have hexp : mk' p (if eneg = true then -(readNat es : ℚ) else (readNat es : ℚ)) 1 = .ok ⟨e, 1⟩ := by
    have := mk'_intRat hp e
    rw [← this, hedef]; cases eneg <;> simp
  rw [hexp]
  have hea : e.natAbs < p := by rw [hedef]; cases eneg <;> simp <;> omega
  obtain ⟨t, t1, t2, t3, t4, t5⟩ := pow_ten powF hea
  have het : e.toNat = (if eneg then 0 else readNat es) ∧ (-e).toNat = (if eneg then readNat es else 0) := by
    rw [hedef]; cases eneg <;> simp
  obtain ⟨r, r1, r2, r3⟩ := mul_exact (p := p) (a := m) (b := t) hmc.1 t2.1
    (by rw [t4, het.1, abs_mul, abs_of_nonneg (by positivity : (0:ℤ) ≤ 10 ^ _)]; exact hnum)
    (by rw [t5, het.2]; exact hden)
  refine ⟨r, ?_, r2, by rw [r3, t3]⟩
  simp only [ok_bind] at t1 ⊢
  congr 1
  have : (do
      let __do_lift ← ofInt p 10
      let __do_lift ← Number.pow p powF __do_lift ⟨e, 1⟩
      Number.mul p m __do_lift) = (do
      let t ← (do Number.pow p powF (← ofInt p 10) ⟨e, 1⟩)
      Number.mul p m t) := by
    rw [ofInt_eq hp]; rfl
  rw [this, t1]
  exact r1

/-- `mEe` denotes `m * 10^e`: when the exponent is not negative the digits must fit the
precision, when it is negative the places must. -/
theorem C17_exp_value (p : ℕ) (powF) (neg eneg : Bool) (ics fcs es : List Char) (ip fp ep : List ℕ)
    (hi : DigitsAre 10 ics ip) (hne : ics ≠ []) (hf : DigitsAre 10 fcs fp) (he : DigitsAre 10 es ep) (hen : es ≠ [])
    (c : Char) (hc : c = 'E' ∨ c = 'e') (hsize : ip.length + fp.length + positional 10 ep < p) :
    ∃ r, parseExp p powF ((if neg then ['-'] else []) ++ ics ++ (if fcs = [] then [] else '.' :: fcs) ++
        c :: ((if eneg then ['-'] else []) ++ es)) = some (.ok r) ∧ r.Canonical ∧
      r.val = (if neg then -1 else 1) * positionalQ 10 ip fp *
        10 ^ ((if eneg then -1 else 1) * (positional 10 ep : ℤ)) := by
  have ea : (if neg then ['-'] else []) ++ ics ++ (if fcs = [] then [] else '.' :: fcs) = assemble neg ics fcs := rfl
  rw [ea]
  have hfl := hf.length
  have hil := hi.length
  have hep := he.ten.2
  obtain ⟨m, h1, h2, h3, h4, h5⟩ := decimal_literal (p := p) (neg := neg) (ip := ics) (fp := fcs) (by omega)
  have hbound : readNat ics * 10 ^ fcs.length + readNat fcs < 10 ^ (ics.length + fcs.length) := by
    have a1 := readNat_lt hi.ten.1
    have a2 := readNat_lt hf.ten.1
    rw [pow_add]
    calc readNat ics * 10 ^ fcs.length + readNat fcs < readNat ics * 10 ^ fcs.length + 10 ^ fcs.length := by omega
      _ = (readNat ics + 1) * 10 ^ fcs.length := by ring
      _ ≤ _ := Nat.mul_le_mul_right _ a1
  have hnum : |m.num| < 10 ^ (ics.length + fcs.length) := lt_of_le_of_lt h5 (by exact_mod_cast hbound)
  have hden : m.den ≤ 10 ^ fcs.length := Int.le_of_dvd (by positivity) h4
  obtain ⟨r, r1, r2, r3⟩ := parseExp_parts (p := p) powF (neg := neg) (eneg := eneg) hi.ten.1 hne hf.ten.1 he.ten.1 hen
    (c := c) (by rcases hc with rfl | rfl <;> decide) h1 h2 (by omega)
    (by
      set j := (if eneg then 0 else readNat es) with hj
      have hjle : j ≤ readNat es := by rw [hj]; split <;> omega
      calc |m.num| * 10 ^ j < 10 ^ (ics.length + fcs.length) * 10 ^ j :=
            mul_lt_mul_of_pos_right hnum (by positivity)
        _ = 10 ^ (ics.length + fcs.length + j) := by rw [← pow_add]
        _ ≤ 10 ^ p := pow_le_pow_right₀ (by norm_num) (by omega))
    (by
      set j := (if eneg then readNat es else 0) with hj
      have hjle : j ≤ readNat es := by rw [hj]; split <;> omega
      calc m.den * 10 ^ j ≤ 10 ^ fcs.length * 10 ^ j := mul_le_mul_of_nonneg_right hden (by positivity)
        _ = 10 ^ (fcs.length + j) := by rw [← pow_add]
        _ < 10 ^ p := pow_lt_pow_right₀ (by norm_num) (by omega))
  refine ⟨r, r1, r2, ?_⟩
  rw [r3, h3, decimalOf_positional hi hf, hep]
  congr 2
  cases eneg <;> simp

example : ∃ r, parseExp 100 noPow "-1.5e-3".toList = some (.ok r) ∧ r.Canonical ∧ r.val = -3/2000 := by
  obtain ⟨r, h1, h2, h3⟩ := C17_exp_value 100 noPow true true "1".toList "5".toList "3".toList [1] [5] [3]
    (by unfold DigitsAre; decide) (by decide) (by unfold DigitsAre; decide) (by unfold DigitsAre; decide)
    (by decide) 'e' (by decide) (by decide)
  exact ⟨r, h1, h2, by rw [h3]; norm_num [positionalQ, positional]⟩

/-- Showing a number as a percentage and reading it back gives the number, when its
percentage has at most `n` decimal places. -/
theorem C17_percent_round_trip (p n : ℕ) (a : Number) (ha : a.Canonical) (h : 10 ^ (n+3) * |a.num| < 10 ^ p)
    (hd : a.den * 100 < 10 ^ p) (hn : n < p) (hk : ∃ k : ℤ, a.val * 100 = (k:ℚ) / 10 ^ n) :
    ∃ t, showPercent p n a = .ok t ∧ parsePercent p t = some (.ok a) := by
  have hp : 1 ≤ p := by omega
  have hden := ha.1
  have hnum : |a.num| * 100 < 10 ^ p := by
    have h1 : (1:ℤ) ≤ 10 ^ (n+1) := one_le_pow₀ (by norm_num)
    have h2 : (10:ℤ) ^ (n+3) = 10 ^ (n+1) * 100 := by rw [show n + 3 = (n+1) + 2 by omega, pow_add]; norm_num
    nlinarith [abs_nonneg a.num]
  obtain ⟨v, v1, v2, v3⟩ := mul_exact (p := p) (a := a) (b := ⟨100, 1⟩) ha.1 (by norm_num)
    (by rw [abs_mul, abs_of_pos (by norm_num : (0:ℤ) < 100)]; exact hnum) (by simp; omega)
  have hv : v.val = a.val * 100 := by rw [v3]; simp [val]
  have hv' : v.val = ((a.num * 100 : ℤ) : ℚ) / (a.den : ℤ) := by
    rw [hv]; unfold val; push_cast; ring
  have hvn : |v.num| ≤ |a.num| * 100 := by
    have := num_le_of_val v2 (by omega : a.den ≠ 0) hv'
    rwa [abs_mul, abs_of_pos (by norm_num : (0:ℤ) < 100)] at this
  have hvd : v.den ≤ a.den := Int.le_of_dvd hden (grid_den v2 hv')
  obtain ⟨t, r, t1, t2, _, _, t5⟩ := C10_read_back p n hn v v2 (by
    have h2 : (10:ℤ) ^ (n+3) = 10 ^ (n+1) * 100 := by rw [show n + 3 = (n+1) + 2 by omega, pow_add]; norm_num
    have h1 : (0:ℤ) < 10 ^ (n+1) := by positivity
    nlinarith)
  obtain ⟨k, hk⟩ := hk
  have hr : r = v := t5 ⟨k, by rw [hv, hk]⟩
  subst hr
  refine ⟨t ++ ['%'], ?_, ?_⟩
  · unfold showPercent
    rw [ofInt_eq hp]; simp only [ok_bind]; rw [v1]; simp only [ok_bind]; rw [t1]; rfl
  · obtain ⟨neg, ip, fp, e, h1, h2, h3, _⟩ := toText_ok t1
    rw [e] at t2 ⊢
    unfold parseDecimal at t2
    rw [matchDecimal_assemble h1 h2 h3] at t2
    simp only [Option.some.injEq] at t2
    unfold parsePercent
    rw [matchDecimal_append h1 h2 h3 (by intro c hc; simp at hc; subst hc; decide)]
    simp only
    rw [t2, ofInt_eq hp]; simp only [ok_bind]
    obtain ⟨w, w1, w2, w3⟩ := div_exact (p := p) (a := r) (b := ⟨100, 1⟩) v2.1 (by norm_num) (by norm_num)
      (by rw [mul_one]; omega) (by rw [abs_of_pos (mul_pos v2.1 (by norm_num))]; show r.den * 100 < _; omega)
    rw [w1, canonical_ext w2 ha (by rw [w3, hv]; unfold val; push_cast; field_simp)]

example : ∃ t, showPercent 100 30 ⟨-1, 8⟩ = .ok t ∧ parsePercent 100 t = some (.ok ⟨-1, 8⟩) :=
  C17_percent_round_trip 100 30 ⟨-1, 8⟩ ⟨by norm_num, by decide⟩ (by norm_num) (by norm_num) (by norm_num)
    ⟨-125 * 10 ^ 29, by norm_num [val]⟩

/-- The scientific parts of a number with at most `places + 1` significant digits. -/
theorem sciParts_exact {places : ℕ} {x : ℚ} (hx : x ≠ 0) {m k : ℤ} (hm : |m| < 10 ^ (places + 1))
    (h : x = m * 10 ^ k) :
    (sciParts places x).2 = Int.log 10 |x| ∧ |x| = (sciParts places x).1 * 10 ^ (Int.log 10 |x| - places) ∧
      10 ^ places ≤ (sciParts places x).1 ∧ (sciParts places x).1 < 10 ^ (places + 1) := by
  obtain ⟨b1, b2⟩ := log_bounds hx
  set e := Int.log 10 |x| with he
  have hxa : |x| = |m| * 10 ^ k := by
    rw [h, abs_mul, abs_of_pos (ten_pos k)]; push_cast; rfl
  have hle : e - places ≤ k := by
    have h1 : (10:ℚ) ^ e < 10 ^ ((places:ℤ) + 1 + k) := by
      calc (10:ℚ) ^ e ≤ |x| := b1
        _ = |m| * 10 ^ k := hxa
        _ < 10 ^ (places + 1) * 10 ^ k := mul_lt_mul_of_pos_right (by exact_mod_cast hm) (ten_pos k)
        _ = 10 ^ ((places:ℤ) + 1 + k) := by
          rw [zpow_add₀ (by norm_num : (10:ℚ) ≠ 0) ((places:ℤ) + 1) k]; norm_cast
    have := (zpow_lt_zpow_iff_right₀ (by norm_num : (1:ℚ) < 10)).mp h1
    omega
  obtain ⟨j, hj⟩ := Int.eq_ofNat_of_zero_le (sub_nonneg.mpr hle)
  have hint : |x| / 10 ^ (e - places) = ((|m| * 10 ^ j : ℤ) : ℚ) := by
    rw [hxa, mul_div_assoc, ← zpow_sub₀ (by norm_num), hj]; push_cast; rfl
  have hM0 : 0 ≤ |m| * 10 ^ j := by positivity
  have hMr : (rhu (|x| / 10 ^ (e - places))).toNat = (|m| * 10 ^ j).toNat := by rw [hint, rhu_intCast]
  have hMq : (((|m| * 10 ^ j).toNat : ℕ) : ℚ) = |x| / 10 ^ (e - places) := by
    rw [hint]
    have : (((|m| * 10 ^ j).toNat : ℕ) : ℤ) = |m| * 10 ^ j := Int.toNat_of_nonneg hM0
    exact_mod_cast this
  have hT := ten_pos (e - places)
  have hlo : 10 ^ places ≤ (|m| * 10 ^ j).toNat := by
    have : ((10 ^ places : ℕ) : ℚ) ≤ (((|m| * 10 ^ j).toNat : ℕ) : ℚ) := by
      rw [hMq, le_div_iff₀ hT]
      refine le_trans (le_of_eq ?_) b1
      push_cast
      rw [← zpow_natCast, ← zpow_add₀ (by norm_num)]; congr 1; omega
    exact_mod_cast this
  have hhi : (|m| * 10 ^ j).toNat < 10 ^ (places + 1) := by
    have : (((|m| * 10 ^ j).toNat : ℕ) : ℚ) < ((10 ^ (places + 1) : ℕ) : ℚ) := by
      rw [hMq, div_lt_iff₀ hT]
      refine lt_of_lt_of_le b2 (le_of_eq ?_)
      push_cast
      rw [← zpow_natCast, ← zpow_add₀ (by norm_num)]; congr 1; push_cast; omega
    exact_mod_cast this
  have hs : sciParts places x = ((|m| * 10 ^ j).toNat, e) := by
    unfold sciParts
    simp only
    rw [hMr, if_neg (by omega)]
  rw [hs]
  refine ⟨rfl, ?_, hlo, hhi⟩
  simp only
  rw [hMq]; field_simp

/-- A number with at most `places + 1` significant digits, not too large or small for the
precision, is shown in exponent form as a text that reads back as that number. -/
theorem C17_exp_round_trip (p places : ℕ) (hp : places + 1 < p) (powF) (a : Number) (ha : a.Canonical) (m k : ℤ)
    (hval : a.val = m * 10 ^ k) (hm : |m| < 10 ^ (places + 1))
    (hrange : a.val = 0 ∨ ((10:ℚ) ^ (-(p - places - 1 : ℤ)) ≤ |a.val| ∧ |a.val| < 10 ^ (p - places : ℤ))) :
    parseExp p powF (decToExp p places a) = some (.ok a) := by
  have hx : toDecimal p a = a.val := by
    apply rnd_of_fits
    change Fits p a.val
    exact ⟨m, k, hval, lt_of_lt_of_le hm (pow_le_pow_right₀ (by norm_num) (by omega))⟩
  unfold decToExp
  simp only [hx]
  by_cases h0 : a.val = 0
  · rw [if_pos h0]
    have hm0 : mk' p (decimalOf false ['0'] []) 1 = .ok ⟨0, 1⟩ := by
      have := mk'_intRat (p := p) (by omega) 0
      rw [← this]; congr 1
      have : readNat ['0'] = 0 := by decide
      simp [decimalOf, this, readNat_nil]
    obtain ⟨r, r1, r2, r3⟩ := parseExp_parts (p := p) powF (neg := false) (eneg := false) (ics := ['0']) (fcs := [])
      (es := ['0']) (by intro c hc; simp at hc; subst hc; decide) (by simp) (by intro c hc; simp at hc)
      (by intro c hc; simp at hc; subst hc; decide) (by simp) (c := 'E') (by decide) hm0 ⟨by norm_num, by decide⟩
      (by simp [readNat, digitVal]; omega) (by simp) (by simp [readNat, digitVal]; exact one_lt_pow₀ (by norm_num) (by omega))
    have : r = a := canonical_ext r2 ha (by rw [r3, h0]; simp [val])
    rw [← this]; exact r1
  · rw [if_neg h0]
    obtain ⟨hr1, hr2⟩ := hrange.resolve_left h0
    obtain ⟨s2, s1, s3, s4⟩ := sciParts_exact (places := places) h0 hm hval
    obtain ⟨b1, b2⟩ := log_bounds h0
    set e := Int.log 10 |a.val| with he
    set M := (sciParts places a.val).1 with hM
    have hsp : sciParts places a.val = (M, e) := by rw [hM, ← s2]
    rw [hsp]
    simp only
    have he1 : e ≤ p - places - 1 := by
      have := (zpow_lt_zpow_iff_right₀ (by norm_num : (1:ℚ) < 10)).mp (lt_of_le_of_lt b1 hr2)
      omega
    have he2 : -(p - places - 1 : ℤ) ≤ e := by
      have := (zpow_lt_zpow_iff_right₀ (by norm_num : (1:ℚ) < 10)).mp (lt_of_le_of_lt hr1 b2)
      omega
    set neg := decide (a.val < 0) with hneg
    obtain ⟨ip, fp, f1, f2, f3, f4, f5, f6, f7⟩ := fmtFixed_parts neg M places
    rw [f1, stripFraction_assemble f2 f4]
    have hip0 : ip.getLast? ≠ some '0' ∨ rstrip0 fp ≠ [] := by
      -- a coefficient of `places + 1` digits has one digit before the point
      by_cases hfp : rstrip0 fp = []
      · left
        have hv := f6 false
        rw [← decimalOf_rstrip, hfp] at hv
        unfold decimalOf at hv
        simp [readNat] at hv
        change (readNat ip : ℚ) = _ at hv
        have hlo : (1:ℚ) ≤ readNat ip := by
          rw [hv, le_div_iff₀ (by positivity), one_mul]; exact_mod_cast s3
        have hhi : (readNat ip : ℚ) < 10 := by
          rw [hv, div_lt_iff₀ (by positivity)]
          have : (M:ℚ) < ((10 ^ (places+1) : ℕ) : ℚ) := by exact_mod_cast s4
          push_cast at this; rw [pow_succ] at this; linarith
        have hlo' : 1 ≤ readNat ip := by exact_mod_cast hlo
        have hhi' : readNat ip < 10 := by exact_mod_cast hhi
        intro hc
        obtain ⟨q, hq⟩ : ∃ q, ip = q ++ ['0'] := by
          have := List.getLast?_eq_some_iff.mp hc
          obtain ⟨q, hq⟩ := this; exact ⟨q, hq⟩
        rw [hq, readNat_append] at hlo' hhi'
        rw [show readNat ['0'] = 0 by decide] at hlo' hhi'
        simp only [List.length_singleton, pow_one] at hlo' hhi'
        omega
      · right; exact hfp
    have hne0 : assemble neg ip (rstrip0 fp) ≠ ['0'] := by
      intro hc
      rcases hip0 with h | h
      · by_cases hfp : rstrip0 fp = []
        · rw [hfp] at hc
          unfold assemble at hc
          by_cases hb : neg = true
          · simp [hb, f3] at hc
          · simp [hb] at hc
            rw [hc] at h; simp at h
        · unfold assemble at hc
          rw [if_neg hfp] at hc
          have : '.' ∈ ['0'] := by rw [← hc]; simp
          simp at this
      · unfold assemble at hc
        rw [if_neg h] at hc
        have : '.' ∈ ['0'] := by rw [← hc]; simp
        simp at this
    have hstrip : rstrip0 (assemble neg ip (rstrip0 fp)) = assemble neg ip (rstrip0 fp) := by
      have key : ∀ s : List Char, s.getLast? ≠ some '0' → rstrip0 s = s := by
        intro s hs
        rcases List.eq_nil_or_concat s with rfl | ⟨q, c, rfl⟩
        · rfl
        · rw [List.concat_eq_append] at hs ⊢
          apply rstrip0_snoc
          simpa using hs
      apply key
      unfold assemble
      by_cases hfp : rstrip0 fp = []
      · rw [if_pos hfp, List.append_nil, List.getLast?_append_of_ne_nil _ f3]
        rcases hip0 with h | h
        · exact h
        · exact absurd hfp h
      · rw [if_neg hfp, List.getLast?_append_of_ne_nil _ (by simp)]
        have := (rstrip0_spec fp).choose_spec.2
        obtain ⟨c, q, hq⟩ := List.exists_cons_of_ne_nil hfp
        rw [hq] at this ⊢
        rw [List.getLast?_cons_cons]; exact this
    rw [if_pos hne0, hstrip]
    have hlen : (rstrip0 fp).length ≤ places := by
      obtain ⟨z, hz, _⟩ := rstrip0_spec fp
      have := congrArg List.length hz
      rw [List.length_append] at this; omega
    obtain ⟨c, c1, c2, c3, c4, c5⟩ := decimal_literal (p := p) (neg := neg) (ip := ip) (fp := rstrip0 fp) (by omega)
    have hcv : c.val = ((((if neg then -1 else 1) * (M:ℤ)) : ℤ) : ℚ) / ((10 ^ places : ℤ) : ℚ) := by
      rw [c3, decimalOf_rstrip, f6]
      by_cases hb : neg = true
      · simp only [hb, if_true]; push_cast; ring
      · simp only [hb]; push_cast; ring
    have hcn : |c.num| < 10 ^ (places + 1) := by
      have := num_le_of_val c2 (by positivity) hcv
      have e1 : |(if neg = true then (-1:ℤ) else 1) * (M:ℤ)| = M := by split <;> simp
      rw [e1] at this
      refine lt_of_le_of_lt this ?_
      exact_mod_cast s4
    have hcd : c.den ≤ 10 ^ places := Int.le_of_dvd (by positivity) (grid_den c2 hcv)
    have htext : intText e = (if decide (e < 0) then ['-'] else []) ++ natText e.natAbs := by
      unfold intText; by_cases h : e < 0
      · rw [if_pos h, decide_eq_true h]; rfl
      · rw [if_neg h, decide_eq_false h]; rfl
    obtain ⟨r, r1, r2, r3⟩ := parseExp_parts (p := p) powF (neg := neg) (eneg := decide (e < 0)) (ics := ip)
      (fcs := rstrip0 fp) (es := natText e.natAbs) f2 f3 (rstrip0_digits f4) (natText_digits _) (natText_ne_nil _)
      (c := 'E') (by decide) c1 c2 (by rw [readNat_natText]; omega)
      (by
        rw [readNat_natText]
        set j := (if decide (e < 0) = true then 0 else e.natAbs) with hj
        have hjle : j + (places + 1) ≤ p := by rw [hj]; split <;> omega
        calc |c.num| * 10 ^ j < 10 ^ (places + 1) * 10 ^ j := mul_lt_mul_of_pos_right hcn (by positivity)
          _ = 10 ^ (places + 1 + j) := by rw [← pow_add]
          _ ≤ 10 ^ p := pow_le_pow_right₀ (by norm_num) (by omega))
      (by
        rw [readNat_natText]
        set j := (if decide (e < 0) = true then e.natAbs else 0) with hj
        have hjle : j + (places + 1) ≤ p := by rw [hj]; split <;> omega
        calc c.den * 10 ^ j ≤ 10 ^ places * 10 ^ j := mul_le_mul_of_nonneg_right hcd (by positivity)
          _ = 10 ^ (places + j) := by rw [← pow_add]
          _ < 10 ^ p := pow_lt_pow_right₀ (by norm_num) (by omega))
    rw [htext, r1]
    congr 2
    apply canonical_ext r2 ha
    rw [r3, hcv, readNat_natText]
    have hee : (if decide (e < 0) = true then -((e.natAbs:ℕ) : ℤ) else ((e.natAbs:ℕ):ℤ)) = e := by
      split
      · rename_i h; simp at h; omega
      · rename_i h; simp at h; omega
    rw [hee]
    have hsign : a.val = (if neg then -1 else 1) * |a.val| := by
      rw [hneg]
      rcases lt_or_ge a.val 0 with h | h
      · rw [decide_eq_true h, abs_of_neg h]; simp
      · rw [decide_eq_false (by linarith), abs_of_nonneg h]; simp
    conv_rhs => rw [hsign, s1]
    rw [zpow_sub₀ (by norm_num), zpow_natCast]
    push_cast
    split <;> field_simp

example : parseExp 100 noPow (decToExp 100 30 ⟨-3, 2000⟩) = some (.ok ⟨-3, 2000⟩) :=
  C17_exp_round_trip 100 30 (by norm_num) noPow ⟨-3, 2000⟩ ⟨by norm_num, by decide⟩ (-15) (-4)
    (by norm_num [val]) (by norm_num) (Or.inr (by
      have : |(⟨-3, 2000⟩ : Number).val| = 3/2000 := by
        unfold val; rw [abs_div, abs_of_neg (by norm_num), abs_of_pos (by norm_num)]; norm_num
      rw [this]
      constructor <;> norm_num))

end MC.Props
