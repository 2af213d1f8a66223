import Verif.Props.Bases

/-! C14 - C16: literals in other bases. -/

namespace MC.Props
open MC Number

/-! ## C14 Digits are validated and read positionally -/

theorem base_ten_value (p : ℕ) (powF) (neg : Bool) (ip fp : List Char) (hi : AllDigits ip)
    (hf : AllDigits fp) (hne : ip ≠ []) (hsize : fp.length < p) :
    ∃ r, baseToDec p powF ((if neg then ['-'] else []) ++ ip ++ (if fp = [] then [] else '.' :: fp)) 10 = .ok r ∧
      r.Canonical ∧ r.val = (if neg then -1 else 1) * ((readNat ip : ℚ) + (readNat fp : ℚ) / 10 ^ fp.length) := by
  have hp : 1 ≤ p := by omega
  have ea : (if neg then ['-'] else []) ++ ip ++ (if fp = [] then [] else '.' :: fp) = assemble neg ip fp := rfl
  rw [ea]
  by_cases h0 : assemble neg ip fp = ['0']
  · rw [h0]
    refine ⟨⟨0, 1⟩, baseToDec_zero hp powF 10, canonical_int 0, ?_⟩
    have hneg : neg = false := by
      cases neg with
      | false => rfl
      | true =>
        obtain ⟨c, t, rfl⟩ := List.exists_cons_of_ne_nil hne
        simp [assemble] at h0
    subst hneg
    obtain ⟨c, t, rfl⟩ := List.exists_cons_of_ne_nil hne
    have hfp : fp = [] := by
      by_contra hfp; simp [assemble, hfp] at h0
    subst hfp
    simp [assemble] at h0
    obtain ⟨rfl, rfl⟩ := h0
    simp [val, readNat, digitVal]
  · unfold baseToDec
    rw [if_neg h0, if_pos rfl, decimalCtor_assemble hi hne hf]
    simp only [ok_bind]
    have hg : ∃ k : ℤ, decimalOf neg ip fp = (k:ℚ) / 10 ^ fp.length := by
      refine ⟨(if neg then -1 else 1) * ((readNat ip : ℤ) * 10 ^ fp.length + readNat fp), ?_⟩
      unfold decimalOf; push_cast
      split <;> field_simp
    obtain ⟨k, hk⟩ := hg
    obtain ⟨r, hr, hc, hv⟩ := parse_assemble hsize hi hne hf hk
    unfold parseDecimal at hr
    rw [matchDecimal_assemble hi hne hf] at hr
    refine ⟨r, by simpa using hr, hc, ?_⟩
    rw [hv, ← hk]; rfl

/-- Digits of a base from 2 to 36, with an optional sign and fraction, denote their
positional value, exactly. -/
theorem C14_positional (p : ℕ) (hp : 1 ≤ p) (powF) (b : ℕ) (hb : 2 ≤ b) (hb36 : b ≤ 36)
    (neg : Bool) (ics fcs : List Char) (ip fp : List ℕ) (hi : DigitsAre b ics ip) (hf : DigitsAre b fcs fp)
    (hne : ics ≠ []) (hsize : b ^ (ip.length + 2 * fp.length) < 10 ^ p) :
    ∃ r, baseToDec p powF ((if neg then ['-'] else []) ++ ics ++ (if fcs = [] then [] else '.' :: fcs)) b = .ok r ∧
      r.Canonical ∧ r.val = (if neg then -1 else 1) * positionalQ b ip fp := by
  by_cases hb10 : b = 10
  · subst hb10
    have hlt : fp.length < p := by
      have := (Nat.pow_lt_pow_iff_right (by norm_num : 1 < 10)).mp hsize
      omega
    obtain ⟨r, h1, h2, h3⟩ := base_ten_value p powF neg ics fcs hi.ten.1 hf.ten.1 hne (by rw [hf.length]; exact hlt)
    refine ⟨r, h1, h2, ?_⟩
    rw [h3, ← decimalOf_positional hi hf]; rfl
  have l1 := positional_lt hi.lt
  have l2 := positional_lt hf.lt
  have hb1 : 1 ≤ b ^ fp.length := Nat.one_le_pow _ _ (by omega)
  have key : positional b ip * b ^ fp.length + positional b fp < b ^ (ip.length + fp.length) := by
    rw [pow_add]
    calc positional b ip * b ^ fp.length + positional b fp
        < positional b ip * b ^ fp.length + b ^ fp.length := by omega
      _ = (positional b ip + 1) * b ^ fp.length := by ring
      _ ≤ _ := Nat.mul_le_mul_right _ l1
  refine baseToDec_exact hp powF hb hb36 hb10 neg hi hf hne ?_ ?_ ?_
  · refine lt_of_lt_of_le ?_ hsize.le
    rw [show ip.length + 2 * fp.length = (ip.length + fp.length) + fp.length by ring, pow_add b (_ + _)]
    exact Nat.mul_lt_mul_of_pos_right key hb1
  · exact lt_of_le_of_lt (Nat.pow_le_pow_right (by omega) (by omega)) hsize
  · exact lt_of_le_of_lt (Nat.pow_le_pow_right (by omega) (by omega)) hsize

example : ∃ r, baseToDec 100 noPow ("-1f.8".toList) (16:ℕ) = .ok r ∧ r.Canonical ∧ r.val = -(31 + 1/2) := by
  have := C14_positional 100 (by norm_num) noPow 16 (by norm_num) (by norm_num) true
    ['1', 'f'] ['8'] [1, 15] [8] (by unfold DigitsAre; decide) (by unfold DigitsAre; decide) (by simp) (by norm_num)
  obtain ⟨r, h1, h2, h3⟩ := this
  refine ⟨r, h1, h2, ?_⟩
  rw [h3]; norm_num [positionalQ, positional]

/-- In a base from 2 to 36 other than ten, a text is read exactly when everything in
it, apart from the sign and points, is a digit below the base; otherwise a calculator
error is raised. -/
theorem C14_validated_partial (p : ℕ) (hp : 1 ≤ p) (powF) (b : ℕ) (hb : 2 ≤ b) (hb36 : b ≤ 36) (hb10 : b ≠ 10)
    (neg : Bool) (body : List Char) (hne : body ≠ []) (hsign : body.head? ≠ some '-') :
    ((∀ c ∈ body, c = '.' ∨ ∃ d, digitValue c = some d ∧ d < b) →
      ∃ r, baseToDec p powF ((if neg then ['-'] else []) ++ body) b = .ok r) ∧
    ((∃ c ∈ body, c ≠ '.' ∧ ∀ d, digitValue c = some d → b ≤ d) →
      ∃ m, baseToDec p powF ((if neg then ['-'] else []) ++ body) b = .error (.calc m)) := by
  have hdot : ∀ c : Char, c.toUpper = '.' → c = '.' := by
    intro c hc
    by_cases h1 : c.toNat < 128
    · have : ∀ n < 128, (Char.ofNat n).toUpper = '.' → Char.ofNat n = '.' := by decide +kernel
      have hch : c = Char.ofNat c.toNat := (Char.ofNat_toNat c).symm
      rw [hch] at hc ⊢; exact this _ h1 hc
    · have hup : c.toUpper = c := by
        unfold Char.toUpper
        rw [dif_neg]
        intro h
        have : c.toNat ≤ 122 := h.2
        omega
      rw [hup] at hc; exact hc
  have hup : Char.toUpper '.' = '.' := by decide
  by_cases h0 : (if neg then ['-'] else []) ++ body = ['0']
  · have hn : neg = false := by
      cases neg with
      | false => rfl
      | true => simp at h0
    subst hn
    have hb0 : body = ['0'] := by simpa using h0
    subst hb0
    refine ⟨fun _ => ⟨_, baseToDec_zero hp powF b⟩, ?_⟩
    rintro ⟨c, hc, _, hd⟩
    exfalso
    have : c = '0' := by simpa using hc
    subst this
    have := hd 0 (by decide)
    omega
  obtain ⟨c, t, rfl⟩ := List.exists_cons_of_ne_nil hne
  have hc : c ≠ '-' := by simpa using hsign
  have main : ∃ j, baseToDec p powF ((if neg then ['-'] else []) ++ c :: t) b =
      (do
        let dec ← readDigits p powF (b:ℤ) (upperText (c :: t)) j ⟨0, 1⟩
        return if neg then Number.neg p dec else dec) := by
    unfold baseToDec
    rw [if_neg h0, if_neg (by exact_mod_cast hb10), if_neg (by omega)]
    refine ⟨if '.' ∈ c :: t then (((c :: t).idxOf '.' : ℕ) : ℤ) - 1 else (((c :: t).length : ℕ) : ℤ) - 1, ?_⟩
    cases neg with
    | true =>
      simp only [if_true, List.cons_append, List.nil_append]
      rw [ofInt_eq hp]
      simp only [ok_bind]
    | false =>
      simp only [Bool.false_eq_true, if_false, List.nil_append, if_neg hc]
      rw [ofInt_eq hp]
      simp only [ok_bind]
  obtain ⟨j, hj⟩ := main
  rw [hj]
  rcases readDigits_total hp powF hb (upperText (c :: t)) j ⟨0, 1⟩ (by norm_num) with ⟨h1, r, h2, _⟩ | ⟨⟨x, hx, hxd, h1⟩, m, h2⟩
  · refine ⟨fun _ => ⟨_, by rw [h2]; rfl⟩, ?_⟩
    rintro ⟨y, hy, hyd, hbad⟩
    exfalso
    rcases h1 y.toUpper (List.mem_map_of_mem hy) with h | ⟨d, hd, hlt⟩
    · exact hyd (hdot y h)
    · rw [findDigit_upper] at hd
      have := hbad d hd; omega
  · refine ⟨?_, fun _ => ⟨m, by rw [h2]; rfl⟩⟩
    intro hall
    exfalso
    obtain ⟨y, hy, rfl⟩ := List.mem_map.mp hx
    rcases hall y hy with rfl | ⟨d, hd, hlt⟩
    · exact hxd hup
    · rw [findDigit_upper] at h1
      have := h1 d hd; omega

example : ∃ m, baseToDec 100 noPow ("-1.2".toList) (2:ℕ) = .error (.calc m) :=
  (C14_validated_partial 100 (by norm_num) noPow 2 (by norm_num) (by norm_num) (by norm_num) true
    ['1', '.', '2'] (by simp) (by simp)).2 ⟨'2', by simp, by decide, by
      intro d hd
      rw [show digitValue '2' = some 2 by decide] at hd
      cases hd; exact le_rfl⟩

/-- A base outside 2..36 is refused, except for the text `0`. -/
theorem C14_base_range_partial (p : ℕ) (powF) (base : ℤ) (hb : base < 2 ∨ 36 < base) (t : List Char)
    (ht : t ≠ ['0']) : ∃ m, baseToDec p powF t base = .error (.calc m) := by
  unfold baseToDec
  rw [if_neg ht, if_neg (by omega), if_pos (by omega)]
  exact ⟨_, rfl⟩

example : ∃ m, baseToDec 100 noPow "1".toList 99 = .error (.calc m) :=
  C14_base_range_partial 100 noPow 99 (by norm_num) _ (by decide)

/-- The text `0` is accepted in any base: `99z0` is zero. -/
theorem C14_base_range_violation (powF) : parseArb 100 powF "99z0".toList = .ok (some (⟨0, 1⟩, 99)) := by
  have h1 : matchArb "99z0".toList = some "99".toList := by decide +kernel
  have h2 : removePrefix "99z0".toList (natText (readNat "99".toList) ++ ['z']) = ['0'] := by decide +kernel
  have h3 : readNat "99".toList = 99 := by decide +kernel
  unfold parseArb
  rw [h1]
  simp only [h2]
  rw [baseToDec_zero (by norm_num), h3]

/-- In base ten, letters are not refused as digits: `10z1e5` is read as an exponent. -/
theorem C14_base_ten_violation (powF) : parseArb 100 powF "10z1e5".toList = .ok (some (⟨100000, 1⟩, 10)) := by
  have h1 : matchArb "10z1e5".toList = some "10".toList := by decide +kernel
  have h2 : removePrefix "10z1e5".toList (natText (readNat "10".toList) ++ ['z']) = "1e5".toList := by
    decide +kernel
  have h3 : readNat "10".toList = 10 := by decide +kernel
  have h4 : decimalCtor "1e5".toList = .ok 100000 := by decide +kernel
  unfold parseArb
  rw [h1]
  simp only [h2]
  have h5 : baseToDec 100 powF "1e5".toList ((readNat "10".toList : ℕ):ℤ) = .ok ⟨100000, 1⟩ := by
    unfold baseToDec
    rw [if_neg (by decide), if_pos (by rw [h3]; norm_num), h4]
    simp only [ok_bind]
    have := mk'_lit (p := 100) (100000:ℚ) (by norm_num)
    simpa using this
  rw [h5, h3]

/-- In base ten, an illegal digit escapes as a Python exception that is not a
calculator error. -/
theorem C14_base_ten_error_violation (powF) :
    parseArb 100 powF "10zff".toList = .error (.py "InvalidOperation") := by
  have h1 : matchArb "10zff".toList = some "10".toList := by decide +kernel
  have h2 : removePrefix "10zff".toList (natText (readNat "10".toList) ++ ['z']) = "ff".toList := by
    decide +kernel
  have h3 : readNat "10".toList = 10 := by decide +kernel
  have h4 : decimalCtor "ff".toList = .error (.py "InvalidOperation") := by decide +kernel
  unfold parseArb
  rw [h1]
  simp only [h2]
  have h5 : baseToDec 100 powF "ff".toList ((readNat "10".toList : ℕ):ℤ) = .error (.py "InvalidOperation") := by
    unfold baseToDec
    rw [if_neg (by decide), if_pos (by rw [h3]; norm_num), h4]
    rfl
  rw [h5]

/-! ## C13 continued: literals -/

/-- `t` is the literal with prefix `pre`, digits `ics` and fraction `fcs`. -/
def literalText (pre : List Char) (neg : Bool) (ics fcs : List Char) : List Char :=
  (if neg then ['-'] else []) ++ pre ++ ics ++ (if fcs = [] then [] else '.' :: fcs)

theorem size_bounds {p b : ℕ} (hb : 2 ≤ b) {ip fp : List ℕ} (h1 : ∀ d ∈ ip, d < b) (h2 : ∀ d ∈ fp, d < b)
    (hsize : b ^ (ip.length + 2 * fp.length) < 10 ^ p) :
    (positional b ip * b ^ fp.length + positional b fp) * b ^ fp.length < 10 ^ p ∧
    b ^ (ip.length - 1) < 10 ^ p ∧ b ^ fp.length < 10 ^ p := by
  have l1 := positional_lt h1
  have l2 := positional_lt h2
  have hb1 : 1 ≤ b ^ fp.length := Nat.one_le_pow _ _ (by omega)
  have key : positional b ip * b ^ fp.length + positional b fp < b ^ (ip.length + fp.length) := by
    rw [pow_add]
    calc positional b ip * b ^ fp.length + positional b fp
        < positional b ip * b ^ fp.length + b ^ fp.length := by omega
      _ = (positional b ip + 1) * b ^ fp.length := by ring
      _ ≤ _ := Nat.mul_le_mul_right _ l1
  refine ⟨?_, ?_, ?_⟩
  · refine lt_of_lt_of_le ?_ hsize.le
    rw [show ip.length + 2 * fp.length = (ip.length + fp.length) + fp.length by ring, pow_add b (_ + _)]
    exact Nat.mul_lt_mul_of_pos_right key hb1
  · exact lt_of_le_of_lt (Nat.pow_le_pow_right (by omega) (by omega)) hsize
  · exact lt_of_le_of_lt (Nat.pow_le_pow_right (by omega) (by omega)) hsize

/-- What a literal with a two-character prefix denotes. -/
theorem literal_value {p : ℕ} (hp : 1 ≤ p) (powF) {b : ℕ} (hb : 2 ≤ b) (hb36 : b ≤ 36) (hb10 : b ≠ 10)
    {pre : List Char} (hpl : lowerText pre = pre) (hpn : pre ≠ []) (hpm : pre.head? ≠ some '-')
    {c : Char} (hc : c ∈ pre) (hcd : digitValue c = none ∨ ∃ d, digitValue c = some d ∧ b ≤ d) (hcdot : c ≠ '.')
    {ok : Char → Bool} (hok : ∀ c d, digitValue c = some d → d < b → ok c.toLower = true)
    (neg : Bool) {ics fcs : List Char} {ip fp : List ℕ} (hi : DigitsAre b ics ip) (hf : DigitsAre b fcs fp)
    (hne : ics ≠ []) (hT : (positional b ip * b ^ fp.length + positional b fp) * b ^ fp.length < 10 ^ p)
    (hI : b ^ (ip.length - 1) < 10 ^ p) (hF : b ^ fp.length < 10 ^ p) :
    matchesBased pre ok (literalText pre neg ics fcs) = true ∧
    removePrefix (literalText pre neg ics fcs) pre = signedText neg (lowerText ics) (lowerText fcs) ∧
    ∃ r, baseToDec p powF (removePrefix (literalText pre neg ics fcs) pre) b = .ok r ∧ r.Canonical ∧
      r.val = (if neg then -1 else 1) * positionalQ b ip fp := by
  have hmem : ∀ {cs : List Char} {ds : List ℕ}, DigitsAre b cs ds → ∀ x ∈ lowerText cs, ok x = true ∧ x ≠ '.' := by
    intro cs ds h x hx
    obtain ⟨y, hy, rfl⟩ := List.mem_map.mp hx
    obtain ⟨_, _, d, hd, hlt⟩ := h.ne y hy
    exact ⟨hok y d hd hlt, (h.lower.ne _ hx).1⟩
  have h1 := matchesBased_literal hpl hpn hpm (ok := ok) neg hne (hmem hi) (fun x hx => (hmem hf x hx).1)
  have h2 := removePrefix_literal hpl hpn hpm hc hcdot neg (digits_notMem hi.lower hcd) (digits_notMem hf.lower hcd)
  refine ⟨h1, h2, ?_⟩
  have h2' : removePrefix (literalText pre neg ics fcs) pre = signedText neg (lowerText ics) (lowerText fcs) := h2
  rw [h2']
  exact baseToDec_exact hp powF hb hb36 hb10 neg hi.lower hf.lower (by simpa [lowerText] using hne) hT hI hF

theorem lower_digit {c : Char} {d : ℕ} (h : digitValue c = some d) : d < 36 ∧ c.toLower = (chr d).toLower := by
  rw [← findDigit_upper] at h
  have h1 := (findDigit_spec.mp h).1
  have h2 := (findDigit_spec.mp h).2
  have e : c.toUpper = chr d := by
    rw [chr_spec h1] at h2; simpa using h2.symm
  have hl : c.toLower = c.toUpper.toLower := by
    by_cases h1 : c.toNat < 128
    · have : ∀ n < 128, (Char.ofNat n).toLower = (Char.ofNat n).toUpper.toLower := by decide +kernel
      have hch : c = Char.ofNat c.toNat := (Char.ofNat_toNat c).symm
      rw [hch]; exact this _ h1
    · have hup : c.toUpper = c := by
        unfold Char.toUpper; rw [dif_neg]; intro h
        have : c.toNat ≤ 122 := h.2
        omega
      rw [hup]
  exact ⟨h1, by rw [hl, e]⟩

theorem ok_bin (c : Char) (d : ℕ) (h : digitValue c = some d) (hd : d < 2) : isBinDigit c.toLower = true := by
  rw [(lower_digit h).2]
  have : ∀ d < 2, isBinDigit (chr d).toLower = true := by decide +kernel
  exact this d hd

theorem ok_oct (c : Char) (d : ℕ) (h : digitValue c = some d) (hd : d < 8) : isOctDigit c.toLower = true := by
  rw [(lower_digit h).2]
  have : ∀ d < 8, isOctDigit (chr d).toLower = true := by decide +kernel
  exact this d hd

theorem ok_hex (c : Char) (d : ℕ) (h : digitValue c = some d) (hd : d < 16) : isHexDigit c.toLower = true := by
  rw [(lower_digit h).2]
  have : ∀ d < 16, isHexDigit (chr d).toLower = true := by decide +kernel
  exact this d hd

/-- `0x`, `0o` and `0b` literals denote the positional value of their digits. -/
theorem C14_hex_literal (p : ℕ) (hp : 1 ≤ p) (powF) (neg : Bool) (ics fcs : List Char) (ip fp : List ℕ)
    (hi : DigitsAre 16 ics ip) (hf : DigitsAre 16 fcs fp) (hne : ics ≠ [])
    (hsize : 16 ^ (ip.length + 2 * fp.length) < 10 ^ p) :
    ∃ r, parseHex p powF (literalText "0x".toList neg ics fcs) = some (.ok r) ∧ r.Canonical ∧
      r.val = (if neg then -1 else 1) * positionalQ 16 ip fp := by
  obtain ⟨s1, s2, s3⟩ := size_bounds (by norm_num) hi.lt hf.lt hsize
  obtain ⟨h1, h2, r, h3, h4, h5⟩ := literal_value hp powF (b := 16) (by norm_num) (by norm_num) (by norm_num)
    (pre := "0x".toList) (by decide) (by decide) (by decide) (c := 'x') (by decide)
    (Or.inr ⟨33, by decide, by norm_num⟩) (by decide) ok_hex neg hi hf hne s1 s2 s3
  refine ⟨r, ?_, h4, h5⟩
  unfold parseHex
  rw [if_pos h1]; congr 1

theorem C14_oct_literal (p : ℕ) (hp : 1 ≤ p) (powF) (neg : Bool) (ics fcs : List Char) (ip fp : List ℕ)
    (hi : DigitsAre 8 ics ip) (hf : DigitsAre 8 fcs fp) (hne : ics ≠ [])
    (hsize : 8 ^ (ip.length + 2 * fp.length) < 10 ^ p) :
    ∃ r, parseOct p powF (literalText "0o".toList neg ics fcs) = some (.ok r) ∧ r.Canonical ∧
      r.val = (if neg then -1 else 1) * positionalQ 8 ip fp := by
  obtain ⟨s1, s2, s3⟩ := size_bounds (by norm_num) hi.lt hf.lt hsize
  obtain ⟨h1, h2, r, h3, h4, h5⟩ := literal_value hp powF (b := 8) (by norm_num) (by norm_num) (by norm_num)
    (pre := "0o".toList) (by decide) (by decide) (by decide) (c := 'o') (by decide)
    (Or.inr ⟨24, by decide, by norm_num⟩) (by decide) ok_oct neg hi hf hne s1 s2 s3
  refine ⟨r, ?_, h4, h5⟩
  unfold parseOct
  rw [if_pos h1]; congr 1

theorem numberWidth_literal {neg : Bool} {ics fcs : List Char} {pre : List Char} {b : ℕ} {ip : List ℕ}
    (h : removePrefix (literalText pre neg ics fcs) pre = signedText neg (lowerText ics) (lowerText fcs))
    (hi : DigitsAre b ics ip) (hne : ics ≠ []) :
    numberWidth (literalText pre neg ics fcs) pre = .ok ip.length := by
  unfold numberWidth
  rw [h]
  have hne' : lowerText ics ≠ [] := by simpa [lowerText] using hne
  have hil : (lowerText ics).length = ip.length := hi.lower.length
  have hall : ∀ c ∈ lowerText ics, (decide (c ≠ '.')) = true := fun c hc => by simpa using (hi.lower.ne c hc).1
  have htw : ∀ rest, (rest = [] ∨ rest.head? = some '.') →
      (lowerText ics ++ rest).takeWhile (· ≠ '.') = lowerText ics := by
    intro rest hr
    rw [List.takeWhile_append_of_pos hall]
    rcases hr with rfl | hr
    · simp
    · cases rest with
      | nil => simp
      | cons c t => simp at hr; subst hr; simp
  have hr : (if lowerText fcs = [] then [] else '.' :: lowerText fcs) = [] ∨
      (if lowerText fcs = [] then [] else '.' :: lowerText fcs).head? = some '.' := by
    split <;> simp
  unfold signedText splitNumber
  cases neg with
  | true =>
    simp only [if_true, List.cons_append, List.nil_append, ok_bind]
    rw [htw _ hr, hil]; rfl
  | false =>
    obtain ⟨c, t, hct⟩ := List.exists_cons_of_ne_nil hne'
    have hc : c ≠ '-' := (hi.lower.ne c (by rw [hct]; simp)).2.1
    have hw := htw _ hr
    rw [hct] at hw hil ⊢
    simp only [Bool.false_eq_true, if_false, List.cons_append, List.nil_append, if_neg hc, ok_bind] at hw ⊢
    rw [hw, hil]; rfl

/-- A binary literal also remembers how many digits it has. -/
theorem C14_bin_literal (p : ℕ) (hp : 1 ≤ p) (powF) (neg : Bool) (ics fcs : List Char) (ip fp : List ℕ)
    (hi : DigitsAre 2 ics ip) (hf : DigitsAre 2 fcs fp) (hne : ics ≠ [])
    (hsize : 2 ^ (ip.length + 2 * fp.length) < 10 ^ p) :
    ∃ r, parseBin p powF (literalText "0b".toList neg ics fcs) = some (.ok (r, ics.length)) ∧ r.Canonical ∧
      r.val = (if neg then -1 else 1) * positionalQ 2 ip fp := by
  obtain ⟨s1, s2, s3⟩ := size_bounds (by norm_num) hi.lt hf.lt hsize
  obtain ⟨h1, h2, r, h3, h4, h5⟩ := literal_value hp powF (b := 2) (by norm_num) (by norm_num) (by norm_num)
    (pre := "0b".toList) (by decide) (by decide) (by decide) (c := 'b') (by decide)
    (Or.inr ⟨11, by decide, by norm_num⟩) (by decide) ok_bin neg hi hf hne s1 s2 s3
  refine ⟨r, ?_, h4, h5⟩
  unfold parseBin
  rw [if_pos h1]; congr 1
  have h3' : baseToDec p powF (removePrefix (literalText "0b".toList neg ics fcs) "0b".toList) 2 = .ok r := h3
  rw [h3', numberWidth_literal h2 hi hne, hi.length]; rfl

example : DigitsAre 16 "0fA".toList [0, 15, 10] ∧ literalText "0x".toList true "0fA".toList [] = "-0x0fA".toList := by
  unfold DigitsAre; decide

/-- Hexadecimal numbers shown as text read back. -/
theorem C13_hex (p : ℕ) (hp : 1 ≤ p) (powF) (k prec : ℕ) (hk : k ≤ prec) (a : Number) (ha : a.Canonical) (z : ℤ)
    (hval : a.val = (z:ℚ) / 16 ^ k) (h5 : 5 * (16 * z.natAbs * 16 ^ k) < 10 ^ p) :
    ∃ t F, (∀ fuel, F ≤ fuel → showHex p powF prec fuel a = .ok t) ∧ parseHex p powF t = some (.ok a) := by
  by_cases hz : z = 0
  · have h0 := canonical_zero ha (by rw [hval, hz]; simp)
    subst h0
    refine ⟨"0x0".toList, 0, fun fuel _ => ?_, ?_⟩
    · unfold showHex; rw [decToBase_zero]; rfl
    · unfold parseHex
      rw [if_pos (by decide +kernel)]
      rw [show removePrefix "0x0".toList "0x".toList = ['0'] by decide +kernel, baseToDec_zero hp]
  · obtain ⟨ip, fp, i1, i2, i3, i4, i5, i6, i7, i8, i9, i10, i11, i12, i13⟩ :=
      written hp powF (b := 16) (by norm_num) (by norm_num) (by norm_num) hk ha hz (by exact_mod_cast hval) h5
    refine ⟨literalText "0x".toList (decide (z < 0)) (ip.map chr) (fp.map chr), z.natAbs + 1, ?_, ?_⟩
    · intro fuel hf
      have := i13 fuel (by omega)
      unfold showHex
      rw [show (16:ℤ) = ((16:ℕ):ℤ) by norm_num, this]
      simp only [ok_bind]
      exact addPrefix_based i3 (fun d hd => lt_of_lt_of_le (i1 d hd) (by norm_num)) _
    · obtain ⟨h1, h2, r, h3, h4, h5⟩ := literal_value hp powF (b := 16) (by norm_num) (by norm_num) (by norm_num)
        (pre := "0x".toList) (by decide) (by decide) (by decide) (c := 'x') (by decide)
        (Or.inr ⟨33, by decide, by norm_num⟩) (by decide) ok_hex (decide (z < 0)) (DigitsAre.map_chr (by norm_num) i1)
        (DigitsAre.map_chr (by norm_num) i2) (by simpa using i3) i10 i11 i12
      have : r = a := canonical_ext h4 ha (by rw [h5, i9]; exact sign_val (b := 16) (k := k) (by norm_num) (by exact_mod_cast hval))
      subst this
      unfold parseHex
      rw [if_pos h1]; congr 1

theorem C13_oct (p : ℕ) (hp : 1 ≤ p) (powF) (k prec : ℕ) (hk : k ≤ prec) (a : Number) (ha : a.Canonical) (z : ℤ)
    (hval : a.val = (z:ℚ) / 8 ^ k) (h5 : 5 * (8 * z.natAbs * 8 ^ k) < 10 ^ p) :
    ∃ t F, (∀ fuel, F ≤ fuel → showOct p powF prec fuel a = .ok t) ∧ parseOct p powF t = some (.ok a) := by
  by_cases hz : z = 0
  · have h0 := canonical_zero ha (by rw [hval, hz]; simp)
    subst h0
    refine ⟨"0o0".toList, 0, fun fuel _ => ?_, ?_⟩
    · unfold showOct; rw [decToBase_zero]; rfl
    · unfold parseOct
      rw [if_pos (by decide +kernel)]
      rw [show removePrefix "0o0".toList "0o".toList = ['0'] by decide +kernel, baseToDec_zero hp]
  · obtain ⟨ip, fp, i1, i2, i3, i4, i5, i6, i7, i8, i9, i10, i11, i12, i13⟩ :=
      written hp powF (b := 8) (by norm_num) (by norm_num) (by norm_num) hk ha hz (by exact_mod_cast hval) h5
    refine ⟨literalText "0o".toList (decide (z < 0)) (ip.map chr) (fp.map chr), z.natAbs + 1, ?_, ?_⟩
    · intro fuel hf
      have := i13 fuel (by omega)
      unfold showOct
      rw [show (8:ℤ) = ((8:ℕ):ℤ) by norm_num, this]
      simp only [ok_bind]
      exact addPrefix_based i3 (fun d hd => lt_of_lt_of_le (i1 d hd) (by norm_num)) _
    · obtain ⟨h1, h2, r, h3, h4, h5⟩ := literal_value hp powF (b := 8) (by norm_num) (by norm_num) (by norm_num)
        (pre := "0o".toList) (by decide) (by decide) (by decide) (c := 'o') (by decide)
        (Or.inr ⟨24, by decide, by norm_num⟩) (by decide) ok_oct (decide (z < 0)) (DigitsAre.map_chr (by norm_num) i1)
        (DigitsAre.map_chr (by norm_num) i2) (by simpa using i3) i10 i11 i12
      have : r = a := canonical_ext h4 ha (by rw [h5, i9]; exact sign_val (b := 8) (k := k) (by norm_num) (by exact_mod_cast hval))
      subst this
      unfold parseOct
      rw [if_pos h1]; congr 1

example : (⟨-255, 16⟩ : Number).Canonical ∧ (⟨-255, 16⟩ : Number).val = ((-255 : ℤ):ℚ) / 16 ^ 1 := by
  refine ⟨by unfold Number.Canonical; decide, by unfold val; norm_num⟩
example : showHex 100 noPow 30 10 ⟨-255, 16⟩ = .ok "-0xF.F".toList := by decide +kernel

/-! ## C15 Binary literals keep their width -/

theorem zfill_map_chr (w : ℕ) (ds : List ℕ) :
    zfill w (ds.map chr) = (List.replicate (w - ds.length) 0 ++ ds).map chr := by
  unfold zfill
  rw [List.map_append, List.map_replicate, List.length_map]; rfl

theorem forceWidth_based {neg : Bool} {ip fp : List ℕ} (hip : ip ≠ []) (h : ∀ d ∈ ip, d < 36) (w : ℕ) :
    forceWidth (basedText neg ip fp) w = .ok (basedText neg (List.replicate (w - ip.length) 0 ++ ip) fp) := by
  unfold forceWidth splitNumber
  have hall : ∀ c ∈ ip.map chr, (decide (c ≠ '.')) = true := fun c hc => by simpa using (map_chr_ne h hc).1
  have htw : (ip.map chr ++ (if fp = [] then [] else '.' :: fp.map chr)).takeWhile (· ≠ '.') = ip.map chr ∧
      (ip.map chr ++ (if fp = [] then [] else '.' :: fp.map chr)).dropWhile (· ≠ '.') =
        (if fp = [] then [] else '.' :: fp.map chr) := by
    rw [List.takeWhile_append_of_pos hall, List.dropWhile_append_of_pos hall]
    split <;> simp
  unfold basedText
  cases neg with
  | true =>
    simp only [if_true, List.cons_append, List.nil_append, ok_bind]
    rw [htw.1, htw.2, zfill_map_chr]; rfl
  | false =>
    obtain ⟨d, ds, rfl⟩ := List.exists_cons_of_ne_nil hip
    have hc := (chr_facts (h d (by simp))).2.2.1
    simp only [Bool.false_eq_true, if_false, List.nil_append, List.map_cons, List.cons_append, if_neg hc, ok_bind] at htw ⊢
    rw [htw.1, htw.2]
    have := zfill_map_chr w (d :: ds)
    simp only [List.map_cons] at this
    rw [this]; rfl

theorem positional_ge {b : ℕ} {d : ℕ} {ds : List ℕ} (hd : d ≠ 0) : b ^ ds.length ≤ positional b (d :: ds) := by
  rw [positional_cons]
  have : 1 * b ^ ds.length ≤ d * b ^ ds.length := Nat.mul_le_mul_right _ (by omega)
  omega

theorem positional_eq_zero {b : ℕ} (hb : 1 ≤ b) {ds : List ℕ} : positional b ds = 0 ↔ ∀ d ∈ ds, d = 0 := by
  induction ds with
  | nil => simp [positional]
  | cons d ds ih =>
    rw [positional_cons]
    have : 0 < b ^ ds.length := Nat.one_le_pow _ _ hb
    simp only [Nat.add_eq_zero_iff, mul_eq_zero, this.ne', or_false, ih, List.mem_cons, forall_eq_or_imp]

/-- The text written for a number given by its digits. -/
theorem decToBase_digits {p : ℕ} (hp : 1 ≤ p) (powF) {b prec : ℕ} (hb : 2 ≤ b) (hb36 : b ≤ 36) (hb10 : b ≠ 10)
    (neg : Bool) {ip fp : List ℕ} (hi : ∀ d ∈ ip, d < b) (hf : ∀ d ∈ fp, d < b) (hne : ip ≠ [])
    (hlast : fp.getLast? ≠ some 0) (hk : fp.length ≤ prec) (hneg : neg = true → ∃ d ∈ ip ++ fp, d ≠ 0)
    (hsize : 5 * b * b ^ (ip.length + 2 * fp.length) < 10 ^ p) {r : Number} (hr : r.Canonical)
    (hv : r.val = (if neg then -1 else 1) * positionalQ b ip fp) :
    ∃ ip' F, (∀ d ∈ ip', d < b) ∧ ip' ≠ [] ∧ ip'.length = Nat.log b (positional b ip) + 1 ∧
      ip'.length ≤ ip.length ∧ positional b ip' = positional b ip ∧
      ∀ fuel, F ≤ fuel → decToBase p powF prec fuel r b = .ok (basedText neg ip' fp) := by
  have hbq : (0:ℚ) < (b:ℚ) := by
    have : 0 < b := by omega
    exact_mod_cast this
  have hb1 : 1 ≤ b ^ fp.length := Nat.one_le_pow _ _ (by omega)
  have hlen1 : 1 ≤ ip.length := List.length_pos_iff.mpr hne
  set N := positional b ip * b ^ fp.length + positional b fp with hN
  have l1 := positional_lt hi
  have l2 := positional_lt hf
  have hNlt : N < b ^ (ip.length + fp.length) := by
    rw [hN, pow_add]
    calc positional b ip * b ^ fp.length + positional b fp
        < positional b ip * b ^ fp.length + b ^ fp.length := by omega
      _ = (positional b ip + 1) * b ^ fp.length := by ring
      _ ≤ _ := Nat.mul_le_mul_right _ l1
  have hdivN : N / b ^ fp.length = positional b ip := by
    rw [hN, mul_comm, Nat.mul_add_div hb1, Nat.div_eq_of_lt l2]; simp
  have hmodN : N % b ^ fp.length = positional b fp := by
    rw [hN, mul_comm, Nat.mul_add_mod, Nat.mod_eq_of_lt l2]
  have hQ : positionalQ b ip fp = (N:ℚ) / (b:ℚ) ^ fp.length := by
    unfold positionalQ; rw [hN]; push_cast; field_simp
  have hloglen : Nat.log b (positional b ip) + 1 ≤ ip.length := by
    rcases Nat.eq_zero_or_pos (positional b ip) with h | h
    · rw [h]; simpa using hlen1
    · have := Nat.log_lt_of_lt_pow h.ne' l1
      omega
  by_cases hN0 : N = 0
  · have hr0 : r.val = 0 := by rw [hv, hQ, hN0]; simp
    have := canonical_zero hr hr0
    subst this
    have hp0 : positional b ip = 0 := by rw [← hdivN, hN0]; simp
    have hf0 : positional b fp = 0 := by rw [← hmodN, hN0]; simp
    have hz : ∀ d ∈ ip ++ fp, d = 0 := by
      intro d hd
      rcases List.mem_append.mp hd with hd | hd
      · exact (positional_eq_zero (by omega)).mp hp0 d hd
      · exact (positional_eq_zero (by omega)).mp hf0 d hd
    have hn : neg = false := by
      cases neg with
      | false => rfl
      | true => obtain ⟨d, hd, h0⟩ := hneg rfl; exact absurd (hz d hd) h0
    have hfp : fp = [] := by
      by_contra hne
      apply hlast
      rw [List.getLast?_eq_some_getLast hne, hz _ (List.mem_append_right _ (List.getLast_mem hne))]
    subst hn; subst hfp
    refine ⟨[0], 0, by simp; omega, by simp, by rw [hp0]; simp, by simpa using hlen1, by rw [hp0]; simp [positional],
      fun fuel _ => ?_⟩
    rw [decToBase_zero]; decide
  · set z : ℤ := (if neg then -1 else 1) * (N:ℤ) with hz
    have hznat : z.natAbs = N := by rw [hz]; cases neg <;> simp
    have hz0 : z ≠ 0 := by intro h; rw [h] at hznat; simp at hznat; exact hN0 hznat.symm
    have hzneg : decide (z < 0) = neg := by
      rw [hz]; cases neg <;> simp; omega
    have hval : r.val = (z:ℚ) / (b:ℚ) ^ fp.length := by
      rw [hv, hQ, hz]; push_cast; cases neg <;> simp [neg_div]
    have h5 : 5 * (b * z.natAbs * b ^ fp.length) < 10 ^ p := by
      rw [hznat]
      refine lt_of_le_of_lt ?_ hsize
      rw [show ip.length + 2 * fp.length = (ip.length + fp.length) + fp.length by ring, pow_add b (_ + _)]
      calc 5 * (b * N * b ^ fp.length) = 5 * b * (N * b ^ fp.length) := by ring
        _ ≤ _ := Nat.mul_le_mul_left _ (Nat.mul_le_mul_right _ hNlt.le)
    obtain ⟨ip', fp', i1, i2, i3, i4, i5, i6, i7, i8, i9, i10, i11, i12, i13⟩ :=
      written hp powF hb hb36 hb10 hk hr hz0 hval h5
    rw [hznat, hdivN] at i5 i6
    rw [hznat, hmodN] at i7
    have hfp : fp' = fp := by
      have h1 : fp' ++ List.replicate (fp.length - fp'.length) 0 = fp := by
        apply positional_inj (b := b) _ hf
        · simp; omega
        · rw [positional_append, positional_replicate_zero]
          simpa using i7
        · intro d hd
          rcases List.mem_append.mp hd with hd | hd
          · exact i2 d hd
          · rw [List.mem_replicate] at hd; omega
      rcases Nat.eq_zero_or_pos (fp.length - fp'.length) with h0 | h0
      · rw [h0] at h1; simpa using h1
      · exfalso
        apply hlast
        rw [← h1]
        obtain ⟨m, hm⟩ : ∃ m, fp.length - fp'.length = m + 1 := ⟨_, (Nat.succ_pred_eq_of_pos h0).symm⟩
        rw [hm, List.replicate_succ', ← List.append_assoc]
        simp
    rw [hzneg, hfp] at i13
    exact ⟨ip', z.natAbs + 1, i1, i3, i5, by rw [i5]; exact hloglen, i6, fun fuel h => i13 fuel (by omega)⟩

theorem chr_of_digits {b : ℕ} {cs : List Char} {ds : List ℕ} (h : DigitsAre b cs ds)
    (hup : ∀ c ∈ cs, c.toUpper = c) : ds.map chr = cs := by
  induction h with
  | nil => rfl
  | @cons c d cs ds hcd _ ih =>
    rw [List.map_cons, ih (fun c hc => hup c (List.mem_cons_of_mem _ hc))]
    congr 1
    have h1 := hcd.1
    rw [← findDigit_upper, hup c (by simp)] at h1
    have h2 := findDigit_spec.mp h1
    rw [chr_spec h2.1] at h2
    simpa using h2.2

/-- Reading a binary literal and showing it gives back the same text, including
leading zeros.  The fraction must not end in a zero, and only a non-zero literal may
have a sign. -/
theorem C15_binary_width (p : ℕ) (hp : 1 ≤ p) (powF) (prec : ℕ) (neg : Bool) (ics fcs : List Char) (ip fp : List ℕ)
    (hi : DigitsAre 2 ics ip) (hf : DigitsAre 2 fcs fp) (hne : ics ≠ [])
    (hlast : fp.getLast? ≠ some 0) (hk : fp.length ≤ prec) (hneg : neg = true → ∃ d ∈ ip ++ fp, d ≠ 0)
    (hsize : 10 * 2 ^ (ip.length + 2 * fp.length) < 10 ^ p) :
    ∃ r w F, parseBin p powF (literalText "0b".toList neg ics fcs) = some (.ok (r, w)) ∧
      ∀ fuel, F ≤ fuel → showBin p powF prec fuel r (some w) = .ok (literalText "0b".toList neg ics fcs) := by
  obtain ⟨r, h1, h2, h3⟩ := C14_bin_literal p hp powF neg ics fcs ip fp hi hf hne (by omega)
  have hil := hi.length
  have hipne : ip ≠ [] := by
    intro h; rw [h] at hil; exact hne (List.length_eq_zero_iff.mp hil)
  obtain ⟨ip', F, i1, i2, i3, i4, i5, i6⟩ := decToBase_digits hp powF (b := 2) (prec := prec) (by norm_num)
    (by norm_num) (by norm_num) neg hi.lt hf.lt hipne hlast hk hneg (by omega) h2 h3
  refine ⟨r, ics.length, F, h1, ?_⟩
  intro fuel hfuel
  unfold showBin
  have := i6 fuel hfuel
  rw [show (2:ℤ) = ((2:ℕ):ℤ) by norm_num, this]
  simp only [ok_bind]
  rw [forceWidth_based i2 (fun d hd => lt_of_lt_of_le (i1 d hd) (by norm_num)), hil]
  simp only [ok_bind]
  have hpad : List.replicate (ip.length - ip'.length) 0 ++ ip' = ip := by
    apply positional_inj (b := 2) _ hi.lt
    · simp; omega
    · rw [positional_append, positional_replicate_zero, i5]; simp
    · intro d hd
      rcases List.mem_append.mp hd with hd | hd
      · rw [List.mem_replicate] at hd; omega
      · exact i1 d hd
  rw [hpad, addPrefix_based hipne (fun d hd => lt_of_lt_of_le (hi.lt d hd) (by norm_num))]
  have hbinup : ∀ {cs : List Char} {ds : List ℕ}, DigitsAre 2 cs ds → ∀ c ∈ cs, c.toUpper = c := by
    intro cs ds h c hc
    obtain ⟨_, _, d, hd, hlt⟩ := h.ne c hc
    rw [← findDigit_upper] at hd
    have h2 := findDigit_spec.mp hd
    by_cases h1 : c.toNat < 128
    · have : ∀ n < 128, ∀ d < 2, digitValue (Char.ofNat n) = some d → (Char.ofNat n).toUpper = Char.ofNat n := by
        decide +kernel
      rw [findDigit_upper] at hd
      have hch : c = Char.ofNat c.toNat := (Char.ofNat_toNat c).symm
      rw [hch] at hd ⊢
      exact this _ h1 d hlt hd
    · unfold Char.toUpper; rw [dif_neg]; intro h
      have : c.toNat ≤ 122 := h.2
      omega
  rw [chr_of_digits hi (hbinup hi), chr_of_digits hf (hbinup hf)]
  rfl

example : ∃ r w F, parseBin 100 noPow "-0b0010.01".toList = some (.ok (r, w)) ∧
    ∀ fuel, F ≤ fuel → showBin 100 noPow 30 fuel r (some w) = .ok "-0b0010.01".toList :=
  C15_binary_width 100 (by norm_num) noPow 30 true "0010".toList "01".toList [0,0,1,0] [0,1]
    (by unfold DigitsAre; decide) (by unfold DigitsAre; decide) (by decide) (by decide) (by decide)
    (fun _ => ⟨1, by decide, by decide⟩) (by norm_num)

/-- Hexadecimal literals without leading zeros show the same digits (in upper case). -/
theorem C15_hex_partial (p : ℕ) (hp : 1 ≤ p) (powF) (prec : ℕ) (neg : Bool) (ics fcs : List Char) (d : ℕ)
    (ds fp : List ℕ) (hi : DigitsAre 16 ics (d :: ds)) (hf : DigitsAre 16 fcs fp) (hlead : d ≠ 0 ∨ ds = [])
    (hlast : fp.getLast? ≠ some 0) (hk : fp.length ≤ prec) (hneg : neg = true → ∃ e ∈ d :: ds ++ fp, e ≠ 0)
    (hsize : 80 * 16 ^ (ds.length + 1 + 2 * fp.length) < 10 ^ p) :
    ∃ r F, parseHex p powF (literalText "0x".toList neg ics fcs) = some (.ok r) ∧
      ∀ fuel, F ≤ fuel → showHex p powF prec fuel r =
        .ok (literalText "0x".toList neg ((d :: ds).map chr) (fp.map chr)) := by
  have hil := hi.length
  have hne : ics ≠ [] := by rintro rfl; simp at hil
  obtain ⟨r, h1, h2, h3⟩ := C14_hex_literal p hp powF neg ics fcs (d :: ds) fp hi hf hne
    (by simp only [List.length_cons]; omega)
  obtain ⟨ip', F, i1, i2, i3, i4, i5, i6⟩ := decToBase_digits hp powF (b := 16) (prec := prec) (by norm_num)
    (by norm_num) (by norm_num) neg hi.lt hf.lt (by simp) hlast hk hneg (by simp only [List.length_cons]; omega) h2 h3
  refine ⟨r, F, h1, ?_⟩
  intro fuel hfuel
  have hlen : ip'.length = (d :: ds).length := by
    refine le_antisymm i4 ?_
    rw [i3, List.length_cons]
    rcases hlead with h | h
    · have h1 := positional_ge (b := 16) (ds := ds) h
      have h2 : ds.length ≤ Nat.log 16 (positional 16 (d :: ds)) :=
        Nat.le_log_of_pow_le (by norm_num) h1
      omega
    · subst h; simp
  have hip : ip' = d :: ds := positional_inj i1 hi.lt hlen i5
  unfold showHex
  have := i6 fuel hfuel
  rw [show (16:ℤ) = ((16:ℕ):ℤ) by norm_num, this]
  simp only [ok_bind]
  rw [hip, addPrefix_based (by simp) (fun d hd => lt_of_lt_of_le (hi.lt d hd) (by norm_num))]
  rfl

theorem C15_oct_partial (p : ℕ) (hp : 1 ≤ p) (powF) (prec : ℕ) (neg : Bool) (ics fcs : List Char) (d : ℕ)
    (ds fp : List ℕ) (hi : DigitsAre 8 ics (d :: ds)) (hf : DigitsAre 8 fcs fp) (hlead : d ≠ 0 ∨ ds = [])
    (hlast : fp.getLast? ≠ some 0) (hk : fp.length ≤ prec) (hneg : neg = true → ∃ e ∈ d :: ds ++ fp, e ≠ 0)
    (hsize : 40 * 8 ^ (ds.length + 1 + 2 * fp.length) < 10 ^ p) :
    ∃ r F, parseOct p powF (literalText "0o".toList neg ics fcs) = some (.ok r) ∧
      ∀ fuel, F ≤ fuel → showOct p powF prec fuel r =
        .ok (literalText "0o".toList neg ((d :: ds).map chr) (fp.map chr)) := by
  have hil := hi.length
  have hne : ics ≠ [] := by rintro rfl; simp at hil
  obtain ⟨r, h1, h2, h3⟩ := C14_oct_literal p hp powF neg ics fcs (d :: ds) fp hi hf hne
    (by simp only [List.length_cons]; omega)
  obtain ⟨ip', F, i1, i2, i3, i4, i5, i6⟩ := decToBase_digits hp powF (b := 8) (prec := prec) (by norm_num)
    (by norm_num) (by norm_num) neg hi.lt hf.lt (by simp) hlast hk hneg (by simp only [List.length_cons]; omega) h2 h3
  refine ⟨r, F, h1, ?_⟩
  intro fuel hfuel
  have hlen : ip'.length = (d :: ds).length := by
    refine le_antisymm i4 ?_
    rw [i3, List.length_cons]
    rcases hlead with h | h
    · have h1 := positional_ge (b := 8) (ds := ds) h
      have h2 : ds.length ≤ Nat.log 8 (positional 8 (d :: ds)) :=
        Nat.le_log_of_pow_le (by norm_num) h1
      omega
    · subst h; simp
  have hip : ip' = d :: ds := positional_inj i1 hi.lt hlen i5
  unfold showOct
  have := i6 fuel hfuel
  rw [show (8:ℤ) = ((8:ℕ):ℤ) by norm_num, this]
  simp only [ok_bind]
  rw [hip, addPrefix_based (by simp) (fun d hd => lt_of_lt_of_le (hi.lt d hd) (by norm_num))]
  rfl

example : ∃ r F, parseHex 100 noPow "0x1fA".toList = some (.ok r) ∧
    ∀ fuel, F ≤ fuel → showHex 100 noPow 30 fuel r = .ok "0x1FA".toList :=
  C15_hex_partial 100 (by norm_num) noPow 30 false "1fA".toList [] 1 [15, 10] []
    (by unfold DigitsAre; decide) (by unfold DigitsAre; decide) (by decide) (by decide) (by decide)
    (by decide) (by norm_num)

/-- Leading zeros of hexadecimal and octal literals are lost. -/
theorem C15_leading_zero_violation :
    parseHex 100 noPow "0x0F".toList = some (.ok ⟨15, 1⟩) ∧ showHex 100 noPow 30 10 ⟨15, 1⟩ = .ok "0xF".toList ∧
    parseOct 100 noPow "0o07".toList = some (.ok ⟨7, 1⟩) ∧ showOct 100 noPow 30 10 ⟨7, 1⟩ = .ok "0o7".toList := by
  decide +kernel

/-! ## C16 Base-prefixed literals -/

theorem natText_no_z (n : ℕ) : ∀ c ∈ natText n, c ≠ 'z' ∧ c ≠ '-' ∧ c.toLower = c := by
  intro c hc
  have h := natText_digits n c hc
  have hlt := isDigit_lt h
  have : ∀ n < 128, (Char.ofNat n).isDigit = true → Char.ofNat n ≠ 'z' ∧ Char.ofNat n ≠ '-' ∧
      (Char.ofNat n).toLower = Char.ofNat n := by decide +kernel
  have hch : c = Char.ofNat c.toNat := (Char.ofNat_toNat c).symm
  rw [hch] at h ⊢
  exact this _ hlt h

theorem arb_value (p : ℕ) (hp : 1 ≤ p) (powF) (b : ℕ) (hb : 2 ≤ b) (hb36 : b ≤ 36) (hb10 : b ≠ 10)
    (neg : Bool) (ics fcs : List Char) (ip fp : List ℕ) (hi : DigitsAre b ics ip) (hf : DigitsAre b fcs fp)
    (hne : ics ≠ []) (hZ : ∀ d ∈ ip ++ fp, d ≠ 35) 
    (s1 : (positional b ip * b ^ fp.length + positional b fp) * b ^ fp.length < 10 ^ p)
    (s2 : b ^ (ip.length - 1) < 10 ^ p) (s3 : b ^ fp.length < 10 ^ p) :
    ∃ r, parseArb p powF (literalText (natText b ++ ['z']) neg ics fcs) = .ok (some (r, b)) ∧ r.Canonical ∧
      r.val = (if neg then -1 else 1) * positionalQ b ip fp := by
  set pre := natText b ++ ['z'] with hpre
  have hpl : lowerText pre = pre := by
    unfold lowerText
    conv_rhs => rw [← List.map_id pre]
    apply List.map_congr_left
    intro c hc
    rw [hpre] at hc
    rcases List.mem_append.mp hc with hc | hc
    · exact (natText_no_z b c hc).2.2
    · have : c = 'z' := by simpa using hc
      subst this; decide
  have hpn : pre ≠ [] := by rw [hpre]; simp
  have hpm : pre.head? ≠ some '-' := by
    rw [hpre]
    obtain ⟨c, t, ht⟩ := List.exists_cons_of_ne_nil (natText_ne_nil b)
    have := (natText_no_z b c (by rw [ht]; simp)).2.1
    rw [ht]; simpa using this
  have hnz : ∀ {cs : List Char} {ds : List ℕ}, DigitsAre b cs ds → (∀ d ∈ ds, d ≠ 35) → 'z' ∉ lowerText cs := by
    intro cs ds h
    have h' := h.lower
    clear h
    generalize lowerText cs = cs' at h'
    induction h' with
    | nil => simp
    | @cons c d cs ds hcd _ ih =>
      intro hd hm
      rcases List.mem_cons.mp hm with h | h
      · rw [← h] at hcd
        have := hcd.1
        rw [show digitValue 'z' = some 35 by decide] at this
        cases this
        exact hd 35 (by simp) rfl
      · exact ih (fun d hm => hd d (by simp [hm])) h
  have z1 := hnz hi (fun d hd => hZ d (by simp [hd]))
  have z2 := hnz hf (fun d hd => hZ d (by simp [hd]))
  have hrem := removePrefix_literal hpl hpn hpm (c := 'z') (by rw [hpre]; simp) (by decide) neg z1 z2
  obtain ⟨r, r1, r2, r3⟩ := baseToDec_exact hp powF hb hb36 hb10 neg hi.lower hf.lower
    (by simpa [lowerText] using hne) s1 s2 s3
  refine ⟨r, ?_, r2, r3⟩
  have hok : ∀ {cs : List Char} {ds : List ℕ}, DigitsAre b cs ds → ∀ x ∈ lowerText cs,
      (x.isDigit || (decide ('a' ≤ x) && decide (x ≤ 'z'))) = true ∧ x ≠ '.' := by
    intro cs ds h x hx
    obtain ⟨y, hy, rfl⟩ := List.mem_map.mp hx
    obtain ⟨_, _, d, hd, hlt⟩ := h.ne y hy
    refine ⟨?_, (h.lower.ne _ hx).1⟩
    rw [(lower_digit hd).2]
    have : ∀ d < 36, ((chr d).toLower.isDigit || (decide ('a' ≤ (chr d).toLower) && decide ((chr d).toLower ≤ 'z')))
      = true := by decide +kernel
    exact this d (lower_digit hd).1
  have hmatch : matchArb (literalText pre neg ics fcs) = some (natText b) := by
    unfold matchArb literalText
    rw [lower_signed, hpl]
    have hs1 : (let s := (if neg = true then ['-'] else []) ++ pre ++ lowerText ics ++
          (if lowerText fcs = [] then [] else '.' :: lowerText fcs)
        if s.head? == some '-' then s.tail else s) = natText b ++ 'z' :: (lowerText ics ++
          (if lowerText fcs = [] then [] else '.' :: lowerText fcs)) := by
      cases neg with
      | true => simp [hpre]
      | false =>
        obtain ⟨c, t, ht⟩ := List.exists_cons_of_ne_nil (natText_ne_nil b)
        have := (natText_no_z b c (by rw [ht]; simp)).2.1
        rw [hpre, ht]
        simp [this]
    simp only at hs1 ⊢
    rw [hs1, span_digits_append (natText_digits b) (by intro c hc; simp at hc; subst hc; decide)]
    set rest := lowerText ics ++ (if lowerText fcs = [] then [] else '.' :: lowerText fcs) with hrest
    have hall : ∀ c ∈ lowerText ics, (decide (c ≠ '.')) = true := fun c hc => by simpa using (hok hi c hc).2
    have ht : rest.takeWhile (· ≠ '.') = lowerText ics ∧ rest.dropWhile (· ≠ '.') =
        (if lowerText fcs = [] then [] else '.' :: lowerText fcs) := by
      rw [hrest, List.takeWhile_append_of_pos hall, List.dropWhile_append_of_pos hall]
      split <;> simp
    have hlen : (lowerText ics).isEmpty = false := by
      cases ics with
      | nil => exact absurd rfl hne
      | cons c t => rfl
    have hok1 := List.all_eq_true.mpr (fun c hc => (hok hi c hc).1)
    have hok2 := List.all_eq_true.mpr (fun c hc => (hok hf c hc).1)
    obtain ⟨c0, t0, h0⟩ := List.exists_cons_of_ne_nil (natText_ne_nil b)
    rw [h0]
    simp only
    rw [ht.1, ht.2, if_pos]
    rw [hlen, hok1]
    by_cases hf : lowerText fcs = []
    · rw [if_pos hf]; rfl
    · rw [if_neg hf]
      have : (lowerText fcs).isEmpty = false := by
        cases hx : lowerText fcs with
        | nil => exact absurd hx hf
        | cons c t => rfl
      simp [this]
      simpa using hok2
  unfold parseArb
  rw [hmatch]
  simp only
  rw [readNat_natText, ← hpre]
  have : removePrefix (literalText pre neg ics fcs) pre = signedText neg (lowerText ics) (lowerText fcs) := hrem
  rw [this, r1]

/-- A literal `<base>z<digits>` in a base other than ten denotes the positional value
of its digits, unless base is 36 and a digit is `Z`. -/
theorem C16_value_partial (p : ℕ) (hp : 1 ≤ p) (powF) (b : ℕ) (hb : 2 ≤ b) (hb36 : b ≤ 36) (hb10 : b ≠ 10)
    (neg : Bool) (ics fcs : List Char) (ip fp : List ℕ) (hi : DigitsAre b ics ip) (hf : DigitsAre b fcs fp)
    (hne : ics ≠ []) (hZ : ∀ d ∈ ip ++ fp, d ≠ 35) (hsize : b ^ (ip.length + 2 * fp.length) < 10 ^ p) :
    ∃ r, parseArb p powF (literalText (natText b ++ ['z']) neg ics fcs) = .ok (some (r, b)) ∧ r.Canonical ∧
      r.val = (if neg then -1 else 1) * positionalQ b ip fp := by
  obtain ⟨s1, s2, s3⟩ := size_bounds hb hi.lt hf.lt hsize
  exact arb_value p hp powF b hb hb36 hb10 neg ics fcs ip fp hi hf hne hZ s1 s2 s3

/-- A number written in a base below 36 (other than ten) with its prefix reads back. -/
theorem C13_arbitrary_base (p : ℕ) (hp : 1 ≤ p) (powF) (b k prec : ℕ) (hb : 2 ≤ b) (hb36 : b < 36) (hb10 : b ≠ 10)
    (hk : k ≤ prec) (a : Number) (ha : a.Canonical) (z : ℤ) (hz : z ≠ 0)
    (hval : a.val = (z:ℚ) / (b:ℚ) ^ k) (h5 : 5 * (b * z.natAbs * b ^ k) < 10 ^ p) :
    ∃ t F, (∀ fuel, F ≤ fuel → showArb p powF prec fuel a b = .ok t) ∧ parseArb p powF t = .ok (some (a, b)) := by
  obtain ⟨ip, fp, i1, i2, i3, i4, i5, i6, i7, i8, i9, i10, i11, i12, i13⟩ :=
    written hp powF hb hb36.le hb10 hk ha hz hval h5
  refine ⟨literalText (natText b ++ ['z']) (decide (z < 0)) (ip.map chr) (fp.map chr), z.natAbs + 1, ?_, ?_⟩
  · intro fuel hf
    unfold showArb
    rw [i13 fuel (by omega)]
    simp only [ok_bind]
    exact addPrefix_based i3 (fun d hd => lt_trans (i1 d hd) hb36) _
  · obtain ⟨r, h1, h2, h3⟩ := arb_value p hp powF b hb hb36.le hb10 (decide (z < 0)) (ip.map chr) (fp.map chr) ip fp
      (DigitsAre.map_chr hb36.le i1) (DigitsAre.map_chr hb36.le i2) (by simpa using i3)
      (by
        intro d hd
        rcases List.mem_append.mp hd with hd | hd
        · have := i1 d hd; omega
        · have := i2 d hd; omega) i10 i11 i12
    have : r = a := canonical_ext h2 ha (by rw [h3, i9]; exact sign_val hb hval)
    rw [h1, this]

example : (⟨-255, 1⟩ : Number).val = ((-255 : ℤ):ℚ) / ((7:ℕ):ℚ) ^ 0 ∧ showArb 100 noPow 30 10 ⟨-255, 1⟩ 7 = .ok "-7z513".toList :=
  ⟨by unfold val; norm_num, by decide +kernel⟩

/-- Binary numbers shown without a width read back. -/
theorem C13_bin (p : ℕ) (hp : 1 ≤ p) (powF) (k prec : ℕ) (hk : k ≤ prec) (a : Number) (ha : a.Canonical) (z : ℤ)
    (hz : z ≠ 0) (hval : a.val = (z:ℚ) / 2 ^ k) (h5 : 5 * (2 * z.natAbs * 2 ^ k) < 10 ^ p) :
    ∃ t w F, (∀ fuel, F ≤ fuel → showBin p powF prec fuel a none = .ok t) ∧ parseBin p powF t = some (.ok (a, w)) := by
  obtain ⟨ip, fp, i1, i2, i3, i4, i5, i6, i7, i8, i9, i10, i11, i12, i13⟩ :=
    written hp powF (b := 2) (by norm_num) (by norm_num) (by norm_num) hk ha hz (by exact_mod_cast hval) h5
  refine ⟨literalText "0b".toList (decide (z < 0)) (ip.map chr) (fp.map chr), ip.length, z.natAbs + 1, ?_, ?_⟩
  · intro fuel hf
    have := i13 fuel (by omega)
    unfold showBin
    rw [show (2:ℤ) = ((2:ℕ):ℤ) by norm_num, this]
    simp only [ok_bind]
    exact addPrefix_based i3 (fun d hd => lt_of_lt_of_le (i1 d hd) (by norm_num)) _
  · have hd := DigitsAre.map_chr (b := 2) (by norm_num) i1
    obtain ⟨h1, h2, r, h3, h4, h5⟩ := literal_value hp powF (b := 2) (by norm_num) (by norm_num) (by norm_num)
      (pre := "0b".toList) (by decide) (by decide) (by decide) (c := 'b') (by decide)
      (Or.inr ⟨11, by decide, by norm_num⟩) (by decide) ok_bin (decide (z < 0)) hd
      (DigitsAre.map_chr (by norm_num) i2) (by simpa using i3) i10 i11 i12
    have : r = a := canonical_ext h4 ha (by
      rw [h5, i9]; exact sign_val (b := 2) (k := k) (by norm_num) (by exact_mod_cast hval))
    subst this
    unfold parseBin
    rw [if_pos h1]; congr 1
    have h3' : baseToDec p powF (removePrefix (literalText "0b".toList (decide (z < 0)) (ip.map chr) (fp.map chr))
      "0b".toList) 2 = .ok r := h3
    rw [h3', numberWidth_literal h2 hd (by simpa using i3)]; rfl

example : (⟨-5, 4⟩ : Number).Canonical ∧ showBin 100 noPow 30 10 ⟨-5, 4⟩ none = .ok "-0b1.01".toList :=
  ⟨by unfold Number.Canonical; decide, by decide +kernel⟩

example : ∃ r, parseArb 100 noPow "-36zAb".toList = .ok (some (r, 36)) ∧ r.Canonical ∧ r.val = -371 := by
  have := C16_value_partial 100 (by norm_num) noPow 36 (by norm_num) (by norm_num) (by norm_num) true
    "Ab".toList [] [10, 11] [] (by unfold DigitsAre; decide) (by unfold DigitsAre; decide) (by decide)
    (by decide) (by norm_num)
  obtain ⟨r, h1, h2, h3⟩ := this
  refine ⟨r, ?_, h2, ?_⟩
  · have e : literalText (natText 36 ++ ['z']) true "Ab".toList [] = "-36zAb".toList := by decide +kernel
    rw [← e]; exact h1
  · rw [h3]; norm_num [positionalQ, positional]

/-- `36z36z1` should denote the four digits `3 6 Z 1`, but is read as `1`. -/
theorem C16_prefix_violation :
    DigitsAre 36 "36z1".toList [3, 6, 35, 1] ∧ positional 36 [3, 6, 35, 1] = 149005 ∧
    parseArb 100 noPow "36z36z1".toList = .ok (some (⟨1, 1⟩, 36)) := by
  refine ⟨by unfold DigitsAre; decide, by decide, by decide +kernel⟩

/-- `36z36z` is left with no digits and raises an `IndexError`. -/
theorem C16_empty_violation : parseArb 100 noPow "36z36z".toList = .error (.py "IndexError") := by
  decide +kernel

end MC.Props
