import Verif.Lemmas.Bases2

namespace MC
open Number

/-- A text with an optional sign, an integer part and an optional fraction. -/
def signedText (neg : Bool) (ics fcs : List Char) : List Char :=
  (if neg then ['-'] else []) ++ ics ++ (if fcs = [] then [] else '.' :: fcs)

theorem digit_ne {c : Char} {d : ℕ} (h : digitValue c = some d) : c ≠ '.' ∧ c ≠ '-' ∧ c.toUpper ≠ '.' := by
  refine ⟨?_, ?_, ?_⟩
  · rintro rfl; rw [show digitValue '.' = none by decide] at h; cases h
  · rintro rfl; rw [show digitValue '-' = none by decide] at h; cases h
  · intro hc
    rw [← findDigit_upper, hc, findDigit_dot] at h; cases h

theorem DigitsAre.upper {b : ℕ} {cs : List Char} {ds : List ℕ} (h : DigitsAre b cs ds) :
    List.Forall₂ (fun c d => findDigit c = some d ∧ d < b) (upperText cs) ds := by
  unfold upperText
  rw [List.forall₂_map_left_iff]
  exact h.imp (fun c d hcd => by rw [findDigit_upper]; exact hcd)

theorem DigitsAre.length {b : ℕ} {cs : List Char} {ds : List ℕ} (h : DigitsAre b cs ds) :
    cs.length = ds.length := List.Forall₂.length_eq h

theorem DigitsAre.lt {b : ℕ} {cs : List Char} {ds : List ℕ} (h : DigitsAre b cs ds) : ∀ d ∈ ds, d < b := by
  induction h with
  | nil => simp
  | cons h _ ih =>
    intro d hd
    rcases List.mem_cons.mp hd with rfl | hd
    · exact h.2
    · exact ih d hd

theorem DigitsAre.ne {b : ℕ} {cs : List Char} {ds : List ℕ} (h : DigitsAre b cs ds) :
    ∀ c ∈ cs, c ≠ '.' ∧ c ≠ '-' ∧ ∃ d, digitValue c = some d ∧ d < b := by
  induction h with
  | nil => simp
  | cons h _ ih =>
    intro c hc
    rcases List.mem_cons.mp hc with rfl | hc
    · exact ⟨(digit_ne h.1).1, (digit_ne h.1).2.1, _, h⟩
    · exact ih c hc

theorem DigitsAre.map_chr {b : ℕ} (hb : b ≤ 36) {ds : List ℕ} (h : ∀ d ∈ ds, d < b) :
    DigitsAre b (ds.map chr) ds := by
  induction ds with
  | nil => exact List.Forall₂.nil
  | cons d ds ih =>
    refine List.Forall₂.cons ⟨?_, h d (by simp)⟩ (ih (fun x hx => h x (by simp [hx])))
    exact (chr_facts (lt_of_lt_of_le (h d (by simp)) hb)).2.2.2.2

theorem neg_exact {p : ℕ} {a : Number} (ha : a.Canonical) (h : |a.num| < 10 ^ p) :
    (Number.neg p a).Canonical ∧ (Number.neg p a).val = -a.val := by
  have e : Number.neg p a = ⟨-a.num, a.den⟩ := by
    unfold Number.neg
    rw [← Int.cast_neg, rnd_int (by rwa [abs_neg]), rhu_intCast]
  rw [e]
  refine ⟨⟨ha.1, ?_⟩, ?_⟩
  · have := ha.2
    show Int.gcd (-a.num) a.den = 1
    rwa [Int.neg_gcd]
  · unfold val; push_cast; ring

/-- The body of `base_to_dec` on digits and an optional fraction. -/
theorem readBody_exact {p : ℕ} (hp : 1 ≤ p) (powF) {b : ℕ} (hb : 2 ≤ b)
    {ics fcs : List Char} {ip fp : List ℕ} (hi : DigitsAre b ics ip) (hf : DigitsAre b fcs fp)
    (hne : ics ≠ [])
    (hT : (positional b ip * b ^ fp.length + positional b fp) * b ^ fp.length < 10 ^ p)
    (hI : b ^ (ip.length - 1) < 10 ^ p) (hF : b ^ fp.length < 10 ^ p) :
    ∃ r, readDigits p powF (b:ℤ) (upperText (ics ++ (if fcs = [] then [] else '.' :: fcs)))
        ((ics.length : ℤ) - 1) ⟨0, 1⟩ = .ok r ∧ r.Canonical ∧ r.val = positionalQ b ip fp ∧
        |r.num| < 10 ^ p := by
  have hil := hi.length
  have hfl := hf.length
  have hlen : 1 ≤ ip.length := by
    rw [← hil]; exact List.length_pos_iff.mpr hne
  set k := fp.length with hk
  have hk1 : 1 ≤ b ^ k := Nat.one_le_pow _ _ (by omega)
  have hJ : ∀ i : ℤ, -(k:ℤ) ≤ i → i ≤ (ics.length : ℤ) - 1 → b ^ i.natAbs < 10 ^ p := by
    intro i h1 h2
    rcases le_total 0 i with h | h
    · exact lt_of_le_of_lt (Nat.pow_le_pow_right (by omega) (by omega)) hI
    · exact lt_of_le_of_lt (Nat.pow_le_pow_right (by omega) (by omega)) hF
  have hT1 : (0 + positional b ip * b ^ k) * b ^ k < 10 ^ p :=
    lt_of_le_of_lt (Nat.mul_le_mul_right _ (by omega)) hT
  obtain ⟨a1, h1, c1, v1⟩ := readDigits_exact hp powF hb hi.upper ((ics.length : ℤ) - 1) ⟨0, 1⟩ 0 k
    (upperText (if fcs = [] then [] else '.' :: fcs)) (by omega) (canonical_int 0) (by simp [val]) hT1 hF hJ
  rw [zero_add] at v1
  obtain ⟨a2, h2, c2, v2⟩ := readDigits_exact hp powF hb hf.upper (-1) a1 (positional b ip * b ^ k) 0
    [] (by omega) c1 v1 (by simpa using hT) hF (fun i h1 h2 => hJ i h1 (by omega))
  refine ⟨a2, ?_, c2, ?_, ?_⟩
  · have hup : upperText (ics ++ (if fcs = [] then [] else '.' :: fcs))
        = upperText ics ++ upperText (if fcs = [] then [] else '.' :: fcs) := by
      unfold upperText; rw [List.map_append]
    rw [hup, h1, show (ics.length : ℤ) - 1 - (ip.length : ℤ) = -1 by omega]
    by_cases hfc : fcs = []
    · rw [if_pos hfc]
      subst hfc
      rw [show upperText [] = [] from rfl]
      rw [show upperText [] ++ [] = ([] : List Char) from rfl] at h2
      rw [h2]
      simp [readDigits]
    · rw [if_neg hfc]
      rw [show upperText ('.' :: fcs) = '.' :: upperText fcs from rfl, readDigits, if_pos rfl]
      rw [List.append_nil] at h2
      rw [h2]; simp [readDigits]
  · rw [v2]; unfold positionalQ
    have : (0:ℚ) < (b:ℚ) := by positivity
    push_cast; rw [hk]; field_simp
  · have hz : (0:ℤ) < ((b ^ k : ℕ):ℤ) := by exact_mod_cast hk1
    have := num_le_of_val c2 (n := ((positional b ip * b ^ k + positional b fp * b ^ 0 : ℕ):ℤ)) hz.ne'
      (by rw [v2]; push_cast; rfl)
    rw [Nat.abs_cast, pow_zero, mul_one] at this
    refine lt_of_le_of_lt this ?_
    have : positional b ip * b ^ k + positional b fp < 10 ^ p :=
      lt_of_le_of_lt (Nat.le_mul_of_pos_right _ hk1) hT
    exact_mod_cast this

theorem baseToDec_exact {p : ℕ} (hp : 1 ≤ p) (powF) {b : ℕ} (hb : 2 ≤ b) (hb36 : b ≤ 36) (hb10 : b ≠ 10)
    (neg : Bool) {ics fcs : List Char} {ip fp : List ℕ} (hi : DigitsAre b ics ip) (hf : DigitsAre b fcs fp)
    (hne : ics ≠ [])
    (hT : (positional b ip * b ^ fp.length + positional b fp) * b ^ fp.length < 10 ^ p)
    (hI : b ^ (ip.length - 1) < 10 ^ p) (hF : b ^ fp.length < 10 ^ p) :
    ∃ r, baseToDec p powF (signedText neg ics fcs) (b:ℤ) = .ok r ∧ r.Canonical ∧
      r.val = (if neg then -1 else 1) * positionalQ b ip fp := by
  by_cases h0 : signedText neg ics fcs = ['0']
  · have h0' := h0
    obtain ⟨i, is, rfl⟩ : ∃ i is, ics = i :: is := List.exists_cons_of_ne_nil hne
    have hneg : neg = false := by
      cases neg with
      | false => rfl
      | true => simp [signedText] at h0
    subst hneg
    have hfc : fcs = [] := by
      by_contra hfc
      simp [signedText, hfc] at h0
    subst hfc
    simp [signedText] at h0
    obtain ⟨rfl, rfl⟩ := h0
    cases hf
    cases hi with
    | cons hd ht =>
      cases ht
      have := hd.1
      have e : digitValue '0' = some 0 := by decide
      rw [e] at this; cases this
      refine ⟨⟨0, 1⟩, ?_, canonical_int 0, by simp [val, positionalQ, positional]⟩
      unfold baseToDec
      rw [h0', if_pos rfl, ofInt_eq hp]
  obtain ⟨r, h1, c1, v1, n1⟩ := readBody_exact hp powF hb hi hf hne hT hI hF
  set body := ics ++ (if fcs = [] then [] else '.' :: fcs) with hbody
  have hnodot : '.' ∉ ics := fun hc => (hi.ne _ hc).1 rfl
  have hpow : (if '.' ∈ body then (body.idxOf '.' : ℤ) - 1 else (body.length : ℤ) - 1) = (ics.length : ℤ) - 1 := by
    by_cases hfc : fcs = []
    · have : body = ics := by rw [hbody, if_pos hfc]; simp
      rw [this, if_neg hnodot]
    · have hb2 : body = ics ++ '.' :: fcs := by rw [hbody, if_neg hfc]
      rw [if_pos (by rw [hb2]; simp), hb2, List.idxOf_append_of_notMem hnodot]
      simp
  unfold baseToDec
  rw [if_neg h0, if_neg (by exact_mod_cast hb10), if_neg (by omega)]
  obtain ⟨i, is, hics⟩ : ∃ i is, ics = i :: is := List.exists_cons_of_ne_nil hne
  have him : i ≠ '-' := (hi.ne i (by rw [hics]; simp)).2.1
  cases neg with
  | true =>
    have e : signedText true ics fcs = '-' :: body := by simp [signedText, hbody]
    rw [e]
    simp only [if_true]
    rw [hpow, ofInt_eq hp]
    simp only [ok_bind]
    rw [h1]
    simp only [ok_bind]
    have := neg_exact c1 n1
    exact ⟨_, rfl, this.1, by rw [this.2, v1]; ring⟩
  | false =>
    have e : signedText false ics fcs = body := by simp [signedText, hbody]
    rw [e]
    have e2 : body = i :: (is ++ (if fcs = [] then [] else '.' :: fcs)) := by rw [hbody, hics]; rfl
    rw [e2]
    simp only [if_neg him]
    rw [← e2, hpow, ofInt_eq hp]
    simp only [ok_bind]
    rw [h1]
    simp only [ok_bind]
    exact ⟨_, rfl, c1, by rw [v1]; simp⟩

/-! ### Prefixes -/

theorem removeAll_none {pre s : List Char} {c : Char} (hc : c ∈ pre) (hs : c ∉ s) : removeAll pre s = s := by
  induction s with
  | nil => rw [removeAll]
  | cons x s ih =>
    rw [removeAll, if_neg, ih (fun h => hs (List.mem_cons_of_mem _ h))]
    rintro ⟨_, h⟩
    exact hs (h.subset hc)

theorem removeAll_prefix {pre s : List Char} (h : pre ≠ []) : removeAll pre (pre ++ s) = removeAll pre s := by
  obtain ⟨c, t, rfl⟩ := List.exists_cons_of_ne_nil h
  rw [List.cons_append, removeAll, if_pos ⟨h, ⟨s, rfl⟩⟩]
  simp

theorem removeAll_minus {pre s : List Char} (h : pre.head? ≠ some '-') :
    removeAll pre ('-' :: s) = '-' :: removeAll pre s := by
  rw [removeAll, if_neg]
  rintro ⟨h1, h2⟩
  obtain ⟨c, t, rfl⟩ := List.exists_cons_of_ne_nil h1
  rw [List.cons_prefix_cons] at h2
  exact h (by simp [h2.1])

theorem digitValue_lower (c : Char) : digitValue c.toLower = digitValue c := by
  have hch : c = Char.ofNat c.toNat := (Char.ofNat_toNat c).symm
  by_cases h1 : c.toNat < 128
  · have : ∀ n < 128, digitValue (Char.ofNat n).toLower = digitValue (Char.ofNat n) := by decide +kernel
    rw [hch]; exact this _ h1
  · have : c.toLower = c := by
      unfold Char.toLower
      rw [dif_neg]
      intro h
      have : c.toNat ≤ 90 := h.2
      omega
    rw [this]

theorem DigitsAre.lower {b : ℕ} {cs : List Char} {ds : List ℕ} (h : DigitsAre b cs ds) :
    DigitsAre b (lowerText cs) ds := by
  unfold lowerText DigitsAre
  rw [List.forall₂_map_left_iff]
  exact h.imp (fun c d hcd => by rw [digitValue_lower]; exact hcd)

theorem lower_signed (neg : Bool) (pre ics fcs : List Char) :
    lowerText ((if neg then ['-'] else []) ++ pre ++ ics ++ (if fcs = [] then [] else '.' :: fcs))
      = (if neg then ['-'] else []) ++ lowerText pre ++ lowerText ics ++
        (if lowerText fcs = [] then [] else '.' :: lowerText fcs) := by
  unfold lowerText
  by_cases h : fcs = []
  · subst h; cases neg <;> simp
  · have h2 : fcs.map Char.toLower ≠ [] := by simpa using h
    rw [if_neg h, if_neg h2]
    have e1 : Char.toLower '-' = '-' := by decide
    have e2 : Char.toLower '.' = '.' := by decide
    cases neg <;> simp [e1, e2]

/-- Removing the prefix of a literal whose digits do not contain one of its characters. -/
theorem removePrefix_literal {pre : List Char} (hpl : lowerText pre = pre) (hpn : pre ≠ [])
    (hpm : pre.head? ≠ some '-') {c : Char} (hc : c ∈ pre) (hcd : c ≠ '.')
    (neg : Bool) {ics fcs : List Char} (h1 : c ∉ lowerText ics) (h2 : c ∉ lowerText fcs) :
    removePrefix ((if neg then ['-'] else []) ++ pre ++ ics ++ (if fcs = [] then [] else '.' :: fcs)) pre
      = signedText neg (lowerText ics) (lowerText fcs) := by
  unfold removePrefix signedText
  rw [lower_signed, hpl]
  set rest := lowerText ics ++ (if lowerText fcs = [] then [] else '.' :: lowerText fcs) with hrest
  have hcr : c ∉ rest := by
    rw [hrest, List.mem_append]
    rintro (h | h)
    · exact h1 h
    · split at h
      · simp at h
      · rcases List.mem_cons.mp h with h | h
        · exact hcd h
        · exact h2 h
  cases neg with
  | false =>
    simp only [Bool.false_eq_true, if_false, List.nil_append, List.append_assoc]
    rw [← hrest, removeAll_prefix hpn, removeAll_none hc hcr]
  | true =>
    simp only [if_true, List.append_assoc, List.cons_append, List.nil_append]
    rw [← hrest, removeAll_minus hpm, removeAll_prefix hpn, removeAll_none hc hcr]

theorem digits_notMem {b : ℕ} {cs : List Char} {ds : List ℕ} (h : DigitsAre b cs ds) {c : Char}
    (hc : digitValue c = none ∨ ∃ d, digitValue c = some d ∧ b ≤ d) : c ∉ cs := by
  intro hm
  obtain ⟨_, _, d, hd, hlt⟩ := h.ne c hm
  rcases hc with hc | ⟨e, he, hle⟩
  · rw [hc] at hd; cases hd
  · rw [he] at hd; cases hd; omega

/-- The literal pattern accepts every text of digits it allows. -/
theorem matchesBased_literal {pre : List Char} (hpl : lowerText pre = pre) (hpn : pre ≠ [])
    (hpm : pre.head? ≠ some '-') {ok : Char → Bool} (neg : Bool) {ics fcs : List Char}
    (hne : ics ≠ []) (h1 : ∀ c ∈ lowerText ics, ok c = true ∧ c ≠ '.') (h2 : ∀ c ∈ lowerText fcs, ok c = true) :
    matchesBased pre ok ((if neg then ['-'] else []) ++ pre ++ ics ++ (if fcs = [] then [] else '.' :: fcs))
      = true := by
  unfold matchesBased
  rw [lower_signed, hpl]
  set rest := lowerText ics ++ (if lowerText fcs = [] then [] else '.' :: lowerText fcs) with hrest
  have hs1 : (let s := (if neg = true then ['-'] else []) ++ pre ++ lowerText ics ++
        (if lowerText fcs = [] then [] else '.' :: lowerText fcs)
      if s.head? == some '-' then s.tail else s) = pre ++ rest := by
    cases neg with
    | true => simp [hrest]
    | false =>
      obtain ⟨c, t, rfl⟩ := List.exists_cons_of_ne_nil hpn
      have : c ≠ '-' := by simpa using hpm
      simp [this, hrest]
  simp only at hs1 ⊢
  rw [hs1, if_pos (List.prefix_append _ _), List.drop_left]
  have hall : ∀ c ∈ lowerText ics, (decide (c ≠ '.')) = true := fun c hc => by simpa using (h1 c hc).2
  have ht : rest.takeWhile (· ≠ '.') = lowerText ics ∧ rest.dropWhile (· ≠ '.') =
      (if lowerText fcs = [] then [] else '.' :: lowerText fcs) := by
    rw [hrest, List.takeWhile_append_of_pos hall, List.dropWhile_append_of_pos hall]
    split <;> simp
  rw [ht.1, ht.2]
  have hlen : (lowerText ics).isEmpty = false := by
    cases ics with
    | nil => exact absurd rfl hne
    | cons c t => rfl
  have hok1 : (lowerText ics).all ok = true := List.all_eq_true.mpr (fun c hc => (h1 c hc).1)
  have hok2 : (lowerText fcs).all ok = true := List.all_eq_true.mpr h2
  rw [hlen, hok1]
  by_cases hf : lowerText fcs = []
  · rw [if_pos hf]; rfl
  · rw [if_neg hf]
    have : (lowerText fcs).isEmpty = false := by
      cases hx : lowerText fcs with
      | nil => exact absurd hx hf
      | cons c t => rfl
    simp [this, hok2]

theorem addPrefix_based {neg : Bool} {ip fp : List ℕ} (hip : ip ≠ []) (h : ∀ d ∈ ip, d < 36) (pre : List Char) :
    addPrefix (basedText neg ip fp) pre = .ok ((if neg then ['-'] else []) ++ pre ++ ip.map chr ++
      (if fp.map chr = [] then [] else '.' :: fp.map chr)) := by
  obtain ⟨d, ds, rfl⟩ := List.exists_cons_of_ne_nil hip
  have h1 := (chr_facts (h d (by simp))).2.2.1
  unfold basedText
  have e : (if fp.map chr = [] then [] else '.' :: fp.map chr) = (if fp = [] then [] else '.' :: fp.map chr) := by
    by_cases hf : fp = [] <;> simp [hf]
  rw [e]
  cases neg with
  | true => simp [addPrefix]
  | false =>
    simp only [Bool.false_eq_true, if_false, List.map_cons, List.nil_append, List.cons_append]
    unfold addPrefix
    split
    · rename_i h; simp at h
    · rename_i h; simp at h; exact absurd h.1 h1
    · simp

theorem isDigit_lt {c : Char} (h : c.isDigit = true) : c.toNat < 128 := by
  have : c.toNat ≤ 57 := by
    unfold Char.isDigit at h
    simp only [Bool.and_eq_true, decide_eq_true_eq] at h
    exact h.2
  omega

theorem digitVal_lt {c : Char} (h : c.isDigit = true) : digitVal c < 10 := by
  have : ∀ n < 128, (Char.ofNat n).isDigit = true → digitVal (Char.ofNat n) < 10 := by decide +kernel
  have hch : c = Char.ofNat c.toNat := (Char.ofNat_toNat c).symm
  have hl := isDigit_lt h
  rw [hch] at h ⊢
  exact this _ hl h

theorem readNat_cons (c : Char) (s : List Char) : readNat (c :: s) = digitVal c * 10 ^ s.length + readNat s := by
  have := readNat_append [c] s
  simpa [readNat] using this

theorem readNat_lt {s : List Char} (h : AllDigits s) : readNat s < 10 ^ s.length := by
  induction s with
  | nil => simp [readNat]
  | cons c s ih =>
    rw [readNat_cons, List.length_cons, pow_succ]
    have h1 := ih (fun x hx => h x (by simp [hx]))
    have h2 := digitVal_lt (h c (by simp))
    calc digitVal c * 10 ^ s.length + readNat s < digitVal c * 10 ^ s.length + 10 ^ s.length := by omega
      _ = (digitVal c + 1) * 10 ^ s.length := by ring
      _ ≤ 10 * 10 ^ s.length := Nat.mul_le_mul_right _ h2
      _ = 10 ^ s.length * 10 := by ring

/-- Decimal digits, as characters and as values. -/
theorem DigitsAre.ten {cs : List Char} {ds : List ℕ} (h : DigitsAre 10 cs ds) :
    AllDigits cs ∧ readNat cs = positional 10 ds := by
  induction h with
  | nil => exact ⟨by intro c hc; simp at hc, rfl⟩
  | @cons c d cs ds hcd ht ih =>
    have hl : cs.length = ds.length := List.Forall₂.length_eq ht
    have hc : c.isDigit = true ∧ digitVal c = d := by
      have hlt : c.toNat < 128 := by
        by_contra hge
        have hnone : digitValue c = none := by
          have big : ∀ d : Char, d.toNat < 128 → ¬ c ≤ d := by
            intro d hd hle
            have : c.toNat ≤ d.toNat := hle
            omega
          have h9 := big '9' (by decide)
          have hZ := big 'Z' (by decide)
          have hz := big 'z' (by decide)
          unfold digitValue
          rw [if_neg (by tauto), if_neg (by tauto), if_neg (by tauto)]
        rw [hnone] at hcd; cases hcd.1
      have : ∀ n < 128, ∀ d < 10, digitValue (Char.ofNat n) = some d →
          (Char.ofNat n).isDigit = true ∧ digitVal (Char.ofNat n) = d := by decide +kernel
      have hch : c = Char.ofNat c.toNat := (Char.ofNat_toNat c).symm
      rw [hch] at hcd ⊢
      exact this _ hlt d hcd.2 hcd.1
    refine ⟨?_, ?_⟩
    · intro x hx
      rcases List.mem_cons.mp hx with rfl | hx
      · exact hc.1
      · exact ih.1 x hx
    · rw [readNat_cons, positional_cons, ih.2, hc.2, hl]

theorem decimalOf_positional {neg : Bool} {ics fcs : List Char} {ip fp : List ℕ} (hi : DigitsAre 10 ics ip)
    (hf : DigitsAre 10 fcs fp) : decimalOf neg ics fcs = (if neg then -1 else 1) * positionalQ 10 ip fp := by
  unfold decimalOf positionalQ
  rw [hi.ten.2, hf.ten.2, hf.length]; rfl

end MC
