import Verif.Lemmas.Lexer
import Verif.Lemmas.Bases3
import Verif.Spec.Reading
import Verif.Lemmas.Grid

/-!
# Which literals make the parser raise an exception of Python
-/

namespace MC.Parse
open MC Number MC.Spec

section
variable {p : ℕ} {powF : ℚ → ℚ → Except Err ℚ}

/-- The computation of a number succeeds. -/
def Fine (r : Except Err Number) : Prop := ∃ n, r = .ok n ∧ 0 < n.den

theorem fine_mk (hp : 1 ≤ p) {n d : ℚ} (h : d ≠ 0) : Fine (mk' p n d) := by
  obtain ⟨r, hr⟩ := mk'_ok_iff.2 h
  exact ⟨r, hr, mk'_den_pos hp hr⟩

theorem fine_mul (hp : 1 ≤ p) {a b : Number} (ha : 0 < a.den) (hb : 0 < b.den) :
    Fine (Number.mul p a b) := by
  refine fine_mk hp ?_
  rw [Ne, rnd_eq_zero_iff hp]
  have h1 : (a.den : ℚ) ≠ 0 := by exact_mod_cast ha.ne'
  have h2 : (b.den : ℚ) ≠ 0 := by exact_mod_cast hb.ne'
  exact mul_ne_zero h1 h2

theorem fine_add (hp : 1 ≤ p) {a b : Number} (ha : 0 < a.den) (hb : 0 < b.den) :
    Fine (Number.add p a b) := by
  refine fine_mk hp ?_
  have : Int.lcm a.den b.den ≠ 0 := Int.lcm_ne_zero ha.ne' hb.ne'
  simpa [normalise] using ⟨ha.ne', hb.ne'⟩

theorem isInt_cast (m : ℤ) : isInt (m : ℚ) = true := by simp [isInt]

theorem fine_pow (hp : 1 ≤ p) {b : ℤ} (hb : b ≠ 0) (k : ℤ) :
    Fine (Number.pow p powF ⟨b, 1⟩ ⟨k, 1⟩) := by
  obtain ⟨m, hm⟩ := rnd_intCast_isInt p k
  have he : toDecimal p ⟨k, 1⟩ = (m : ℚ) := by simp [toDecimal, hm]
  have hbq : (b : ℚ) ≠ 0 := by exact_mod_cast hb
  have hpow : ∀ (x : ℚ) (y : ℤ), x ≠ 0 → 0 ≤ y →
      ∃ z, decPow powF p x (y : ℚ) = .ok z ∧ z ≠ 0 := by
    intro x y hx hy
    have hy' : (0 : ℚ) ≤ (y : ℚ) := by exact_mod_cast hy
    refine ⟨_, by rw [decPow, if_pos ⟨isInt_cast y, hy'⟩, if_neg (fun h => hx h.1)], ?_⟩
    rw [Ne, rnd_eq_zero_iff hp]
    exact pow_ne_zero _ hx
  unfold Number.pow
  simp only [he]
  by_cases hneg : (m : ℚ) < 0
  · rw [if_pos hneg]
    have hm0 : m < 0 := by exact_mod_cast hneg
    obtain ⟨m', hm'⟩ := rnd_intCast_isInt p (-m)
    have h0 : 0 ≤ m' := by
      have h := rnd_pos hp (x := ((-m : ℤ) : ℚ)) (by push_cast; linarith)
      rw [hm'] at h
      exact_mod_cast h.le
    have e : rnd p (-(m : ℚ)) = (m' : ℚ) := by rw [← hm']; push_cast; rfl
    rw [e]
    obtain ⟨z1, h1, _⟩ := hpow ((1 : ℤ) : ℚ) m' (by norm_num) h0
    obtain ⟨z2, h2, hz2⟩ := hpow (b : ℚ) m' hbq h0
    simp only [h1, h2]
    exact fine_mk hp hz2
  · rw [if_neg hneg]
    have h0 : 0 ≤ m := by
      have : (0 : ℚ) ≤ m := not_lt.1 hneg
      exact_mod_cast this
    obtain ⟨z1, h1, hz1⟩ := hpow ((1 : ℤ) : ℚ) m (by norm_num) h0
    obtain ⟨z2, h2, _⟩ := hpow (b : ℚ) m hbq h0
    simp only [h1, h2]
    exact fine_mk hp hz1

/-- The digits of a text give a number, or an error of the calculator if there is a wrong one. -/
theorem readDigits_calm (hp : 1 ≤ p) {base : ℤ} (hb : 2 ≤ base) :
    ∀ (cs : List Char) (power : ℤ) (dec : Number), 0 < dec.den →
      Fine (readDigits p powF base cs power dec) ∨
        ((∃ m, readDigits p powF base cs power dec = .error (.calc m)) ∧
          ∃ c ∈ cs, c ≠ '.' ∧ ∀ v, findDigit c = some v → base ≤ (v : ℤ))
  | [], power, dec, hd => Or.inl ⟨dec, rfl, hd⟩
  | c :: cs, power, dec, hd => by
    rw [readDigits]
    by_cases hc : c = '.'
    · rw [if_pos hc]
      rcases readDigits_calm hp hb cs power dec hd with h | ⟨h1, x, hx, h2⟩
      · exact Or.inl h
      · exact Or.inr ⟨h1, x, by simp [hx], h2⟩
    · rw [if_neg hc]
      cases hf : findDigit c with
      | none => exact Or.inr ⟨⟨_, rfl⟩, c, by simp, hc, by simp [hf]⟩
      | some v =>
        dsimp only
        by_cases hv : (v : ℤ) > base - 1
        · rw [if_pos hv]
          refine Or.inr ⟨⟨_, rfl⟩, c, by simp, hc, ?_⟩
          intro w hw
          rw [hf] at hw
          cases hw
          omega
        · rw [if_neg hv, ofInt_eq hp, ofInt_eq hp, ofInt_eq hp]
          obtain ⟨n1, h1, hd1⟩ := fine_pow (powF := powF) hp (by omega : base ≠ 0) power
          obtain ⟨n2, h2, hd2⟩ := fine_mul hp (a := ⟨(v : ℤ), 1⟩) (b := n1) Int.one_pos hd1
          obtain ⟨n3, h3, hd3⟩ := fine_add hp hd hd2
          simp only [ok_bind, h1, h2, h3]
          rcases readDigits_calm hp hb cs (power - 1) n3 hd3 with h | ⟨h1, x, hx, h2⟩
          · exact Or.inl h
          · exact Or.inr ⟨h1, x, by simp [hx], h2⟩

/-- A text that is not empty, in a base other than ten, is a number or an error of the calculator. -/
theorem baseToDec_calm (hp : 1 ≤ p) {val : List Char} (hv : val ≠ []) {base : ℤ} (hb : base ≠ 10) :
    (∃ n, baseToDec p powF val base = .ok n) ∨ ∃ m, baseToDec p powF val base = .error (.calc m) := by
  unfold baseToDec
  split
  · rw [ofInt_eq hp]; exact Or.inl ⟨_, rfl⟩
  · split
    · exact Or.inr ⟨_, rfl⟩
    · rename_i h
      cases val with
      | nil => exact absurd rfl hv
      | cons c t =>
        dsimp only
        rw [ofInt_eq hp]
        simp only [ok_bind]
        rcases readDigits_calm (powF := powF) hp (base := base) (by omega)
          (upperText (if c = '-' then t else c :: t))
          (if '.' ∈ (if c = '-' then t else c :: t) then
            (((if c = '-' then t else c :: t).idxOf '.' : ℕ) : ℤ) - 1
            else (((if c = '-' then t else c :: t).length : ℕ) : ℤ) - 1) ⟨0, 1⟩ Int.one_pos
          with ⟨n, hn, _⟩ | ⟨⟨m, hm⟩, _⟩
        · rw [hn]; exact Or.inl ⟨_, rfl⟩
        · rw [hm]; exact Or.inr ⟨_, rfl⟩

/-- With digits of the base only, it is a number. -/
theorem baseToDec_fine (hp : 1 ≤ p) {val : List Char} (hv : val ≠ []) {base : ℤ} (hb : base ≠ 10)
    (h2 : 2 ≤ base) (h36 : base ≤ 36)
    (hd : ∀ c ∈ val, c = '-' ∨ c = '.' ∨ ∃ v, findDigit c.toUpper = some v ∧ (v : ℤ) < base)
    (hm : '-' ∉ val.tail) : ∃ n, baseToDec p powF val base = .ok n := by
  unfold baseToDec
  split
  · rw [ofInt_eq hp]; exact ⟨_, rfl⟩
  · rw [if_neg (by omega)]
    cases val with
    | nil => exact absurd rfl hv
    | cons c t =>
      dsimp only
      rw [ofInt_eq hp]
      simp only [ok_bind]
      rcases readDigits_calm (powF := powF) hp h2
        (upperText (if c = '-' then t else c :: t))
        (if '.' ∈ (if c = '-' then t else c :: t) then
          (((if c = '-' then t else c :: t).idxOf '.' : ℕ) : ℤ) - 1
          else (((if c = '-' then t else c :: t).length : ℕ) : ℤ) - 1) ⟨0, 1⟩ Int.one_pos
        with ⟨n, hn, _⟩ | ⟨⟨m, _⟩, u, hu, hne, hbad⟩
      · rw [hn]; exact ⟨_, rfl⟩
      · exfalso
        obtain ⟨w, hw, rfl⟩ := List.mem_map.1 hu
        have hw' : w ∈ c :: t ∧ w ≠ '-' := by
          by_cases hc : c = '-'
          · rw [if_pos hc] at hw
            refine ⟨by simp [hw], ?_⟩
            rintro rfl
            exact hm hw
          · rw [if_neg hc] at hw
            refine ⟨hw, ?_⟩
            rintro rfl
            rcases List.mem_cons.1 hw with h | h
            · exact hc h.symm
            · exact hm h
        rcases hd w hw'.1 with h | h | ⟨v, h1, h3⟩
        · exact hw'.2 h
        · subst h; exact hne (by decide)
        · have := hbad v h1; omega

/-! ### Decimal numbers, percentages and scientific notation -/

theorem parseDecimal_calm (hp : 1 ≤ p) (t : List Char) : always (parseDecimal p t) = .ok true := by
  unfold parseDecimal
  split
  · rename_i neg ip fp _
    obtain ⟨n, hn, _⟩ := fine_mk hp (n := decimalOf neg ip fp) (d := 1) one_ne_zero
    rw [hn]; rfl
  · rfl

theorem parsePercent_calm (hp : 1 ≤ p) (t : List Char) : always (parsePercent p t) = .ok true := by
  unfold parsePercent
  split
  · rename_i neg ip fp _
    obtain ⟨n, hn, hd⟩ := fine_mk hp (n := decimalOf neg ip fp) (d := 1) one_ne_zero
    have h : Fine (Number.div p n ⟨100, 1⟩) := by
      refine fine_mk hp ?_
      rw [Ne, rnd_eq_zero_iff hp]
      have : (n.den : ℚ) ≠ 0 := by exact_mod_cast hd.ne'
      exact mul_ne_zero this (by norm_num)
    obtain ⟨n2, h2, _⟩ := h
    rw [hn, ofInt_eq hp]
    simp only [ok_bind, h2]
    rfl
  · rfl

theorem parseExp_calm (hp : 1 ≤ p) (t : List Char) : always (parseExp p powF t) = .ok true := by
  unfold parseExp
  split
  · rename_i neg ip fp e rest _
    split
    · dsimp only
      split
      · rfl
      · rename_i ed _ _
        obtain ⟨n, hn, hd⟩ := fine_mk hp (n := decimalOf neg ip fp) (d := 1) one_ne_zero
        have hk : ∃ k : ℤ, (if (rest.head? == some '-') = true then -(readNat ed : ℚ) else (readNat ed : ℚ)) = (k : ℚ) := by
          split
          · exact ⟨-(readNat ed : ℤ), by push_cast; rfl⟩
          · exact ⟨(readNat ed : ℤ), by push_cast; rfl⟩
        obtain ⟨k, hk⟩ := hk
        rw [hk, hn, ← ofInt, ofInt_eq hp, ofInt_eq hp]
        obtain ⟨n1, h1, hd1⟩ := fine_pow (powF := powF) hp (by norm_num : (10 : ℤ) ≠ 0) k
        obtain ⟨n2, h2, _⟩ := fine_mul hp hd hd1
        simp only [ok_bind, h1, h2]
        rfl
      · rfl
    · rfl
  · rfl

/-! ### Binary, octal and hexadecimal numbers -/

theorem based_body {pre : List Char} {ok : Char → Bool} {z : Char} (hz : z ∈ pre) (hok : ok z = false)
    (hzp : z ≠ '.') (hpn : pre ≠ []) (hpm : pre.head? ≠ some '-') {s : List Char}
    (h : matchesBased pre ok s = true) :
    ∃ sign body, removePrefix s pre = sign ++ body ∧ (sign = [] ∨ sign = ['-']) ∧ body ≠ [] ∧
      ∀ c ∈ body, c = '.' ∨ ok c = true := by
  have key : ∀ s1 : List Char, (if pre <+: s1 then
      !(s1.drop pre.length |>.takeWhile (· ≠ '.')).isEmpty &&
        (s1.drop pre.length |>.takeWhile (· ≠ '.')).all ok &&
        ((s1.drop pre.length |>.dropWhile (· ≠ '.')).isEmpty ||
          (!(s1.drop pre.length |>.dropWhile (· ≠ '.')).tail.isEmpty &&
            (s1.drop pre.length |>.dropWhile (· ≠ '.')).tail.all ok)) else false) = true →
      ∃ body, removeAll pre s1 = body ∧ body ≠ [] ∧ ∀ c ∈ body, c = '.' ∨ ok c = true := by
    intro s1 h
    split at h
    · rename_i hpre
      obtain ⟨body, rfl⟩ := hpre
      rw [List.drop_left] at h
      simp only [Bool.and_eq_true, Bool.or_eq_true, Bool.not_eq_true', List.isEmpty_eq_false_iff,
        List.isEmpty_iff, List.all_eq_true] at h
      obtain ⟨⟨h1, h2⟩, h3⟩ := h
      have hall : ∀ c ∈ body, c = '.' ∨ ok c = true := by
        intro c hc
        rw [← List.takeWhile_append_dropWhile (p := fun c => decide (c ≠ '.')) (l := body)] at hc
        rcases List.mem_append.1 hc with hc | hc
        · exact Or.inr (h2 c hc)
        · cases hf : body.dropWhile (fun c => decide (c ≠ '.')) with
          | nil => rw [hf] at hc; cases hc
          | cons d t =>
            have hd : d = '.' := by
              have := List.head?_dropWhile_not (fun c => decide (c ≠ '.')) body
              rw [hf] at this
              simpa using this
            rw [hf] at hc h3
            rcases List.mem_cons.1 hc with hc | hc
            · exact Or.inl (hc.trans hd)
            · rcases h3 with h3 | h3
              · cases h3
              · exact Or.inr (h3.2 c hc)
      refine ⟨body, ?_, ?_, hall⟩
      · rw [removeAll_prefix hpn]
        refine removeAll_none hz ?_
        intro hzb
        rcases hall z hzb with h | h
        · exact hzp h
        · rw [hok] at h; cases h
      · rintro rfl; exact h1 rfl
    · cases h
  unfold matchesBased at h
  dsimp only at h
  by_cases hm : ((lowerText s).head? == some '-') = true
  · rw [if_pos hm] at h
    obtain ⟨body, h1, h2, h3⟩ := key _ h
    have e : lowerText s = '-' :: (lowerText s).tail := by
      cases hl : lowerText s with
      | nil => rw [hl] at hm; cases hm
      | cons c t =>
        rw [hl] at hm
        have : c = '-' := by simpa using hm
        rw [this]; rfl
    refine ⟨['-'], body, ?_, Or.inr rfl, h2, h3⟩
    rw [removePrefix, e, removeAll_minus hpm, h1]
    rfl
  · rw [if_neg hm] at h
    obtain ⟨body, h1, h2, h3⟩ := key _ h
    exact ⟨[], body, h1, Or.inl rfl, h2, h3⟩

theorem based_fine (hp : 1 ≤ p) {pre : List Char} {ok : Char → Bool} {z : Char} (hz : z ∈ pre)
    (hok : ok z = false) (hzp : z ≠ '.') (hpn : pre ≠ []) (hpm : pre.head? ≠ some '-') {s : List Char}
    (h : matchesBased pre ok s = true) {base : ℤ} (hb : base ≠ 10) (h2 : 2 ≤ base) (h36 : base ≤ 36)
    (hmin : ok '-' = false) (hd : ∀ c, ok c = true → ∃ v, findDigit c.toUpper = some v ∧ (v : ℤ) < base) :
    (∃ n, baseToDec p powF (removePrefix s pre) base = .ok n) ∧ removePrefix s pre ≠ [] := by
  obtain ⟨sign, body, e, hs, hne, hall⟩ := based_body hz hok hzp hpn hpm h
  have hnm : '-' ∉ body := by
    intro hc
    rcases hall _ hc with h | h
    · cases h
    · rw [hmin] at h; cases h
  have hne' : removePrefix s pre ≠ [] := by rw [e]; simp [hne]
  refine ⟨baseToDec_fine hp hne' hb h2 h36 ?_ ?_, hne'⟩
  · rw [e]
    intro c hc
    rcases List.mem_append.1 hc with hc | hc
    · rcases hs with rfl | rfl
      · cases hc
      · exact Or.inl (by simpa using hc)
    · rcases hall c hc with h | h
      · exact Or.inr (Or.inl h)
      · exact Or.inr (Or.inr (hd c h))
  · rw [e]
    rcases hs with rfl | rfl
    · exact fun h => hnm (List.mem_of_mem_tail h)
    · exact hnm

theorem digit_below {c : Char} {v : ℕ} (h : digitValue c = some v) {base : ℤ} (hb : (v : ℤ) < base) :
    ∃ v, findDigit c.toUpper = some v ∧ (v : ℤ) < base := ⟨v, by rw [findDigit_upper, h], hb⟩

theorem hex_digit {c : Char} (h : isHexDigit c = true) : ∃ v, findDigit c.toUpper = some v ∧ (v : ℤ) < 16 := by
  simp only [isHexDigit, Bool.or_eq_true, Bool.and_eq_true, decide_eq_true_eq] at h
  rcases h with h | h
  · have h' : '0' ≤ c ∧ c ≤ '9' := by
      simp only [Char.isDigit, Bool.and_eq_true, decide_eq_true_eq] at h
      exact h
    refine digit_below (v := c.toNat - 48) (by rw [digitValue, if_pos h']) ?_
    have := h'.2
    have : c.toNat ≤ 57 := this
    omega
  · have h1 : 97 ≤ c.toNat := h.1
    have h2 : c.toNat ≤ 102 := h.2
    have n1 : ¬ ('0' ≤ c ∧ c ≤ '9') := by
      rintro ⟨_, h⟩
      have : c.toNat ≤ 57 := h
      omega
    have n2 : ¬ ('A' ≤ c ∧ c ≤ 'Z') := by
      rintro ⟨_, h⟩
      have : c.toNat ≤ 90 := h
      omega
    have n3 : 'a' ≤ c ∧ c ≤ 'z' := ⟨h.1, by
      show c.toNat ≤ 122
      omega⟩
    refine digit_below (v := c.toNat - 87) (by rw [digitValue, if_neg n1, if_neg n2, if_pos n3]) ?_
    omega

theorem oct_digit {c : Char} (h : isOctDigit c = true) : ∃ v, findDigit c.toUpper = some v ∧ (v : ℤ) < 8 := by
  simp only [isOctDigit, Bool.and_eq_true, decide_eq_true_eq] at h
  have h2 : c.toNat ≤ 55 := h.2
  refine digit_below (v := c.toNat - 48) (by
    rw [digitValue, if_pos ⟨h.1, by show c.toNat ≤ 57; omega⟩]) ?_
  omega

theorem bin_digit {c : Char} (h : isBinDigit c = true) : ∃ v, findDigit c.toUpper = some v ∧ (v : ℤ) < 2 := by
  simp only [isBinDigit, decide_eq_true_eq] at h
  rcases h with rfl | rfl
  · exact ⟨0, by decide +kernel, by norm_num⟩
  · exact ⟨1, by decide +kernel, by norm_num⟩

theorem parseBin_calm (hp : 1 ≤ p) (t : List Char) : always (parseBin p powF t) = .ok true := by
  unfold parseBin
  split
  · rename_i h
    obtain ⟨⟨n, hn⟩, hne⟩ := based_fine (powF := powF) hp (z := 'b') (by decide) (by decide) (by decide) (by decide)
      (by decide) h (base := 2) (by norm_num) (by norm_num) (by norm_num) (by decide) (fun c => bin_digit)
    rw [hn]
    unfold numberWidth splitNumber
    cases hr : removePrefix t "0b".toList with
    | nil => exact absurd hr hne
    | cons c r => rfl
  · rfl

theorem parseOct_calm (hp : 1 ≤ p) (t : List Char) : always (parseOct p powF t) = .ok true := by
  unfold parseOct
  split
  · rename_i h
    obtain ⟨⟨n, hn⟩, _⟩ := based_fine (powF := powF) hp (z := 'o') (by decide) (by decide) (by decide) (by decide)
      (by decide) h (base := 8) (by norm_num) (by norm_num) (by norm_num) (by decide) (fun c => oct_digit)
    rw [hn]; rfl
  · rfl

theorem parseHex_calm (hp : 1 ≤ p) (t : List Char) : always (parseHex p powF t) = .ok true := by
  unfold parseHex
  split
  · rename_i h
    obtain ⟨⟨n, hn⟩, _⟩ := based_fine (powF := powF) hp (z := 'x') (by decide) (by decide) (by decide) (by decide)
      (by decide) h (base := 16) (by norm_num) (by norm_num) (by norm_num) (by decide) (fun c => hex_digit)
    rw [hn]; rfl
  · rfl

/-! ### Numbers that name their base -/

theorem digitVal_eq {c : Char} (h : c.isDigit = true) {k : ℕ} (hk : digitVal c = k) : c = Char.ofNat (k + 48) := by
  have h1 : 48 ≤ c.toNat := by
    simp only [Char.isDigit, Bool.and_eq_true, decide_eq_true_eq] at h
    exact h.1
  have : k + 48 = c.toNat := by rw [← hk, digitVal]; omega
  rw [this, Char.ofNat_toNat]

theorem ends_with_ten {b : List Char} (hb : AllDigits b) (h : readNat b = 10) :
    ∃ pre, b = pre ++ ['1', '0'] := by
  rcases List.eq_nil_or_concat b with rfl | ⟨b1, d, rfl⟩
  · cases h
  · rw [List.concat_eq_append] at hb h ⊢
    have hd : d.isDigit = true := hb d (by simp)
    rw [readNat_append] at h
    have e1 : readNat [d] = digitVal d := by simp [readNat]
    rw [e1] at h
    have hlt := digitVal_lt hd
    simp only [List.length_singleton, pow_one] at h
    have h0 : digitVal d = 0 := by omega
    have h1 : readNat b1 = 1 := by omega
    rcases List.eq_nil_or_concat b1 with rfl | ⟨b2, d2, rfl⟩
    · cases h1
    · rw [List.concat_eq_append] at hb h1 ⊢
      have hd2 : d2.isDigit = true := hb d2 (by simp)
      rw [readNat_append] at h1
      have e2 : readNat [d2] = digitVal d2 := by simp [readNat]
      rw [e2] at h1
      have hlt2 := digitVal_lt hd2
      simp only [List.length_singleton, pow_one] at h1
      have h3 : digitVal d2 = 1 := by omega
      refine ⟨b2, ?_⟩
      rw [digitVal_eq hd h0, digitVal_eq hd2 h3]
      simp

theorem removeAll_empty {pat s : List Char} (h : removeAll pat s = []) (hs : s ≠ []) : pat ≠ [] ∧ pat <+: s := by
  cases s with
  | nil => exact absurd rfl hs
  | cons c t =>
    rw [removeAll] at h
    split at h
    · rename_i hh; exact hh
    · cases h

theorem digits_split {a b r1 r2 : List Char} (ha : AllDigits a) (hb : AllDigits b)
    (h : a ++ 'z' :: r1 = b ++ 'z' :: r2) : a = b ∧ r1 = r2 := by
  have e := congrArg (List.dropWhile Char.isDigit) h
  rw [List.dropWhile_append_of_pos ha, List.dropWhile_append_of_pos hb] at e
  have hz : Char.isDigit 'z' = false := by decide
  rw [List.dropWhile_cons, List.dropWhile_cons, hz] at e
  simp only [Bool.false_eq_true, if_false, List.cons.injEq, true_and] at e
  subst e
  exact ⟨List.append_cancel_right h, rfl⟩

theorem matchArb_shape {s b : List Char} (h : matchArb s = some b) :
    ∃ sign body, (sign = [] ∨ sign = ['-']) ∧ lowerText s = sign ++ b ++ 'z' :: body ∧ AllDigits b ∧
      b ≠ [] ∧ body ≠ [] := by
  have key : ∀ s1 : List Char, (match spanDigits s1 with
      | (b, rest) => match b, rest with
        | [], _ => none
        | b, 'z' :: body =>
          if !(body.takeWhile (· ≠ '.')).isEmpty &&
            (body.takeWhile (· ≠ '.')).all (fun c => c.isDigit || ('a' ≤ c && c ≤ 'z')) &&
            ((body.dropWhile (· ≠ '.')).isEmpty || (!(body.dropWhile (· ≠ '.')).tail.isEmpty &&
              (body.dropWhile (· ≠ '.')).tail.all (fun c => c.isDigit || ('a' ≤ c && c ≤ 'z')))) then some b
          else none
        | _, _ => none) = some b →
      ∃ body, s1 = b ++ 'z' :: body ∧ AllDigits b ∧ b ≠ [] ∧ body ≠ [] := by
    intro s1 h
    have hspan : spanDigits s1 = (s1.takeWhile Char.isDigit, s1.dropWhile Char.isDigit) := by
      rw [spanDigits, List.span_eq_takeWhile_dropWhile]
    rw [hspan] at h
    dsimp only at h
    have happ := List.takeWhile_append_dropWhile (p := Char.isDigit) (l := s1)
    have hdig : AllDigits (s1.takeWhile Char.isDigit) := fun c hc => List.all_eq_true.1 (List.all_takeWhile (l := s1)) c hc
    revert h happ hdig
    generalize s1.takeWhile Char.isDigit = u
    generalize s1.dropWhile Char.isDigit = v
    intro h happ hdig
    split at h
    · cases h
    · rename_i body hne
      split at h
      · rename_i hcond
        cases h
        refine ⟨body, happ.symm, hdig, hne, ?_⟩
        rintro rfl
        simp at hcond
      · cases h
    · cases h
  unfold matchArb at h
  dsimp only at h
  by_cases hm : ((lowerText s).head? == some '-') = true
  · rw [if_pos hm] at h
    obtain ⟨body, h1, h2⟩ := key _ h
    refine ⟨['-'], body, Or.inr rfl, ?_, h2⟩
    cases hl : lowerText s with
    | nil => rw [hl] at hm; cases hm
    | cons c t =>
      rw [hl] at hm h1
      have : c = '-' := by simpa using hm
      rw [this]
      have h1 : t = _ := h1
      rw [h1]; rfl
  · rw [if_neg hm] at h
    obtain ⟨body, h1, h2⟩ := key _ h
    exact ⟨[], body, Or.inl rfl, h1, h2⟩

theorem parseArb_calm (hp : 1 ≤ p) {t : List Char} {e : Err} (h : parseArb p powF t = .error e) :
    OddBase t := by
  unfold parseArb at h
  cases hm : matchArb t with
  | none => rw [hm] at h; cases h
  | some b =>
    rw [hm] at h
    dsimp only at h
    obtain ⟨sign, body, hsg, hs, hd, hb0, hbody⟩ := matchArb_shape hm
    by_cases h10 : readNat b = 10
    · left
      obtain ⟨pre, rfl⟩ := ends_with_ten hd h10
      refine ⟨sign ++ pre, body, ?_⟩
      rw [hs]
      simp
    · right
      have hval : removePrefix t (natText (readNat b) ++ ['z']) = [] := by
        by_contra hne
        have h10' : ((readNat b : ℕ) : ℤ) ≠ 10 := by exact_mod_cast h10
        rcases baseToDec_calm (powF := powF) hp hne h10' with ⟨n, hn⟩ | ⟨m, hn⟩
        · rw [hn] at h; cases h
        · rw [hn] at h; cases h
      unfold removePrefix at hval
      have hne : lowerText t ≠ [] := by rw [hs]; simp
      obtain ⟨_, r1, hr1⟩ := removeAll_empty hval hne
      set k := readNat b with hk
      have hpat : natText k ++ ['z'] ≠ [] := by simp
      rw [← hr1, removeAll_prefix hpat] at hval
      have hr1' : r1 ≠ [] := by
        rintro rfl
        -- the rest after the base cannot be empty
        rcases hsg with rfl | rfl
        · have := digits_split (natText_digits k) hd (r1 := []) (r2 := body)
            (by rw [List.nil_append] at hs; rw [← hs, ← hr1]; simp)
          exact hbody this.2.symm
        · rw [hs] at hr1
          have hmem := natText_digits k
          cases hn : natText k with
          | nil => exact natText_ne_nil k hn
          | cons c cs =>
            rw [hn] at hr1 hmem
            simp only [List.cons_append, List.cons.injEq] at hr1
            have := hmem c (by simp)
            rw [hr1.1] at this
            exact absurd this (by decide)
      obtain ⟨_, r2, hr2⟩ := removeAll_empty hval hr1'
      refine ⟨natText k, natText_ne_nil k, natText_digits k, natText k, r2, ?_⟩
      rw [← hr1, ← hr2]
      simp

theorem oddBase_mono {t text : List Char} (h : OddBase t) (hs : t <:+: text) : OddBase text := by
  have hs' : lowerText t <:+: lowerText text := hs.map _
  rcases h with h | ⟨ds, h1, h2, h3⟩
  · exact Or.inl (h.trans hs')
  · exact Or.inr ⟨ds, h1, h2, h3.trans hs'⟩

/-! ### The parsers that make one item -/

theorem literal_py {len : Text → ℕ} {conv : Text → Except Err Bool} {items : List Item} {next : Text}
    {m : String} (h : literal len conv items next = .error (.py m)) :
    ∃ e, conv (next.take (len next)) = .error e := by
  unfold literal at h
  split at h
  · split at h
    · cases h
    · split at h
      · cases h
      · cases h
      · exact ⟨_, by assumption⟩
      · exact ⟨_, by assumption⟩
      · exact ⟨_, by assumption⟩
  · cases h

theorem leaf_raises (x : Lex) (hp : 1 ≤ x.p) {f : LeafParser} (hf : Parser.leaf f ∈ shippedParsers x)
    {items : List Item} {next : Text} {m : String} (h : f items next = .error (.py m)) : OddBase next := by
  have lit : ∀ {len : Text → ℕ} {conv : Text → Except Err Bool}, (∀ t, conv t = .ok true) →
      literal len conv items next ≠ .error (.py m) := by
    intro len conv hc hl
    obtain ⟨e, he⟩ := literal_py hl
    rw [hc] at he
    cases he
  simp only [shippedParsers, List.mem_cons, Parser.leaf.injEq, reduceCtorEq, false_or, or_false,
    List.not_mem_nil] at hf
  rcases hf with rfl | rfl | rfl | rfl | rfl | rfl | rfl | rfl | rfl | rfl | rfl | rfl | rfl | rfl | rfl | rfl |
    rfl
  · unfold parseSpace at h; split at h <;> cases h
  · unfold parseComment at h; split at h <;> (try split at h) <;> cases h
  · unfold parseBoolean at h; split at h <;> (try split at h) <;> cases h
  · exact absurd h (lit (parseBin_calm hp))
  · exact absurd h (lit (parseOct_calm hp))
  · exact absurd h (lit (parseHex_calm hp))
  · obtain ⟨e, he⟩ := literal_py h
    cases hr : parseArb x.p x.powF (next.take (arbLen next)) with
    | ok v => rw [hr] at he; cases he
    | error e' => exact oddBase_mono (parseArb_calm hp hr) (List.take_prefix _ _).isInfix
  · exact absurd h (lit (parseExp_calm hp))
  · exact absurd h (lit (parsePercent_calm hp))
  · exact absurd h (lit (parseDecimal_calm hp))
  · unfold parseOperator at h; split at h <;> cases h
  · unfold parseString readString at h
    split at h
    · rename_i e he
      cases h
      split at he
      · split at he
        · split at he <;> cases he
        · cases he
      · cases he
    · cases h
    · cases h
  · unfold parseConstant at h; dsimp only at h; split at h <;> cases h
  · cases h
  · unfold parseWord at h; split at h <;> cases h
  · unfold parseWord at h; split at h <;> cases h
  · cases h

end
end MC.Parse
