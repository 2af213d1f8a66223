import Verif.Model.Bitwise
import Verif.Props.Bases2

/-! # C18: bitwise operators -/

namespace MC.Props
open MC Number

/-- Specification: bit `i` of an integer, in two's complement. -/
def bitOf (x : ℤ) (i : ℕ) : Bool := decide (x / 2 ^ i % 2 = 1)

theorem testBit_eq (x : ℤ) (i : ℕ) : Int.testBit x i = bitOf x i := by
  induction i generalizing x with
  | zero =>
    conv_lhs => rw [← Int.bit_decomp x]
    rw [Int.testBit_bit_zero]
    unfold bitOf
    have h := Int.bodd_add_div2 x
    cases hb : Int.bodd x <;> rw [hb] at h <;> simp at h ⊢ <;> omega
  | succ i ih =>
    conv_lhs => rw [← Int.bit_decomp x]
    rw [Int.testBit_bit_succ, ih]
    unfold bitOf
    rw [Int.div2_val, pow_succ', Int.ediv_ediv_of_nonneg (by norm_num)]

theorem toInt_int {p : ℕ} {z : ℤ} (h : |z| < 10 ^ p) : toInt p ⟨z, 1⟩ = z := by
  unfold toInt; rw [toDecimal_int h, truncQ_intCast]

theorem bitResult_ok {p n : ℕ} (hp : 1 ≤ p) {z : ℤ} {vals : List BitNum} {w : ℕ} (h : biggestWidth vals = .ok w) :
    ∃ r, bitResult p n z vals = .ok r ∧ r.num = ⟨z, 1⟩ ∧ r.width = some w := by
  unfold bitResult
  rw [ofInt_eq hp]; simp only [ok_bind]; rw [h]
  exact ⟨_, rfl, rfl, rfl⟩

theorem biggest_two {a b : BitNum} {wa wb : ℕ} (ha : bitWidth a = .ok wa) (hb : bitWidth b = .ok wb) :
    biggestWidth [a, b] = .ok (max wa wb) := by
  unfold biggestWidth
  rw [ha]; simp only [ok_bind]
  unfold biggestWidth
  rw [hb]; simp only [ok_bind]
  unfold biggestWidth
  simp [pure, Except.pure, ok_bind]

/-- `&`, `|` and `^^` act on every bit of two integers (two's complement); the result
is as wide as the wider operand.  Any integers of at most `p` digits, of either sign. -/
theorem C18_bits (p n : ℕ) (hp : 1 ≤ p) (a b : BitNum) (x y : ℤ) (ha : a.num = ⟨x, 1⟩) (hb : b.num = ⟨y, 1⟩)
    (hx : |x| < 10 ^ p) (hy : |y| < 10 ^ p) (wa wb : ℕ) (hwa : bitWidth a = .ok wa) (hwb : bitWidth b = .ok wb) :
    ∃ r s t zr zs zt, bitAnd p n a b = .ok r ∧ bitOr p n a b = .ok s ∧ bitXor p n a b = .ok t ∧
      r.num = ⟨zr, 1⟩ ∧ s.num = ⟨zs, 1⟩ ∧ t.num = ⟨zt, 1⟩ ∧
      (∀ i, bitOf zr i = (bitOf x i && bitOf y i)) ∧ (∀ i, bitOf zs i = (bitOf x i || bitOf y i)) ∧
      (∀ i, bitOf zt i = (bitOf x i ^^ bitOf y i)) ∧
      r.width = some (max wa wb) ∧ s.width = some (max wa wb) ∧ t.width = some (max wa wb) := by
  have hw := biggest_two hwa hwb
  obtain ⟨r, r1, r2, r3⟩ := bitResult_ok (p := p) (n := n) hp (z := Int.land x y) hw
  obtain ⟨s, s1, s2, s3⟩ := bitResult_ok (p := p) (n := n) hp (z := Int.lor x y) hw
  obtain ⟨t, t1, t2, t3⟩ := bitResult_ok (p := p) (n := n) hp (z := Int.xor x y) hw
  refine ⟨r, s, t, Int.land x y, Int.lor x y, Int.xor x y, ?_, ?_, ?_, r2, s2, t2, ?_, ?_, ?_, r3, s3, t3⟩
  · unfold bitAnd; rw [ha, hb, toInt_int hx, toInt_int hy, r1]
  · unfold bitOr; rw [ha, hb, toInt_int hx, toInt_int hy, s1]
  · unfold bitXor; rw [ha, hb, toInt_int hx, toInt_int hy, t1]
  · intro i; rw [← testBit_eq, ← testBit_eq, ← testBit_eq, Int.testBit_land]
  · intro i; rw [← testBit_eq, ← testBit_eq, ← testBit_eq, Int.testBit_lor]
  · intro i; rw [← testBit_eq, ← testBit_eq, ← testBit_eq, Int.testBit_lxor]

/-- The bits determine the integer, so `C18_bits` fixes the results. -/
theorem C18_bits_determine (x y : ℤ) (h : ∀ i, bitOf x i = bitOf y i) : x = y := by
  have key : ∀ n : ℕ, ∀ x y : ℤ, x.natAbs + y.natAbs ≤ n → (∀ i, bitOf x i = bitOf y i) → x = y := by
    intro n
    induction n with
    | zero => intro x y hn _; omega
    | succ n ih =>
      intro x y hn h
      have h0 := h 0
      unfold bitOf at h0
      simp only [pow_zero, Int.ediv_one, decide_eq_decide] at h0
      have hs : ∀ i, bitOf (x / 2) i = bitOf (y / 2) i := by
        intro i
        have := h (i+1)
        unfold bitOf at this ⊢
        rwa [pow_succ', ← Int.ediv_ediv_of_nonneg (by norm_num), ← Int.ediv_ediv_of_nonneg (by norm_num)] at this
      by_cases hfix : (x = 0 ∨ x = -1) ∧ (y = 0 ∨ y = -1)
      · obtain ⟨h1 | h1, h2 | h2⟩ := hfix <;> subst h1 <;> subst h2
        · rfl
        · omega
        · omega
        · rfl
      · have := ih (x / 2) (y / 2) (by omega) hs
        omega
  exact key _ x y le_rfl h

theorem notNatural_int {p : ℕ} (hp : 1 ≤ p) {z : ℤ} (hz : |z| < 10 ^ p) :
    notNatural p ⟨z, 1⟩ = .ok (decide (z < 0)) := by
  unfold notNatural
  rw [toDecimal_int hz]
  by_cases h : z < 0
  · rw [if_pos (by exact_mod_cast h), decide_eq_true h]
  · rw [if_neg (by push Not; exact_mod_cast not_lt.mp h), ofInt_eq hp, decide_eq_false h]
    simp only [ok_bind]
    have h10 : (1:ℤ) < 10 ^ p := one_lt_pow₀ (by norm_num) (by omega)
    obtain ⟨r, r1, r2, r3⟩ := mod_exact (p := p) (a := ⟨z, 1⟩) (b := ⟨1, 1⟩) (canonical_int z) (canonical_int 1)
      (by norm_num [val]) (by simpa using hz) (by simpa using h10) (by simpa using h10)
    rw [r1]
    simp only [ok_bind]
    have : r.val = 0 := by
      rw [r3]; simp only [val]; push_cast
      rw [div_one, div_one, div_one, truncQ_intCast]; ring
    have h0 : toDecimal p r = 0 := by
      change rnd p r.val = 0; rw [this, rnd_zero]
    rw [h0]; simp [pure, Except.pure]

/-- `x << k` is `x * 2^k` and `x >> k` is `x / 2^k` rounded down, for every integer `x`
and natural `k` of at most `p` digits; a negative `k` is rejected. -/
theorem C18_shifts (p n : ℕ) (hp : 1 ≤ p) (a b : BitNum) (x : ℤ) (k : ℤ) (ha : a.num = ⟨x, 1⟩) (hb : b.num = ⟨k, 1⟩)
    (hx : |x| < 10 ^ p) (hk : |k| < 10 ^ p) (wa wb : ℕ) (hwa : bitWidth a = .ok wa) (hwb : bitWidth b = .ok wb) :
    (0 ≤ k → ∃ r s, bitShl p n a b = .ok r ∧ bitShr p n a b = .ok s ∧
      r.num = ⟨x * 2 ^ k.toNat, 1⟩ ∧ s.num = ⟨⌊(x:ℚ) / 2 ^ k.toNat⌋, 1⟩) ∧
    (k < 0 → bitShl p n a b = .error (.calc "Shift amount requires positive integers") ∧
      bitShr p n a b = .error (.calc "Shift amount requires positive integers")) := by
  have hw := biggest_two hwa hwb
  constructor
  · intro h0
    obtain ⟨r, r1, r2, r3⟩ := bitResult_ok (p := p) (n := n) hp (z := x <<< k.toNat) hw
    obtain ⟨s, s1, s2, s3⟩ := bitResult_ok (p := p) (n := n) hp (z := x >>> k.toNat) hw
    refine ⟨r, s, ?_, ?_, ?_, ?_⟩
    · unfold bitShl
      rw [hb, notNatural_int hp hk, decide_eq_false (by omega), ha]
      simp only [ok_bind, Bool.false_eq_true, if_false]
      rw [toInt_int hx, toInt_int hk, r1]
    · unfold bitShr
      rw [hb, notNatural_int hp hk, decide_eq_false (by omega), ha]
      simp only [ok_bind, Bool.false_eq_true, if_false]
      rw [toInt_int hx, toInt_int hk, s1]
    · rw [r2, Int.shiftLeft_eq]
    · rw [s2, Int.shiftRight_eq_div_pow]
      congr 1
      have := Rat.floor_intCast_div_natCast x (2 ^ k.toNat)
      push_cast at this ⊢
      rw [this]
  · intro h0
    unfold bitShl bitShr
    rw [hb, notNatural_int hp hk, decide_eq_true h0]
    exact ⟨rfl, rfl⟩

theorem mask_not (x w : ℕ) : Int.land (Int.lnot x) (2 ^ w - 1) = (2:ℤ) ^ w - 1 - x % 2 ^ w := by
  have e1 : Int.lnot (x:ℤ) = Int.negSucc x := rfl
  have h1 : 1 ≤ 2 ^ w := Nat.one_le_two_pow
  have e2 : (2:ℤ) ^ w - 1 = ((2 ^ w - 1 : ℕ) : ℤ) := by push_cast [h1]; rfl
  rw [e1, e2]
  have e3 : Int.land (Int.negSucc x) ((2 ^ w - 1 : ℕ) : ℤ) = ((Nat.ldiff (2 ^ w - 1) x : ℕ) : ℤ) := rfl
  rw [e3]
  have hlt : x % 2 ^ w < 2 ^ w := Nat.mod_lt _ (by omega)
  have : Nat.ldiff (2 ^ w - 1) x = 2 ^ w - (x % 2 ^ w + 1) := by
    apply Nat.eq_of_testBit_eq
    intro i
    rw [Nat.testBit_ldiff, Nat.testBit_two_pow_sub_succ hlt, Nat.testBit_mod_two_pow, Nat.testBit_two_pow_sub_one]
    by_cases h : i < w <;> simp [h]
  rw [this]
  have e4 : ((2 ^ w - (x % 2 ^ w + 1) : ℕ) : ℤ) = (2:ℤ) ^ w - ((x:ℤ) % 2 ^ w + 1) := by
    rw [Nat.cast_sub (by omega)]; push_cast; rfl
  rw [e4]
  push_cast [h1]
  ring

/-- `~` of a natural number with width `w` complements the low `w` bits: the result is
`2^w - 1 - x` for `x < 2^w`.  Any display whose text of the result is at most `w` digits
wide keeps the width. -/
theorem C18_not (p : ℕ) (hp : 1 ≤ p) (logCeil) (a : BitNum) (x w : ℕ) (ha : a.num = ⟨x, 1⟩) (hx : x < 2 ^ w)
    (hxp : x < 10 ^ p) (hw : a.width = some w) (t : List Char) (w' : ℕ)
    (ht : a.text ⟨2 ^ w - 1 - x, 1⟩ none = .ok t) (htw : numberWidth t "0b".toList = .ok w') (hle : w' ≤ w) :
    ∃ r, bitNot p logCeil a = .ok r ∧ r.num = ⟨2 ^ w - 1 - x, 1⟩ ∧ r.width = some w ∧ r.text = a.text := by
  have hxz : |(x:ℤ)| < 10 ^ p := by rw [abs_of_nonneg (by positivity)]; exact_mod_cast hxp
  unfold bitNot
  rw [ha, notNatural_int hp hxz, decide_eq_false (by omega)]
  simp only [ok_bind, Bool.false_eq_true, if_false]
  rw [toInt_int hxz, hw]
  simp only
  have hm := mask_not x w
  have hmod : ((x:ℤ) % 2 ^ w) = x := by
    rw [Int.emod_eq_of_lt (by positivity) (by exact_mod_cast hx)]
  rw [hm, hmod, ofInt_eq hp]
  simp only [ok_bind]
  rw [biggest_two (wa := w) (wb := w') (by unfold bitWidth; rw [hw])
    (by unfold bitWidth; simp only; rw [ht]; exact htw)]
  simp only [ok_bind]
  refine ⟨_, rfl, rfl, ?_, rfl⟩
  simp [max_eq_left hle]

/-- Without a width attribute (numbers not read from a binary literal) the mask is the
one computed from the logarithm; if that is the exact `⌈log₂ x⌉` the result is the
complement of the bits below the leading one, or all ones for a power of two. -/
theorem C18_not_unsized (p : ℕ) (hp : 1 ≤ p) (logCeil : ℕ → ℕ) (a : BitNum) (x : ℕ) (ha : a.num = ⟨x, 1⟩) (hx0 : x ≠ 0)
    (hxp : x < 10 ^ p) (hw : a.width = none) (hlog : logCeil x = Nat.clog 2 x) (r : BitNum)
    (hr : bitNot p logCeil a = .ok r) :
    (x < 2 ^ Nat.clog 2 x → r.num = ⟨2 ^ Nat.clog 2 x - 1 - x, 1⟩) ∧
    (x = 2 ^ Nat.clog 2 x → r.num = ⟨x - 1, 1⟩) := by
  have hxz : |(x:ℤ)| < 10 ^ p := by rw [abs_of_nonneg (by positivity)]; exact_mod_cast hxp
  unfold bitNot at hr
  rw [ha, notNatural_int hp hxz, decide_eq_false (by omega)] at hr
  simp only [ok_bind, Bool.false_eq_true, if_false] at hr
  rw [toInt_int hxz, hw] at hr
  simp only at hr
  rw [if_neg (by exact_mod_cast hx0)] at hr
  simp only [Int.toNat_natCast] at hr
  rw [mask_not, ofInt_eq hp, hlog] at hr
  simp only [ok_bind] at hr
  generalize biggestWidth _ = bw at hr
  cases bw with
  | error e => cases hr
  | ok v =>
    simp only [ok_bind, pure, Except.pure, Except.ok.injEq] at hr
    subst hr
    simp only
    constructor
    · intro h
      rw [Int.emod_eq_of_lt (by positivity) (by exact_mod_cast h)]
    · intro h
      have h' : (2:ℤ) ^ Nat.clog 2 x = x := by exact_mod_cast h.symm
      rw [h', Int.emod_self, sub_zero]

/-- `~0` fails when the zero carries no width, as every zero not read from a binary
literal does. -/
theorem C18_not_zero_violation (p : ℕ) (hp : 1 ≤ p) (logCeil : ℕ → ℕ) (text) :
    bitNot p logCeil ⟨⟨0, 1⟩, none, text⟩ = .error (.py "ValueError") := by
  have h0 : |(0:ℤ)| < 10 ^ p := by simp
  unfold bitNot
  simp only
  rw [notNatural_int hp h0, decide_eq_false (by omega)]
  simp only [ok_bind, Bool.false_eq_true, if_false]
  rw [toInt_int h0]; rfl

/-- `~` rejects negative integers. -/
theorem C18_not_negative (p : ℕ) (hp : 1 ≤ p) (logCeil) (a : BitNum) (x : ℤ) (ha : a.num = ⟨x, 1⟩) (hx : x < 0)
    (hxp : |x| < 10 ^ p) : bitNot p logCeil a = .error (.calc "Operator requires positive integers") := by
  unfold bitNot
  rw [ha, notNatural_int hp hxp, decide_eq_true hx]; rfl

/-! ### Binary literals -/

/-- The text shown for a natural number in binary has no more digits than needed. -/
theorem bin_text_width {p : ℕ} (hp : 1 ≤ p) (powF) (prec : ℕ) {y w : ℕ} (hy : y < 2 ^ w) (hw : 1 ≤ w)
    (hsize : 10 * 2 ^ w < 10 ^ p) :
    ∃ F t w', (∀ fuel, F ≤ fuel → showBin p powF prec fuel ⟨y, 1⟩ none = .ok t) ∧
      numberWidth t "0b".toList = .ok w' ∧ w' ≤ w := by
  obtain ⟨ip, hlen, hlt, hpos⟩ : ∃ ip : List ℕ, ip.length = w ∧ (∀ d ∈ ip, d < 2) ∧ positional 2 ip = y := by
    clear hw hsize
    induction w generalizing y with
    | zero => exact ⟨[], rfl, by simp, by simp [positional]; omega⟩
    | succ w ih =>
      obtain ⟨ip, h1, h2, h3⟩ := ih (y := y / 2) (by rw [pow_succ] at hy; omega)
      refine ⟨ip ++ [y % 2], by simp [h1], ?_, ?_⟩
      · intro d hd
        rcases List.mem_append.mp hd with hd | hd
        · exact h2 d hd
        · simp at hd; omega
      · rw [positional_append, h3]
        simp [positional]; omega
  have hne : ip ≠ [] := by rintro rfl; simp at hlen; omega
  have hq : positionalQ 2 ip [] = y := by
    unfold positionalQ; rw [hpos]; simp [positional]
  obtain ⟨ip', F, i1, i2, i3, i4, i5, i6⟩ := decToBase_digits hp powF (b := 2) (prec := prec) (by norm_num)
    (by norm_num) (by norm_num) false (ip := ip) (fp := []) hlt (by simp) hne (by simp) (by simp) (by simp)
    (by rw [hlen]; simpa using hsize) (canonical_int y) (by rw [hq]; simp [val])
  have hd36 : ∀ d ∈ ip', d < 36 := fun d hd => lt_of_lt_of_le (i1 d hd) (by norm_num)
  have hD : DigitsAre 2 (ip'.map chr) ip' := DigitsAre.map_chr (by norm_num) i1
  refine ⟨F, literalText "0b".toList false (ip'.map chr) [], ip'.length, ?_, ?_, by omega⟩
  · intro fuel hf
    unfold showBin
    rw [show (2:ℤ) = ((2:ℕ):ℤ) by norm_num, i6 fuel hf]
    simp only [ok_bind]
    rw [addPrefix_based i2 hd36]
    rfl
  · apply numberWidth_literal _ hD (by simpa using i2)
    exact removePrefix_literal (pre := "0b".toList) (by decide) (by decide) (by decide) (c := 'b') (by decide)
      (by decide) false (digits_notMem hD.lower (Or.inr ⟨11, by decide, by norm_num⟩)) (by simp [lowerText])

theorem positional_flip (ds : List ℕ) (h : ∀ d ∈ ds, d < 2) :
    (positional 2 (ds.map (1 - ·)) : ℤ) = 2 ^ ds.length - 1 - positional 2 ds := by
  induction ds with
  | nil => simp [positional]
  | cons d ds ih =>
    have ih := ih (fun x hx => h x (by simp [hx]))
    have hd := h d (by simp)
    rw [List.map_cons, positional_cons, positional_cons, List.length_map, List.length_cons]
    push_cast
    rw [ih, pow_succ]
    obtain rfl | rfl : d = 0 ∨ d = 1 := by omega
    · simp; ring
    · simp; ring

/-- A binary literal, and what the calculator shows for it. -/
theorem bin_literal_nat {p : ℕ} (hp : 1 ≤ p) (powF) (ics : List Char) (ip : List ℕ)
    (hi : DigitsAre 2 ics ip) (hne : ics ≠ []) (hsize : 2 ^ ip.length < 10 ^ p) :
    parseBin p powF (literalText "0b".toList false ics []) = some (.ok (⟨positional 2 ip, 1⟩, ip.length)) := by
  obtain ⟨r, h1, h2, h3⟩ := C14_bin_literal p hp powF false ics [] ip [] hi List.Forall₂.nil hne (by simpa using hsize)
  rw [h1, hi.length]
  have : r = ⟨positional 2 ip, 1⟩ := by
    apply canonical_ext h2 (canonical_int _)
    rw [h3, val_int]; simp [positionalQ, positional]
  rw [this]

/-- `~` on a binary literal of `w` digits is shown as the literal with every digit
flipped, keeping leading zeros, and `~~` gives the original literal back: same value,
same width, same text. -/
theorem C18_not_literal (p : ℕ) (hp : 1 ≤ p) (powF) (logCeil) (prec : ℕ) (ds : List ℕ) (hd : ∀ d ∈ ds, d < 2)
    (hne : ds ≠ []) (hsize : 10 * 2 ^ ds.length < 10 ^ p) :
    ∃ F, ∀ fuel, F ≤ fuel → ∃ n w r s,
      parseBin p powF ("0b".toList ++ ds.map digitChar) = some (.ok (n, w)) ∧
      bitNot p logCeil ⟨n, some w, showBin p powF prec fuel⟩ = .ok r ∧
      r.text r.num r.width = .ok ("0b".toList ++ (ds.map (1 - ·)).map digitChar) ∧
      bitNot p logCeil r = .ok s ∧ s.num = n ∧ s.width = some w ∧
      s.text s.num s.width = .ok ("0b".toList ++ ds.map digitChar) := by
  have hchr : ∀ {l : List ℕ}, (∀ d ∈ l, d < 2) → l.map digitChar = l.map chr := by
    intro l hl
    apply List.map_congr_left
    intro d hdl
    have := hl d hdl
    obtain rfl | rfl : d = 0 ∨ d = 1 := by omega
    all_goals decide
  have hlit : ∀ {l : List ℕ}, (∀ d ∈ l, d < 2) →
      "0b".toList ++ l.map digitChar = literalText "0b".toList false (l.map chr) [] := by
    intro l hl; rw [hchr hl]; simp [literalText]
  set fl := ds.map (1 - ·) with hfl
  have hdf : ∀ d ∈ fl, d < 2 := by
    intro d hdl; rw [hfl, List.mem_map] at hdl; obtain ⟨e, _, rfl⟩ := hdl; omega
  have hlen : fl.length = ds.length := by rw [hfl, List.length_map]
  have hflne : fl ≠ [] := by intro h; rw [h] at hlen; simp at hlen; exact hne (List.length_eq_zero_iff.mp hlen.symm)
  have hD := DigitsAre.map_chr (b := 2) (by norm_num) hd
  have hDf := DigitsAre.map_chr (b := 2) (by norm_num) hdf
  have hsz1 : 2 ^ ds.length < 10 ^ p := by omega
  have hw1 : 1 ≤ ds.length := List.length_pos_iff.mpr hne
  have hx := positional_lt hd
  have hxf := positional_lt hdf
  rw [hlen] at hxf
  have hflip := positional_flip ds hd
  rw [← hfl] at hflip
  obtain ⟨F1, t1, w1, a1, a2, a3⟩ := bin_text_width hp powF prec hxf hw1 hsize
  obtain ⟨F2, t2, w2, b1, b2, b3⟩ := bin_text_width hp powF prec hx hw1 hsize
  have key : ∀ {l : List ℕ}, (∀ d ∈ l, d < 2) → l.length = ds.length → ∃ F, ∀ fuel, F ≤ fuel →
      showBin p powF prec fuel ⟨positional 2 l, 1⟩ (some ds.length) = .ok ("0b".toList ++ l.map digitChar) := by
    intro l hl hll
    have hln : l.map chr ≠ [] := by
      intro h; have := congrArg List.length h; simp [hll] at this; exact hne this
    have hDl := DigitsAre.map_chr (b := 2) (by norm_num) hl
    obtain ⟨r, w, F, c1, c2⟩ := C15_binary_width p hp powF prec false (l.map chr) [] l [] hDl List.Forall₂.nil hln
      (by simp) (by simp) (by simp) (by simpa [hll] using hsize)
    rw [bin_literal_nat hp powF _ l hDl hln (by rw [hll]; exact hsz1)] at c1
    simp only [Option.some.injEq, Except.ok.injEq, Prod.mk.injEq] at c1
    obtain ⟨rfl, rfl⟩ := c1
    refine ⟨F, fun fuel hf => ?_⟩
    rw [← hll, c2 fuel hf, hlit hl]
  obtain ⟨F3, c3⟩ := key hd rfl
  obtain ⟨F4, c4⟩ := key hdf hlen
  refine ⟨F1 + F2 + F3 + F4, fun fuel hf => ?_⟩
  have hparse : parseBin p powF ("0b".toList ++ ds.map digitChar) = some (.ok (⟨positional 2 ds, 1⟩, ds.length)) := by
    rw [hlit hd]
    exact bin_literal_nat hp powF _ ds hD (by simpa using hne) hsz1
  obtain ⟨r, r1, r2, r3, r4⟩ := C18_not p hp logCeil ⟨⟨positional 2 ds, 1⟩, some ds.length, showBin p powF prec fuel⟩
    (positional 2 ds) ds.length rfl hx (by omega) rfl t1 w1
    (by rw [← hflip]; exact a1 fuel (by omega)) a2 a3
  rw [← hflip] at r2
  obtain ⟨s, s1, s2, s3, s4⟩ := C18_not p hp logCeil r (positional 2 fl) ds.length r2 hxf (by omega) r3 t2 w2
    (by rw [r4, hflip]; rw [show (2:ℤ) ^ ds.length - 1 - (2 ^ ds.length - 1 - positional 2 ds) = positional 2 ds by ring]
        exact b1 fuel (by omega)) b2 b3
  rw [hflip, show (2:ℤ) ^ ds.length - 1 - (2 ^ ds.length - 1 - positional 2 ds) = positional 2 ds by ring] at s2
  refine ⟨_, _, r, s, hparse, r1, ?_, s1, s2, s3, ?_⟩
  · rw [r2, r3, r4]; exact c4 fuel (by omega)
  · rw [s2, s3, s4, r4]; exact c3 fuel (by omega)

example : (∀ d ∈ [0, 0, 1, 0], d < 2) ∧ 10 * 2 ^ [0, 0, 1, 0].length < 10 ^ 100 ∧
    "0b".toList ++ [0, 0, 1, 0].map digitChar = "0b0010".toList ∧
    ([0, 0, 1, 0].map (1 - ·)).map digitChar = "1101".toList := by decide

/-- Two decimal numbers, displayed plainly, meet the hypotheses of the theorems above. -/
example : bitWidth ⟨⟨12, 1⟩, none, fun x _ => toText 100 30 x⟩ = .ok 2 ∧ |(12:ℤ)| < 10 ^ 100 ∧
    (∃ r, bitAnd 100 30 ⟨⟨12, 1⟩, some 4, fun x _ => toText 100 30 x⟩ ⟨⟨-6, 1⟩, some 3, fun x _ => toText 100 30 x⟩
      = .ok r ∧ r.num = ⟨8, 1⟩) := by
  refine ⟨by decide +kernel, by norm_num, ?_⟩
  obtain ⟨r, r1, r2, _⟩ := bitResult_ok (p := 100) (n := 30) (by norm_num) (z := 8)
    (biggest_two (a := ⟨⟨12, 1⟩, some 4, fun x _ => toText 100 30 x⟩)
      (b := ⟨⟨-6, 1⟩, some 3, fun x _ => toText 100 30 x⟩) (wa := 4) (wb := 3) rfl rfl)
  refine ⟨r, ?_, r2⟩
  unfold bitAnd
  rw [toInt_int (by norm_num), toInt_int (by norm_num), show Int.land 12 (-6) = 8 by decide +kernel]
  exact r1

end MC.Props
