import Verif.Model.Display
import Verif.Lemmas.Number3
import Mathlib.Data.Nat.Digits.Lemmas

namespace MC

def AllDigits (s : List Char) : Prop := ∀ c ∈ s, c.isDigit = true

theorem digitChar_isDigit {d : ℕ} (h : d < 10) : (digitChar d).isDigit = true := by
  interval_cases d <;> decide

theorem digitVal_digitChar {d : ℕ} (h : d < 10) : digitVal (digitChar d) = d := by
  interval_cases d <;> decide

theorem digitChar_eq_zero {d : ℕ} (h : d < 10) : digitChar d = '0' ↔ d = 0 := by
  interval_cases d <;> decide

theorem readNat_aux (s : List Char) (acc : ℕ) :
    s.foldl (fun acc c => acc * 10 + digitVal c) acc = acc * 10 ^ s.length + readNat s := by
  unfold readNat
  induction s generalizing acc with
  | nil => simp
  | cons c s ih =>
    simp only [List.foldl_cons, List.length_cons]
    rw [ih, ih (0 * 10 + digitVal c)]
    rw [pow_succ]; ring

theorem readNat_append (s t : List Char) : readNat (s ++ t) = readNat s * 10 ^ t.length + readNat t := by
  conv_lhs => unfold readNat
  rw [List.foldl_append, readNat_aux]; rfl

theorem readNat_nil : readNat [] = 0 := rfl

theorem readNat_replicate (k : ℕ) : readNat (List.replicate k '0') = 0 := by
  induction k with
  | zero => rfl
  | succ k ih => rw [List.replicate_succ', readNat_append, ih]; rfl

theorem natText_digits (k : ℕ) : AllDigits (natText k) := by
  unfold natText; split
  · intro c hc; simp at hc; subst hc; decide
  · intro c hc
    simp only [List.mem_map, List.mem_reverse] at hc
    obtain ⟨d, hd, rfl⟩ := hc
    exact digitChar_isDigit (Nat.digits_lt_base (by norm_num) hd)

theorem readNat_map_digits (L : List ℕ) (h : ∀ d ∈ L, d < 10) :
    readNat (L.reverse.map digitChar) = Nat.ofDigits 10 L := by
  induction L with
  | nil => rfl
  | cons d L ih =>
    rw [List.reverse_cons, List.map_append, readNat_append, ih (fun x hx => h x (by simp [hx]))]
    rw [Nat.ofDigits_cons]
    have : readNat (List.map digitChar [d]) = d := by
      simp [readNat, digitVal_digitChar (h d (by simp))]
    rw [this]; simp; ring

theorem readNat_natText (k : ℕ) : readNat (natText k) = k := by
  unfold natText; split
  · rename_i h; subst h; rfl
  · rw [readNat_map_digits _ (fun d hd => Nat.digits_lt_base (by norm_num) hd), Nat.ofDigits_digits]

theorem natText_ne_nil (k : ℕ) : natText k ≠ [] := by
  unfold natText; split
  · simp
  · rename_i h
    intro hc
    have := List.map_eq_nil_iff.mp hc
    rw [List.reverse_eq_nil_iff, Nat.digits_eq_nil_iff_eq_zero] at this
    exact h this

/-- No leading zero, except for the text of 0. -/
theorem natText_head (k : ℕ) (h : k ≠ 0) : (natText k).head? ≠ some '0' := by
  unfold natText; rw [if_neg h]
  rw [List.head?_map, List.head?_reverse]
  have hne := Nat.digits_ne_nil_iff_ne_zero (b := 10) |>.mpr h
  rw [List.getLast?_eq_some_getLast hne]
  intro hc
  simp only [Option.map_some, Option.some.injEq] at hc
  rw [digitChar_eq_zero (Nat.digits_lt_base (by norm_num) (List.getLast_mem hne))] at hc
  exact Nat.getLast_digit_ne_zero 10 h hc

theorem readNat_zfill (w : ℕ) (s : List Char) : readNat (zfill w s) = readNat s := by
  unfold zfill; rw [readNat_append, readNat_replicate]; simp

theorem zfill_digits {w : ℕ} {s : List Char} (h : AllDigits s) : AllDigits (zfill w s) := by
  unfold zfill; intro c hc
  rw [List.mem_append, List.mem_replicate] at hc
  rcases hc with ⟨_, rfl⟩ | hc
  · decide
  · exact h c hc

theorem zfill_length (w : ℕ) (s : List Char) : (zfill w s).length = max w s.length := by
  unfold zfill; simp; omega

/-! ### Trailing zeros -/

theorem rstrip0_spec (s : List Char) :
    ∃ z, s = rstrip0 s ++ List.replicate z '0' ∧ (rstrip0 s).getLast? ≠ some '0' := by
  unfold rstrip0
  have h := List.takeWhile_append_dropWhile (p := (· == '0')) (l := s.reverse)
  refine ⟨(s.reverse.takeWhile (· == '0')).length, ?_, ?_⟩
  · have e : List.replicate (s.reverse.takeWhile (· == '0')).length '0' = (s.reverse.takeWhile (· == '0')).reverse := by
      symm
      rw [List.eq_replicate_iff]
      refine ⟨by simp, ?_⟩
      intro b hb
      rw [List.mem_reverse] at hb
      have := List.all_takeWhile (p := (· == '0')) (l := s.reverse)
      rw [List.all_eq_true] at this
      simpa using this b hb
    rw [e, ← List.reverse_append, h, List.reverse_reverse]
  · rw [List.getLast?_reverse]
    intro hc
    have := List.head?_dropWhile_not (p := (· == '0')) (l := s.reverse)
    rw [hc] at this
    simp at this

theorem rstrip0_append {s t : List Char} (h : rstrip0 t ≠ []) : rstrip0 (s ++ t) = s ++ rstrip0 t := by
  unfold rstrip0 at *
  rw [List.reverse_append, List.dropWhile_append]
  have : (List.dropWhile (· == '0') t.reverse).isEmpty = false := by
    rw [List.isEmpty_eq_false_iff]; intro hc; apply h; rw [hc]; rfl
  rw [if_neg (by rw [this]; simp), List.reverse_append, List.reverse_reverse]

theorem rstrip0_append_nil {s t : List Char} (h : rstrip0 t = []) : rstrip0 (s ++ t) = rstrip0 s := by
  unfold rstrip0 at *
  rw [List.reverse_append, List.dropWhile_append]
  have : (List.dropWhile (· == '0') t.reverse) = [] := by simpa using h
  rw [this]; simp

theorem rstrip0_snoc {s : List Char} {c : Char} (h : c ≠ '0') : rstrip0 (s ++ [c]) = s ++ [c] := by
  unfold rstrip0; simp [h]

theorem rstrip0_digits {s : List Char} (h : AllDigits s) : AllDigits (rstrip0 s) := by
  obtain ⟨z, hz, _⟩ := rstrip0_spec s
  intro c hc; apply h; rw [hz]; exact List.mem_append_left _ hc

/-- The text of a decimal with the given parts. -/
def assemble (neg : Bool) (ip fp : List Char) : List Char :=
  (if neg then ['-'] else []) ++ ip ++ (if fp = [] then [] else '.' :: fp)

theorem dot_notMem_digits {s : List Char} (h : AllDigits s) : '.' ∉ s := by
  intro hc; have := h _ hc; revert this; decide

theorem stripFraction_assemble {neg : Bool} {ip fp : List Char} (hi : AllDigits ip)
    (hf : AllDigits fp) :
    stripFraction (assemble neg ip fp) = assemble neg ip (rstrip0 fp) := by
  unfold stripFraction assemble
  by_cases hfp : fp = []
  · subst hfp
    rw [if_neg]
    · simp [rstrip0]
    · cases neg <;> simp [dot_notMem_digits hi]
  · rw [if_neg hfp, if_pos (by simp)]
    simp only
    set pre := (if neg then ['-'] else []) ++ ip with hpre
    by_cases hr : rstrip0 fp = []
    · rw [if_pos hr]
      have e : pre ++ '.' :: fp = (pre ++ ['.']) ++ fp := by simp
      rw [e, rstrip0_append_nil hr, rstrip0_snoc (by decide)]
      simp
    · rw [if_neg hr]
      have e : pre ++ '.' :: fp = (pre ++ ['.']) ++ fp := by simp
      rw [e, rstrip0_append hr]
      rw [if_neg]
      · simp
      · rw [List.getLast?_append_of_ne_nil _ hr]
        intro hc
        have hm := List.mem_of_getLast? hc
        exact dot_notMem_digits (rstrip0_digits hf) hm

/-! ### The literal reader -/

theorem span_digits_append {s t : List Char} (h : AllDigits s)
    (ht : ∀ c, t.head? = some c → c.isDigit = false) : spanDigits (s ++ t) = (s, t) := by
  unfold spanDigits
  rw [List.span_eq_takeWhile_dropWhile]
  induction s with
  | nil =>
    cases t with
    | nil => rfl
    | cons c t => simp [ht c rfl]
  | cons c s ih =>
    have h1 : c.isDigit = true := h c (by simp)
    have := ih (fun x hx => h x (by simp [hx]))
    simp only [Prod.mk.injEq] at this
    simp [h1, this.1, this.2]

theorem spanDigits_all {s : List Char} (h : AllDigits s) : spanDigits s = (s, []) := by
  have := span_digits_append (t := []) h (by simp)
  simpa using this

theorem digits_head_ne_minus {s : List Char} (h : AllDigits s) : (s.head? == some '-') = false := by
  cases s with
  | nil => rfl
  | cons c s =>
    have := h c (by simp)
    simp only [List.head?_cons]
    rw [beq_eq_false_iff_ne]
    rintro ⟨⟩
    revert this; decide

theorem matchDecimal_append {neg : Bool} {ip fp rest : List Char} (hi : AllDigits ip) (hin : ip ≠ [])
    (hf : AllDigits fp)
    (hr : ∀ c, rest.head? = some c → c.isDigit = false ∧ c ≠ '.') :
    matchDecimal (assemble neg ip fp ++ rest) = some (neg, ip, fp, rest) := by
  have hbody : ∀ t : List Char, (match spanDigits (ip ++ (if fp = [] then [] else '.' :: fp) ++ rest) with
      | ([], _) => none
      | (ip, '.' :: rest) =>
        match spanDigits rest with
        | ([], _) => some (neg, ip, [], '.' :: rest)
        | (fp, rest2) => some (neg, ip, fp, rest2)
      | (ip, rest) => some (neg, ip, [], rest)) = some (neg, ip, fp, rest) := by
    intro t
    by_cases hfp : fp = []
    · subst hfp
      rw [if_pos rfl, List.append_nil, span_digits_append hi (fun c hc => (hr c hc).1)]
      split
      · rename_i h; simp only [Prod.mk.injEq] at h; exact absurd h.1 hin
      · rename_i h1 h2; simp only [Prod.mk.injEq] at h2
        have := hr '.' (by rw [h2.2]; rfl)
        exact absurd rfl this.2
      · rename_i h1 h2; simp only [Prod.mk.injEq] at h2; rw [h2.1, h2.2]
    · rw [if_neg hfp, List.append_assoc, List.cons_append, span_digits_append hi (by intro c hc; simp at hc; subst hc; decide)]
      split
      · rename_i h; simp only [Prod.mk.injEq] at h; exact absurd h.1 hin
      · rename_i h1 h2; simp only [Prod.mk.injEq, List.cons.injEq, true_and] at h2
        rw [← h2.2, span_digits_append hf (fun c hc => (hr c hc).1)]
        split
        · rename_i h; simp only [Prod.mk.injEq] at h; exact absurd h.1 hfp
        · rename_i h3 h4; simp only [Prod.mk.injEq] at h4; rw [← h4.1, ← h4.2, h2.1]
      · rename_i hne h2; simp only [Prod.mk.injEq] at h2
        exact absurd h2.2.symm (hne _)
  unfold matchDecimal assemble
  cases neg
  · simp only [Bool.false_eq_true, if_false, List.nil_append] at hbody ⊢
    have hh : ((ip ++ (if fp = [] then [] else '.' :: fp) ++ rest).head? == some '-') = false := by
      have : (ip ++ (if fp = [] then [] else '.' :: fp) ++ rest).head? = ip.head? := by
        rw [List.append_assoc, List.head?_append_of_ne_nil _ hin]
      rw [this]; exact digits_head_ne_minus hi
    simp only [hh, Bool.false_eq_true, if_false]
    exact hbody []
  · simp only [if_true, List.cons_append, List.nil_append, List.head?_cons, List.tail_cons] at hbody ⊢
    have : (some '-' == some '-') = true := rfl
    simp only [this, if_true]
    exact hbody []

theorem matchDecimal_assemble {neg : Bool} {ip fp : List Char} (hi : AllDigits ip) (hin : ip ≠ [])
    (hf : AllDigits fp) : matchDecimal (assemble neg ip fp) = some (neg, ip, fp, []) := by
  have := matchDecimal_append (neg := neg) (rest := []) hi hin hf (by simp)
  simpa using this

theorem decimalOf_rstrip (neg : Bool) (ip fp : List Char) :
    decimalOf neg ip (rstrip0 fp) = decimalOf neg ip fp := by
  obtain ⟨z, hz, _⟩ := rstrip0_spec fp
  unfold decimalOf
  congr 2
  conv_rhs => rw [hz]
  rw [readNat_append, readNat_replicate]
  simp only [List.length_append, List.length_replicate, pow_add]
  push_cast; field_simp; ring

/-- The parts written by `fmtFixed`. -/
theorem fmtFixed_parts (neg : Bool) (k n : ℕ) :
    ∃ ip fp, fmtFixed neg k n = assemble neg ip fp ∧ AllDigits ip ∧ ip ≠ [] ∧ AllDigits fp ∧
      fp.length = n ∧ (∀ ng, decimalOf ng ip fp = (if ng then -1 else 1) * ((k:ℚ) / 10 ^ n)) ∧
      (ip.head? ≠ some '0' ∨ ip = ['0']) := by
  set s := zfill (n+1) (natText k) with hs
  have hlen : s.length = max (n+1) (natText k).length := zfill_length _ _
  have hd : AllDigits s := zfill_digits (natText_digits k)
  have hread : readNat s = k := by rw [hs, readNat_zfill, readNat_natText]
  refine ⟨s.take (s.length - n), s.drop (s.length - n), ?_, ?_, ?_, ?_, ?_, ?_, ?_⟩
  · unfold fmtFixed assemble
    simp only [← hs]
    by_cases hn : n = 0
    · subst hn; simp
    · have hne : s.drop (s.length - n) ≠ [] := by
        intro hc
        have := congrArg List.length hc
        simp at this; omega
      rw [if_neg hn, if_neg hne]
  · intro c hc; exact hd c (List.mem_of_mem_take hc)
  · intro hc
    have := congrArg List.length hc
    simp only [List.length_take, List.length_nil] at this; omega
  · intro c hc; exact hd c (List.mem_of_mem_drop hc)
  · rw [List.length_drop]; omega
  · intro ng
    unfold decimalOf
    congr 1
    have hl : (s.drop (s.length - n)).length = n := by rw [List.length_drop]; omega
    have := readNat_append (s.take (s.length - n)) (s.drop (s.length - n))
    rw [List.take_append_drop, hread, hl] at this
    rw [hl]
    have h2 : (k:ℚ) = readNat (s.take (s.length - n)) * 10 ^ n + readNat (s.drop (s.length - n)) := by
      exact_mod_cast this
    rw [h2]; field_simp
  · by_cases hle : (natText k).length ≤ n + 1
    · by_cases heq : (natText k).length = n + 1
      · -- no padding
        have e : s = natText k := by rw [hs]; unfold zfill; simp [heq]
        by_cases hk : k = 0
        · right
          have hnt : natText k = ['0'] := by unfold natText; rw [if_pos hk]
          rw [hnt] at heq; simp at heq
          rw [e, hnt, heq]; rfl
        · left
          rw [e]
          have := natText_head k hk
          cases hnt : natText k with
          | nil => exact absurd hnt (natText_ne_nil k)
          | cons c t =>
            rw [hnt] at this heq
            simp only [List.length_cons] at heq ⊢
            have : t.length + 1 - n = 1 := by omega
            rw [this]; simpa using ‹(c :: t).head? ≠ some '0'›
      · right
        have hl : s.length = n + 1 := by omega
        rw [hl]
        have e1 : n + 1 - n = 1 := by omega
        rw [e1, hs]; unfold zfill
        obtain ⟨j, hj⟩ : ∃ j, n + 1 - (natText k).length = j + 1 := ⟨n - (natText k).length, by omega⟩
        rw [hj, List.replicate_succ]; rfl
    · left
      have e : s = natText k := by
        rw [hs]; unfold zfill
        have : n + 1 - (natText k).length = 0 := by omega
        rw [this]; rfl
      have hk : k ≠ 0 := by
        rintro rfl
        simp [natText] at hle
      have := natText_head k hk
      rw [e]
      cases hnt : natText k with
      | nil => exact absurd hnt (natText_ne_nil k)
      | cons c t =>
        rw [hnt] at this hle
        simp only [List.length_cons] at hle ⊢
        obtain ⟨j, hj⟩ : ∃ j, t.length + 1 - n = j + 1 := ⟨t.length - n, by omega⟩
        rw [hj]; simpa using this

/-- Shape and meaning of a displayed number. -/
theorem toText_ok {p n : ℕ} {a : Number} {t : List Char} (h : Number.toText p n a = .ok t) :
    ∃ neg ip fp, t = assemble neg ip fp ∧ AllDigits ip ∧ ip ≠ [] ∧ AllDigits fp ∧
      fp.getLast? ≠ some '0' ∧ fp.length ≤ n ∧ (ip.head? ≠ some '0' ∨ ip = ['0']) ∧
      (neg = true ↔ Number.toDecimal p a < 0) ∧
      decimalOf neg ip fp = (rhu (Number.toDecimal p a * 10 ^ n) : ℚ) / 10 ^ n := by
  unfold Number.toText at h
  simp only at h
  split at h
  · rename_i h0
    cases h
    refine ⟨false, ['0'], [], by decide, ?_, by simp, by simp [AllDigits], by simp, by simp, by simp, ?_, ?_⟩
    · intro c hc; simp at hc; subst hc; decide
    · simp [h0]
    · rw [h0]; simp [decimalOf, rhu_zero, readNat, digitVal]
  · rename_i h0
    split at h
    · cases h
    · cases h
      obtain ⟨ip, fp, e, h1, h2, h3, h4, h5, h6⟩ := fmtFixed_parts (decide (Number.toDecimal p a < 0))
        (rhu (Number.toDecimal p a * 10 ^ n)).natAbs n
      refine ⟨decide (Number.toDecimal p a < 0), ip, rstrip0 fp, ?_, h1, h2, rstrip0_digits h3, ?_, ?_, h6, by simp, ?_⟩
      · rw [e, stripFraction_assemble h1 h3]
      · exact (rstrip0_spec fp).choose_spec.2
      · obtain ⟨z, hz, _⟩ := rstrip0_spec fp
        have := congrArg List.length hz
        rw [List.length_append] at this; omega
      · rw [decimalOf_rstrip, h5]
        set x := Number.toDecimal p a
        rcases le_or_gt 0 x with hx | hx
        · have hr : 0 ≤ rhu (x * 10 ^ n) := rhu_nonneg (by positivity)
          rw [decide_eq_false (by linarith)]
          simp only [Bool.false_eq_true, if_false, one_mul]
          rw [Nat.cast_natAbs, abs_of_nonneg hr]
        · have hr : rhu (x * 10 ^ n) ≤ 0 := by
            have := rhu_nonneg (x := -(x * 10 ^ n)) (by
              rw [← neg_mul]; exact mul_nonneg (by linarith) (by positivity))
            rw [rhu_neg] at this; omega
          rw [decide_eq_true hx]
          simp only [if_true]
          rw [Nat.cast_natAbs, abs_of_nonpos hr]; push_cast; ring

theorem toText_ok_iff (p n : ℕ) (a : Number) :
    (∃ t, Number.toText p n a = .ok t) ↔
      (Number.toDecimal p a = 0 ∨ |rhu (Number.toDecimal p a * 10 ^ n)| < 10 ^ p) := by
  unfold Number.toText
  simp only
  by_cases h0 : Number.toDecimal p a = 0
  · rw [if_pos h0]; exact ⟨fun _ => Or.inl h0, fun _ => ⟨_, rfl⟩⟩
  · rw [if_neg h0]
    split
    · rename_i h
      constructor
      · rintro ⟨t, ht⟩; cases ht
      · rintro (h1 | h1)
        · exact absurd h1 h0
        · omega
    · rename_i h; push Not at h
      exact ⟨fun _ => Or.inr h, fun _ => ⟨_, rfl⟩⟩

end MC
