import Verif.Props.Bases2

/-! # C14: a literal of the form `<base>z<digits>` with a digit that does not exist in the base -/

namespace MC.Props
open MC MC.Number

/-- What the parser of such literals takes as the base and the digits. -/
theorem arb_text {b B : ℕ} (neg : Bool) {ics fcs : List Char} {ip fp : List ℕ}
    (hi : DigitsAre B ics ip) (hf : DigitsAre B fcs fp) (hne : ics ≠ [])
    (hZ : ∀ d ∈ ip ++ fp, d ≠ 35) :
    matchArb (literalText (natText b ++ ['z']) neg ics fcs) = some (natText b) ∧
    removePrefix (literalText (natText b ++ ['z']) neg ics fcs) (natText b ++ ['z'])
      = signedText neg (lowerText ics) (lowerText fcs) := by
  set pre := natText b ++ ['z'] with hpre
  have hpl : lowerText pre = pre := by
    unfold lowerText
    conv_rhs => rw [← List.map_id pre]
    apply List.map_congr_left
    intro c hc
    rw [hpre] at hc
    rcases List.mem_append.mp hc with hc | hc
    · exact (natText_no_z b c hc).2.2
    · have : c = 'z' := by simpa using hc
      subst this; decide
  have hpn : pre ≠ [] := by rw [hpre]; simp
  have hpm : pre.head? ≠ some '-' := by
    rw [hpre]
    obtain ⟨c, t, ht⟩ := List.exists_cons_of_ne_nil (natText_ne_nil b)
    have := (natText_no_z b c (by rw [ht]; simp)).2.1
    rw [ht]; simpa using this
  have hnz : ∀ {cs : List Char} {ds : List ℕ}, DigitsAre B cs ds → (∀ d ∈ ds, d ≠ 35) → 'z' ∉ lowerText cs := by
    intro cs ds h
    have h' := h.lower
    clear h
    generalize lowerText cs = cs' at h'
    induction h' with
    | nil => simp
    | @cons c d cs ds hcd _ ih =>
      intro hd hm
      rcases List.mem_cons.mp hm with h | h
      · rw [← h] at hcd
        have := hcd.1
        rw [show digitValue 'z' = some 35 by decide] at this
        cases this
        exact hd 35 (by simp) rfl
      · exact ih (fun d hm => hd d (by simp [hm])) h
  have z1 := hnz hi (fun d hd => hZ d (by simp [hd]))
  have z2 := hnz hf (fun d hd => hZ d (by simp [hd]))
  have hrem := removePrefix_literal hpl hpn hpm (c := 'z') (by rw [hpre]; simp) (by decide) neg z1 z2
  have hok : ∀ {cs : List Char} {ds : List ℕ}, DigitsAre B cs ds → ∀ x ∈ lowerText cs,
      (x.isDigit || (decide ('a' ≤ x) && decide (x ≤ 'z'))) = true ∧ x ≠ '.' := by
    intro cs ds h x hx
    obtain ⟨y, hy, rfl⟩ := List.mem_map.mp hx
    obtain ⟨_, _, d, hd, hlt⟩ := h.ne y hy
    refine ⟨?_, (h.lower.ne _ hx).1⟩
    rw [(lower_digit hd).2]
    have : ∀ d < 36, ((chr d).toLower.isDigit || (decide ('a' ≤ (chr d).toLower) && decide ((chr d).toLower ≤ 'z')))
      = true := by decide +kernel
    exact this d (lower_digit hd).1
  have hmatch : matchArb (literalText pre neg ics fcs) = some (natText b) := by
    unfold matchArb literalText
    rw [lower_signed, hpl]
    have hs1 : (let s := (if neg = true then ['-'] else []) ++ pre ++ lowerText ics ++
          (if lowerText fcs = [] then [] else '.' :: lowerText fcs)
        if s.head? == some '-' then s.tail else s) = natText b ++ 'z' :: (lowerText ics ++
          (if lowerText fcs = [] then [] else '.' :: lowerText fcs)) := by
      cases neg with
      | true => simp [hpre]
      | false =>
        obtain ⟨c, t, ht⟩ := List.exists_cons_of_ne_nil (natText_ne_nil b)
        have := (natText_no_z b c (by rw [ht]; simp)).2.1
        rw [hpre, ht]
        simp [this]
    simp only at hs1 ⊢
    rw [hs1, span_digits_append (natText_digits b) (by intro c hc; simp at hc; subst hc; decide)]
    set rest := lowerText ics ++ (if lowerText fcs = [] then [] else '.' :: lowerText fcs) with hrest
    have hall : ∀ c ∈ lowerText ics, (decide (c ≠ '.')) = true := fun c hc => by simpa using (hok hi c hc).2
    have ht : rest.takeWhile (· ≠ '.') = lowerText ics ∧ rest.dropWhile (· ≠ '.') =
        (if lowerText fcs = [] then [] else '.' :: lowerText fcs) := by
      rw [hrest, List.takeWhile_append_of_pos hall, List.dropWhile_append_of_pos hall]
      split <;> simp
    have hlen : (lowerText ics).isEmpty = false := by
      cases ics with
      | nil => exact absurd rfl hne
      | cons c t => rfl
    have hok1 := List.all_eq_true.mpr (fun c hc => (hok hi c hc).1)
    have hok2 := List.all_eq_true.mpr (fun c hc => (hok hf c hc).1)
    obtain ⟨c0, t0, h0⟩ := List.exists_cons_of_ne_nil (natText_ne_nil b)
    rw [h0]
    simp only
    rw [ht.1, ht.2, if_pos]
    rw [hlen, hok1]
    by_cases hf : lowerText fcs = []
    · rw [if_pos hf]; rfl
    · rw [if_neg hf]
      have : (lowerText fcs).isEmpty = false := by
        cases hx : lowerText fcs with
        | nil => exact absurd hx hf
        | cons c t => rfl
      simp [this]
      simpa using hok2
  exact ⟨hmatch, hrem⟩

/-- **C14**: a literal whose digits do not all exist in the base it names is not a number: it is
left to the other parsers, and no error is raised. -/
theorem C14_literal_partial (p : ℕ) (hp : 1 ≤ p) (powF) (b : ℕ) (hb : 2 ≤ b) (hb36 : b ≤ 36)
    (hb10 : b ≠ 10) (neg : Bool) (ics fcs : List Char) (ip fp : List ℕ) (hi : DigitsAre 36 ics ip)
    (hf : DigitsAre 36 fcs fp) (hne : ics ≠ []) (hZ : ∀ d ∈ ip ++ fp, d ≠ 35)
    (hbad : ∃ d ∈ ip ++ fp, b ≤ d) :
    parseArb p powF (literalText (natText b ++ ['z']) neg ics fcs) = .ok none := by
  obtain ⟨h1, h2⟩ := arb_text (b := b) neg hi hf hne hZ
  have hl := hi.lower
  have hm := hf.lower
  have key : ∃ m, baseToDec p powF (signedText neg (lowerText ics) (lowerText fcs)) b = .error (.calc m) := by
    have hne' : lowerText ics ≠ [] := by simpa [lowerText] using hne
    have := (C14_validated_partial p hp powF b hb hb36 hb10 neg
      (lowerText ics ++ (if lowerText fcs = [] then [] else '.' :: lowerText fcs)) (by simp [hne']) ?_).2 ?_
    · simpa [signedText] using this
    · obtain ⟨c, t, ht⟩ := List.exists_cons_of_ne_nil hne'
      have hc := hl.ne c (by rw [ht]; simp)
      rw [ht]
      simpa using hc.2.1
    · obtain ⟨d, hd, hbd⟩ := hbad
      have find : ∀ {cs : List Char} {ds : List ℕ}, DigitsAre 36 cs ds → d ∈ ds →
          ∃ c ∈ cs, digitValue c = some d := by
        intro cs ds h
        induction h with
        | nil => simp
        | cons h _ ih =>
          intro hm
          rcases List.mem_cons.mp hm with rfl | hm
          · exact ⟨_, by simp, h.1⟩
          · obtain ⟨c, hc, he⟩ := ih hm
            exact ⟨c, by simp [hc], he⟩
      rcases List.mem_append.mp hd with hd | hd
      · obtain ⟨c, hc, he⟩ := find hl hd
        refine ⟨c, by simp [hc], (hl.ne c hc).1, ?_⟩
        intro d' hd'
        rw [he] at hd'; cases hd'; exact hbd
      · obtain ⟨c, hc, he⟩ := find hm hd
        have hn : lowerText fcs ≠ [] := by intro h0; rw [h0] at hc; simp at hc
        refine ⟨c, by simp [hn, hc], (hm.ne c hc).1, ?_⟩
        intro d' hd'
        rw [he] at hd'; cases hd'; exact hbd
  obtain ⟨m, hm'⟩ := key
  unfold parseArb
  rw [h1]
  simp only
  rw [readNat_natText, h2, hm']

/-- `7z19` is not a number. -/
example : parseArb 100 noPow "7z19".toList = .ok none :=
  C14_literal_partial 100 (by norm_num) noPow 7 (by norm_num) (by norm_num) (by norm_num) false
    ['1', '9'] [] [1, 9] [] (.cons ⟨by decide, by norm_num⟩ (.cons ⟨by decide, by norm_num⟩ .nil)) .nil
    (by simp) (by simp) ⟨9, by simp, by norm_num⟩

end MC.Props
