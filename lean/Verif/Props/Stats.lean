import Verif.Props.Arrays
import Verif.Props.Range
import Verif.Spec.Stats

/-! # C53: statistics -/

set_option linter.unusedSectionVars false

namespace MC.Props
open MC Arrays Spec

section
variable {S U R K σ : Type} {c : Calc S U R K} {asBool : S → Option Bool}
  {p : ℕ} {num? : S → Option Number} {ofNum : Number → S}

/-- `r` holds the number `n` in unit `u`; it may have been given a number type. -/
def IsNumber (c : Calc S U R K) (ofNum : Number → S) (r : Opd S U R) (n : Number) (u : Option U) : Prop :=
  r.unit = u ∧ r.ref = none ∧
    (r.value = .sc (ofNum n) ∨ ∃ k, r.value = .sc (c.setCast k (ofNum n)))

theorem finish_number {op : Operation S U R σ} {k : Option K} {ru : Option U} {n : Number} :
    IsNumber c ofNum (finishResult c op ru k { value := .sc (ofNum n) }) n ru := by
  refine ⟨rfl, rfl, ?_⟩
  unfold finishResult
  dsimp only
  cases k with
  | none => exact .inl rfl
  | some k =>
    dsimp only
    split
    · exact .inr ⟨k, rfl⟩
    · exact .inl rfl

/-- The numbers `ns` are the multiples `Ns` of `1/D`. -/
def Multiples (D : ℤ) (ns : List Number) (Ns : List ℤ) : Prop :=
  List.Forall₂ (fun (n : Number) (N : ℤ) => n.Canonical ∧ n.val = (N:ℚ) / D) ns Ns

theorem sumLoop_grid {D : ℤ} (hD : 0 < D) (hDp : D < 10 ^ p) {ns : List Number} {Ns : List ℤ}
    (h : Multiples D ns Ns) {t : Number} {T : ℤ} (ht : t.Canonical) (hT : t.val = (T:ℚ) / D)
    (hb : (|T| + (Ns.map (fun N => |N|)).sum) * D < 10 ^ p) :
    ∃ r, sumLoop p t ns = .ok r ∧ r.Canonical ∧ r.val = ((T + Ns.sum : ℤ):ℚ) / D := by
  induction h generalizing t T with
  | nil => exact ⟨t, rfl, ht, by simpa using hT⟩
  | @cons n N ns Ns hn _ ih =>
    simp only [List.map_cons, List.sum_cons] at hb
    have hs : 0 ≤ (Ns.map (fun N => |N|)).sum := List.sum_nonneg (by
      intro x hx; simp only [List.mem_map] at hx; obtain ⟨y, -, rfl⟩ := hx; exact abs_nonneg y)
    have h1 := abs_nonneg T
    have h2 := abs_nonneg N
    have h3 : |T + N| ≤ |T| + |N| := abs_add_le _ _
    obtain ⟨r, hr, hrc, hrv⟩ := Number.add_grid (p := p) ht hn.1 hD hT hn.2 (by nlinarith) (by nlinarith)
      hDp (by nlinarith)
    obtain ⟨q, hq, hqc, hqv⟩ := ih hrc hrv (by nlinarith)
    refine ⟨q, ?_, hqc, ?_⟩
    · simp [sumLoop, hr, bind, Except.bind, hq]
    · rw [hqv]; simp [add_assoc]

/-- **C53**: `sum` is the exact sum, within the precision, in the common unit. -/
theorem C53_sum (hc : HasArrays c asBool) (hp : 1 ≤ p) {x : Opd S U R} {els : List (Opd S U R)}
    (hx : x.value = .arr els) {ns : List Number} {ru : Option U}
    (hn : NumbersOf c num? (opSum (σ := σ) p num? ofNum) els ns ru) {D : ℤ} {Ns : List ℤ} (hD : 0 < D)
    (hg : Multiples D ns Ns) (hb : ((Ns.map (fun N => |N|)).sum + 1) * D < 10 ^ p) (s : σ) :
    ∃ r n, call c (opSum p num? ofNum) [x] s = (.ok r, s) ∧ IsNumber c ofNum r n ru ∧
      n.Canonical ∧ n.val = (ns.map Number.val).sum := by
  obtain ⟨nums', k, hlen, hnl, hcall⟩ := call_numbersOp hc hx hn s
  have hs : 0 ≤ (Ns.map (fun N => |N|)).sum := List.sum_nonneg (by
    intro x hx; simp only [List.mem_map] at hx; obtain ⟨y, -, rfl⟩ := hx; exact abs_nonneg y)
  have hz : ((setElements els nums').zip ns).map (fun q => q.2) = ns := by
    have : (setElements els nums').length = els.length := setElements_length hlen
    exact List.map_snd_zip (by omega)
  obtain ⟨n, h1, h2, h3⟩ := sumLoop_grid (p := p) hD (by nlinarith) hg (t := ⟨0, 1⟩) (T := 0)
    (Number.canonical_int 0) (by simp [Number.val]) (by simp; nlinarith)
  rw [opSum, hcall]
  simp only [hz, Number.ofInt_eq hp, bind, Except.bind, h1, liftErr, pure, Except.pure]
  refine ⟨_, n, rfl, finish_number, h2, ?_⟩
  rw [h3]
  clear h3 h1 hb hs hz hcall hnl hn
  rw [zero_add]
  induction hg with
  | nil => simp
  | cons h _ ih => simp only [List.map_cons, List.sum_cons, ← ih, h.2]; push_cast; ring

theorem foldl_extreme {α : Type} {beats : α → α → Bool}
    (htr : ∀ a b d, beats a b = false → beats b d = false → beats a d = false)
    (hasym : ∀ a b, beats a b = true → beats b a = false) (xs : List α) (x : α) :
    ∃ (i : ℕ) (m : α), (x :: xs)[i]? = some m ∧
      xs.foldl (fun best y => if beats y best then y else best) x = m ∧
      (∀ y ∈ x :: xs, beats y m = false) ∧ ∀ j < i, ∀ y, (x :: xs)[j]? = some y → beats m y = true := by
  induction xs using List.reverseRecOn with
  | nil =>
    refine ⟨0, x, rfl, rfl, ?_, by simp⟩
    intro y hy
    simp only [List.mem_singleton] at hy
    subst hy
    by_contra h
    have h' : beats y y = true := by simpa using h
    have := hasym y y h'
    rw [h'] at this; cases this
  | append_singleton xs z ih =>
    obtain ⟨i, m, hi, hf, hall, hfirst⟩ := ih
    have hil : i < (x :: xs).length := (List.getElem?_eq_some_iff.mp hi).1
    rw [List.foldl_append, List.foldl_cons, List.foldl_nil, hf]
    have hget : ∀ j < (x :: xs).length, (x :: (xs ++ [z]))[j]? = (x :: xs)[j]? := by
      intro j hj
      rw [← List.cons_append, List.getElem?_append_left hj]
    by_cases hb : beats z m = true
    · rw [if_pos hb]
      refine ⟨xs.length + 1, z, ?_, rfl, ?_, ?_⟩
      · rw [← List.cons_append, List.getElem?_append_right (by simp)]; simp
      · intro y hy
        rw [← List.cons_append, List.mem_append] at hy
        rcases hy with hy | hy
        · exact htr y m z (hall y hy) (hasym z m hb)
        · simp only [List.mem_singleton] at hy
          subst hy
          by_contra h
          have h' : beats y y = true := by simpa using h
          have := hasym y y h'
          rw [h'] at this; cases this
      · intro j hj y hy
        rw [hget j (by simpa using hj)] at hy
        have hym := hall y (List.mem_of_getElem? hy)
        by_contra h
        have h' : beats z y = false := by simpa using h
        have := htr z y m h' hym
        rw [hb] at this; cases this
    · have hb' : beats z m = false := by simpa using hb
      rw [if_neg hb]
      refine ⟨i, m, ?_, rfl, ?_, ?_⟩
      · rw [hget i hil]; exact hi
      · intro y hy
        rw [← List.cons_append, List.mem_append] at hy
        rcases hy with hy | hy
        · exact hall y hy
        · simp only [List.mem_singleton] at hy
          rw [hy]; exact hb'
      · intro j hj y hy
        rw [hget j (by omega)] at hy
        exact hfirst j hj y hy

theorem extreme_spec {α : Type} {beats : α → α → Bool}
    (htr : ∀ a b d, beats a b = false → beats b d = false → beats a d = false)
    (hasym : ∀ a b, beats a b = true → beats b a = false) {l : List α} (hl : l ≠ []) :
    ∃ (i : ℕ) (m : α), l[i]? = some m ∧ extreme beats l = some m ∧ (∀ y ∈ l, beats y m = false) ∧
      ∀ j < i, ∀ y, l[j]? = some y → beats m y = true := by
  cases l with
  | nil => exact absurd rfl hl
  | cons x xs =>
    obtain ⟨i, m, h1, h2, h3, h4⟩ := foldl_extreme htr hasym xs x
    exact ⟨i, m, h1, by simp [extreme, h2], h3, h4⟩

theorem scalar_of_number {v : Val S U R} (h : (asNumber c v).isSome) : ∀ l, v ≠ .arr l := by
  intro l hl
  subst hl
  simp [asNumber] at h

theorem elements_plain {f : List (Opd S U R × Number) → Except Raise (OpResult S U R)} {name : String}
    {els : List (Opd S U R)} {ns : List Number} {ru : Option U}
    (hn : NumbersOf c num? (numbersOp (σ := σ) num? name f) els ns ru) {e : Opd S U R} (he : e ∈ els) :
    ∀ l, e.value = .arr l → Plain l := by
  obtain ⟨nums, nums', h1, -⟩ := hn
  intro l hl
  exact absurd hl (scalar_of_number (elementNumbers_ok h1 e he) l)

/-- What `min` and `max` do: the first element that none beats. -/
theorem call_extreme (hc : HasArrays c asBool) {name : String}
    {beats : Number → Number → Bool}
    (htr : ∀ a b d, beats a b = false → beats b d = false → beats a d = false)
    (hasym : ∀ a b, beats a b = true → beats b a = false) {x : Opd S U R}
    {els : List (Opd S U R)} (hx : x.value = .arr els) (hne : els ≠ []) {ns : List Number} {ru : Option U}
    (hn : NumbersOf c num? (numbersOp (σ := σ) num? name
      (fun ks => elementResult (extreme (fun a b => beats a.2 b.2) ks))) els ns ru) (s : σ) :
    ∃ r, ∃ i : ℕ, ∃ e m, call c (numbersOp num? name
        (fun ks => elementResult (extreme (fun a b => beats a.2 b.2) ks))) [x] s = (.ok r, s) ∧
      els[i]? = some e ∧ ns[i]? = some m ∧ IsElement c r e ∧
      (∀ n ∈ ns, beats n m = false) ∧ ∀ j < i, ∀ n, ns[j]? = some n → beats m n = true := by
  obtain ⟨nums', k, hlen, hnl, hcall⟩ := call_numbersOp hc hx hn s
  have hsl : (setElements els nums').length = els.length := setElements_length hlen
  have hzne : (setElements els nums').zip ns ≠ [] := by
    intro h
    have := congrArg List.length h
    simp [List.length_zip, hsl, hnl] at this
    exact hne this
  obtain ⟨i, ⟨e', m⟩, h1, h2, h3, h4⟩ := extreme_spec (beats := fun a b : Opd S U R × Number => beats a.2 b.2)
    (fun a b d => htr a.2 b.2 d.2) (fun a b => hasym a.2 b.2) hzne
  rw [List.getElem?_zip_eq_some] at h1
  obtain ⟨e, he, horig, href⟩ := setElements_get hlen i h1.1
  have hres : elementResult (some (e', m)) = .ok { value := e.value, unit := some e.unit, ref := some e'.ref } := by
    dsimp only at horig
    simp [elementResult, horig]
  rw [hcall, h2, hres]
  refine ⟨_, i, e, m, rfl, he, h1.2, ?_, ?_, ?_⟩
  · have := finish_element (c := c) (op := numbersOp (σ := σ) num? name
      (fun ks => elementResult (extreme (fun a b => beats a.2 b.2) ks))) (k := k) (ru := ru) (u := e.unit)
      (ref := e'.ref) (elements_plain hn (List.mem_of_getElem? he))
    exact ⟨this.1, by rw [← href]; exact this.2.1, this.2.2⟩
  · intro n hn'
    obtain ⟨j, hj⟩ := List.mem_iff_getElem?.mp hn'
    have hjl : j < ns.length := (List.getElem?_eq_some_iff.mp hj).1
    refine h3 ((setElements els nums')[j]'(by omega), n) ?_
    exact List.mem_iff_getElem?.mpr ⟨j, List.getElem?_zip_eq_some.mpr ⟨List.getElem?_eq_getElem _, hj⟩⟩
  · intro j hj n hjn
    have hjl : j < ns.length := (List.getElem?_eq_some_iff.mp hjn).1
    exact h4 j hj ((setElements els nums')[j]'(by omega), n)
      (List.getElem?_zip_eq_some.mpr ⟨List.getElem?_eq_getElem _, hjn⟩)

/-- **C53**: `min` of a non-empty array is one of its elements, with its own value and unit; no
element is less, and it is the first such. -/
theorem C53_min (hc : HasArrays c asBool) {x : Opd S U R} {els : List (Opd S U R)}
    (hx : x.value = .arr els) (hne : els ≠ []) {ns : List Number} {ru : Option U}
    (hn : NumbersOf c num? (opMin (σ := σ) p num?) els ns ru) (s : σ) :
    ∃ r, ∃ i : ℕ, ∃ e m, call c (opMin p num?) [x] s = (.ok r, s) ∧ els[i]? = some e ∧ ns[i]? = some m ∧
      IsElement c r e ∧ (∀ n ∈ ns, n.lt p m = false) ∧ ∀ j < i, ∀ n, ns[j]? = some n → m.lt p n = true :=
  call_extreme hc (beats := fun a b => a.lt p b)
    (by intro a b d; simp only [Number.lt, decide_eq_false_iff_not, not_lt]; exact fun h1 h2 => h2.trans h1)
    (by intro a b; simp only [Number.lt, decide_eq_false_iff_not, not_lt, decide_eq_true_eq]; exact le_of_lt)
    hx hne hn s

/-- **C53**: `max` of a non-empty array is one of its elements, with its own value and unit; no
element is greater, and it is the first such. -/
theorem C53_max (hc : HasArrays c asBool) {x : Opd S U R} {els : List (Opd S U R)}
    (hx : x.value = .arr els) (hne : els ≠ []) {ns : List Number} {ru : Option U}
    (hn : NumbersOf c num? (opMax (σ := σ) p num?) els ns ru) (s : σ) :
    ∃ r, ∃ i : ℕ, ∃ e m, call c (opMax p num?) [x] s = (.ok r, s) ∧ els[i]? = some e ∧ ns[i]? = some m ∧
      IsElement c r e ∧ (∀ n ∈ ns, n.gt p m = false) ∧ ∀ j < i, ∀ n, ns[j]? = some n → m.gt p n = true :=
  call_extreme hc (beats := fun a b => a.gt p b)
    (by intro a b d; simp only [Number.gt, decide_eq_false_iff_not, not_lt]; exact fun h1 h2 => h1.trans h2)
    (by intro a b; simp only [Number.gt, decide_eq_false_iff_not, not_lt, decide_eq_true_eq]; exact le_of_lt)
    hx hne hn s

/-- **C53**: within the precision the element returned by `min` has the least exact value. -/
theorem C53_min_exact (hp : 1 ≤ p) {D : ℤ} (hD : 0 < D) {ns : List Number} {m : Number}
    (hm : m ∈ ns) (hg : ∀ n ∈ ns, ∃ N : ℤ, n.val = (N:ℚ) / D ∧ 10 * |N| < 10 ^ p)
    (h : ∀ n ∈ ns, n.lt p m = false) : ∀ n ∈ ns, m.val ≤ n.val := by
  intro n hn
  obtain ⟨N, hN, hN'⟩ := hg n hn
  obtain ⟨M, hM, hM'⟩ := hg m hm
  have := h n hn
  have key := lt_grid hp hD hN hM (by omega)
  have : ¬ N < M := by rw [← key, this]; simp
  rw [hN, hM]
  have hDq : (0:ℚ) < D := by exact_mod_cast hD
  have : (M:ℚ) ≤ N := by exact_mod_cast not_lt.mp this
  gcongr

/-- **C53**: within the precision the element returned by `max` has the greatest exact value. -/
theorem C53_max_exact (hp : 1 ≤ p) {D : ℤ} (hD : 0 < D) {ns : List Number} {m : Number}
    (hm : m ∈ ns) (hg : ∀ n ∈ ns, ∃ N : ℤ, n.val = (N:ℚ) / D ∧ 10 * |N| < 10 ^ p)
    (h : ∀ n ∈ ns, n.gt p m = false) : ∀ n ∈ ns, n.val ≤ m.val := by
  intro n hn
  obtain ⟨N, hN, hN'⟩ := hg n hn
  obtain ⟨M, hM, hM'⟩ := hg m hm
  have h1 := h n hn
  have key := lt_grid hp hD hM hN (by omega)
  have : m.lt p n = false := by
    unfold Number.gt at h1; unfold Number.lt; simpa using h1
  have : ¬ M < N := by rw [← key, this]; simp
  rw [hN, hM]
  have hDq : (0:ℚ) < D := by exact_mod_cast hD
  have : (N:ℚ) ≤ M := by exact_mod_cast not_lt.mp this
  gcongr

/-- What the statistics on decimals do. -/
theorem call_stat (hc : HasArrays c asBool) {name : String} {f : List ℚ → Option ℚ} {x : Opd S U R}
    {els : List (Opd S U R)} (hx : x.value = .arr els) {ns : List Number} {ru : Option U}
    (hn : NumbersOf c num? (statOp (σ := σ) p num? ofNum name f) els ns ru) {q : ℚ}
    (hf : f (ns.map (fun n => n.toDecimal p)) = some q) (hq : (q.den : ℤ) < 10 ^ p) (s : σ) :
    ∃ r n, call c (statOp p num? ofNum name f) [x] s = (.ok r, s) ∧ IsNumber c ofNum r n ru ∧
      n.Canonical ∧ n.val = q := by
  obtain ⟨nums', k, hlen, hnl, hcall⟩ := call_numbersOp hc hx hn s
  have hz : ((setElements els nums').zip ns).map (fun q => q.2.toDecimal p) =
      ns.map (fun n => n.toDecimal p) := by
    have h1 : (setElements els nums').length = els.length := setElements_length hlen
    have h2 : ((setElements els nums').zip ns).map (fun q => q.2) = ns := List.map_snd_zip (by omega)
    conv_rhs => rw [← h2]
    rw [List.map_map]; rfl
  rw [statOp, hcall, hz, hf]
  simp only [Number.mk'_lit q hq, liftErr, bind, Except.bind, pure, Except.pure]
  exact ⟨_, ⟨q.num, q.den⟩, rfl, finish_number, Number.canonical_ofRat q, Number.val_ofRat q⟩

/-- **C53**: `mean` is the mean of the decimal values, rounded once to the precision, in the
common unit. -/
theorem C53_mean (hc : HasArrays c asBool) {x : Opd S U R} {els : List (Opd S U R)}
    (hx : x.value = .arr els) (hne : els ≠ []) {ns : List Number} {ru : Option U}
    (hn : NumbersOf c num? (opMean (σ := σ) p num? ofNum) els ns ru)
    (hq : ((rnd p (meanOf (ns.map (fun n => n.toDecimal p)))).den : ℤ) < 10 ^ p) (s : σ) :
    ∃ r n, call c (opMean p num? ofNum) [x] s = (.ok r, s) ∧ IsNumber c ofNum r n ru ∧
      n.Canonical ∧ n.val = rnd p (meanOf (ns.map (fun n => n.toDecimal p))) := by
  have hnl : ns.length = els.length := by
    obtain ⟨_, _, hl, hnl, -⟩ := call_numbersOp hc hx hn s; exact hnl
  refine call_stat hc hx hn ?_ hq s
  unfold mean
  rw [if_neg]
  · rfl
  · intro h
    have := congrArg List.length h
    simp [hnl] at this
    exact hne this

/-- **C53**: `mean` is the exact mean when the elements and their mean can be represented. -/
theorem C53_mean_exact (hc : HasArrays c asBool) {x : Opd S U R} {els : List (Opd S U R)}
    (hx : x.value = .arr els) (hne : els ≠ []) {ns : List Number} {ru : Option U}
    (hn : NumbersOf c num? (opMean (σ := σ) p num? ofNum) els ns ru)
    (hfit : ∀ n ∈ ns, Fits p n.val) (hm : Fits p (meanOf (ns.map Number.val)))
    (hd : ((meanOf (ns.map Number.val)).den : ℤ) < 10 ^ p) (s : σ) :
    ∃ r n, call c (opMean p num? ofNum) [x] s = (.ok r, s) ∧ IsNumber c ofNum r n ru ∧
      n.Canonical ∧ n.val = meanOf (ns.map Number.val) := by
  have e : ns.map (fun n => n.toDecimal p) = ns.map Number.val :=
    List.map_congr_left (fun n h => rnd_of_fits (hfit n h))
  have := C53_mean hc hx hne hn (by rw [e, rnd_of_fits hm]; exact hd) s
  rwa [e, rnd_of_fits hm] at this

theorem median_spec {l : List ℚ} (hl : l ≠ []) (hfit : ∀ a ∈ l, ∀ b ∈ l, Fits p (a + b))
    (hfit2 : ∀ a ∈ l, ∀ b ∈ l, Fits p ((a + b) / 2)) : ∃ m, median p l = some m ∧ IsMedian l m := by
  have hperm := List.mergeSort_perm l (fun a b => decide (a ≤ b))
  have hsort : (l.mergeSort (fun a b => decide (a ≤ b))).Pairwise (· ≤ ·) :=
    (List.pairwise_mergeSort (le := fun a b : ℚ => decide (a ≤ b))
      (by intro a b d; simpa using fun h1 h2 => le_trans h1 h2)
      (by intro a b; simpa using le_total a b) l).imp (by simp)
  have hlen := hperm.length_eq
  have hpos : 0 < l.length := List.length_pos_of_ne_nil hl
  unfold median
  dsimp only
  rw [if_neg (by omega)]
  split
  · rename_i hodd
    have hlt : l.length / 2 < (l.mergeSort (fun a b => decide (a ≤ b))).length := by omega
    exact ⟨_, List.getElem?_eq_getElem hlt, _, hperm, hsort, .inl ⟨l.length / 2, by omega,
      List.getElem?_eq_getElem hlt⟩⟩
  · rename_i hodd
    have h1 : l.length / 2 - 1 < (l.mergeSort (fun a b => decide (a ≤ b))).length := by omega
    have h2 : l.length / 2 < (l.mergeSort (fun a b => decide (a ≤ b))).length := by omega
    rw [List.getElem?_eq_getElem h1, List.getElem?_eq_getElem h2]
    dsimp only
    have m1 := hperm.mem_iff.mp (List.getElem_mem h1)
    have m2 := hperm.mem_iff.mp (List.getElem_mem h2)
    rw [rnd_of_fits (hfit _ m1 _ m2), rnd_of_fits (hfit2 _ m1 _ m2)]
    refine ⟨_, rfl, _, hperm, hsort, .inr ⟨l.length / 2 - 1, _, _, by omega,
      List.getElem?_eq_getElem h1, ?_, rfl⟩⟩
    rw [show l.length / 2 - 1 + 1 = l.length / 2 by omega]
    exact List.getElem?_eq_getElem h2

/-- **C53**: `median` is the exact median when the elements, the sum of any two and its half can
be represented. -/
theorem C53_median (hc : HasArrays c asBool) {x : Opd S U R} {els : List (Opd S U R)}
    (hx : x.value = .arr els) (hne : els ≠ []) {ns : List Number} {ru : Option U}
    (hn : NumbersOf c num? (opMedian (σ := σ) p num? ofNum) els ns ru)
    (hfit : ∀ n ∈ ns, Fits p n.val)
    (hsum : ∀ a ∈ ns, ∀ b ∈ ns, Fits p (a.val + b.val) ∧ Fits p ((a.val + b.val) / 2))
    (hd : ∀ a ∈ ns, ∀ b ∈ ns, (((a.val + b.val) / 2).den : ℤ) < 10 ^ p) (s : σ) :
    ∃ r n, call c (opMedian p num? ofNum) [x] s = (.ok r, s) ∧ IsNumber c ofNum r n ru ∧
      n.Canonical ∧ IsMedian (ns.map Number.val) n.val := by
  have hnl : ns.length = els.length := by
    obtain ⟨_, _, hl, hnl, -⟩ := call_numbersOp hc hx hn s; exact hnl
  have e : ns.map (fun n => n.toDecimal p) = ns.map Number.val :=
    List.map_congr_left (fun n h => rnd_of_fits (hfit n h))
  have hl : ns.map Number.val ≠ [] := by
    intro h; have := congrArg List.length h; simp [hnl] at this; exact hne this
  obtain ⟨m, hm, hmed⟩ := median_spec (p := p) hl
    (by simp only [List.mem_map]; rintro _ ⟨a, ha, rfl⟩ _ ⟨b, hb, rfl⟩; exact (hsum a ha b hb).1)
    (by simp only [List.mem_map]; rintro _ ⟨a, ha, rfl⟩ _ ⟨b, hb, rfl⟩; exact (hsum a ha b hb).2)
  have hden : (m.den : ℤ) < 10 ^ p := by
    obtain ⟨d, hperm, -, ⟨k, -, hk⟩ | ⟨k, a, b, -, ha, hb, rfl⟩⟩ := hmed
    · obtain ⟨a, ha, rfl⟩ := List.mem_map.mp (hperm.mem_iff.mp (List.mem_of_getElem? hk))
      simpa using hd a ha a ha
    · obtain ⟨a, ha', rfl⟩ := List.mem_map.mp (hperm.mem_iff.mp (List.mem_of_getElem? ha))
      obtain ⟨b, hb', rfl⟩ := List.mem_map.mp (hperm.mem_iff.mp (List.mem_of_getElem? hb))
      exact hd a ha' b hb'
  obtain ⟨r, n, h1, h2, h3, h4⟩ := call_stat hc hx hn (by rw [e]; exact hm) hden s
  exact ⟨r, n, h1, h2, h3, by rw [h4]; exact hmed⟩

theorem mode_spec {l : List ℚ} (hl : l ≠ []) : ∃ m, mode l = some m ∧ IsMode l m := by
  obtain ⟨i, m, h1, h2, h3, h4⟩ := extreme_spec (beats := fun a b : ℚ => decide (l.count b < l.count a))
    (by intro a b d; simp only [decide_eq_false_iff_not, not_lt]; exact fun h1 h2 => h1.trans h2)
    (by intro a b; simp only [decide_eq_false_iff_not, not_lt, decide_eq_true_eq]; exact le_of_lt) hl
  refine ⟨m, h2, l.take i, l.drop (i + 1), ?_, ?_, ?_⟩
  · have hi := List.getElem?_eq_some_iff.mp h1
    obtain ⟨hi, rfl⟩ := hi
    rw [← List.drop_eq_getElem_cons hi, List.take_append_drop]
  · intro x hx; simpa using h3 x hx
  · intro x hx
    obtain ⟨j, hj⟩ := List.mem_iff_getElem?.mp hx
    have hj' := (List.getElem?_eq_some_iff.mp hj).1
    rw [List.length_take] at hj'
    rw [List.getElem?_take_of_lt (by omega)] at hj
    simpa using h4 j (by omega) x hj

/-- **C53**: `mode` is the most frequent value, the first of them in the array. -/
theorem C53_mode (hc : HasArrays c asBool) {x : Opd S U R} {els : List (Opd S U R)}
    (hx : x.value = .arr els) (hne : els ≠ []) {ns : List Number} {ru : Option U}
    (hn : NumbersOf c num? (opMode (σ := σ) p num? ofNum) els ns ru)
    (hfit : ∀ n ∈ ns, Fits p n.val ∧ (n.val.den : ℤ) < 10 ^ p) (s : σ) :
    ∃ r n, call c (opMode p num? ofNum) [x] s = (.ok r, s) ∧ IsNumber c ofNum r n ru ∧
      n.Canonical ∧ IsMode (ns.map Number.val) n.val := by
  have hnl : ns.length = els.length := by
    obtain ⟨_, _, hl, hnl, -⟩ := call_numbersOp hc hx hn s; exact hnl
  have e : ns.map (fun n => n.toDecimal p) = ns.map Number.val :=
    List.map_congr_left (fun n h => rnd_of_fits (hfit n h).1)
  have hl : ns.map Number.val ≠ [] := by
    intro h; have := congrArg List.length h; simp [hnl] at this; exact hne this
  obtain ⟨m, hm, hmode⟩ := mode_spec hl
  have hmem : m ∈ ns.map Number.val := by
    obtain ⟨a, b, hab, -⟩ := hmode; rw [hab]; simp
  obtain ⟨n₀, hn₀, rfl⟩ := List.mem_map.mp hmem
  obtain ⟨r, n, h1, h2, h3, h4⟩ := call_stat hc hx hn (by rw [e]; exact hm) (hfit n₀ hn₀).2 s
  exact ⟨r, n, h1, h2, h3, by rw [h4]; exact hmode⟩

/-- **C53**: `min`, `max`, `mean`, `median` and `mode` of the empty array raise; its sum is 0. -/
theorem C53_empty (hc : HasArrays c asBool) (hp : 1 ≤ p) {x : Opd S U R} (hx : x.value = .arr [])
    (hz : ∀ a b, ∀ f, c.normalise = some f → f [] a b = .ok ([], none)) (s : σ) :
    (∀ op ∈ [opMin p num?, opMax p num?, opMean p num? ofNum, opMedian p num? ofNum, opMode p num? ofNum],
      ∃ e, call c op [x] s = (.error e, s)) ∧
    call c (opSum p num? ofNum) [x] s = (.ok ⟨.sc (ofNum ⟨0, 1⟩), none, none, none⟩, s) := by
  have key : ∀ name (f : List (Opd S U R × Number) → Except Raise (OpResult S U R)),
      NumbersOf c num? (numbersOp (σ := σ) num? name f) [] [] none := by
    intro name f
    refine ⟨[], [], rfl, ?_, rfl, rfl⟩
    unfold normed
    cases hno : c.normalise with
    | none => rfl
    | some g => dsimp only; split <;> simp [hz _ _ g hno]
  constructor
  · intro op hop
    simp only [List.mem_cons, List.not_mem_nil, or_false] at hop
    rcases hop with rfl | rfl | rfl | rfl | rfl
    all_goals
      obtain ⟨nums', k, hlen, -, hcall⟩ := call_numbersOp hc hx (key _ _) s
      obtain rfl : nums' = [] := List.length_eq_zero_iff.mp hlen
      exact ⟨_, hcall⟩
  · obtain ⟨nums, nums', h1, h2, h3, -⟩ := key "sum" (fun ks => do
      let t ← liftErr (do sumLoop p (← Number.ofInt p 0) (ks.map (·.2)))
      return { value := .sc (ofNum t) })
    obtain rfl : nums' = [] := List.length_eq_zero_iff.mp h3
    simp only [elementNumbers, Except.ok.injEq] at h1
    subst h1
    rw [opSum, call_numbers hc rfl rfl rfl rfl rfl hx (nums := []) (nums' := []) rfl h2]
    simp [numbersOp, pureRef, arrayAt, setElements, keyed, bind, Except.bind, Number.ofInt_eq hp,
      sumLoop, liftErr, pure, Except.pure, finishResult]

end

/-! ## Non-vacuity -/

/-- Scalars for the examples: numbers with a number type, booleans and texts. -/
inductive AS where
  | n (x : Number) (k : Option ℕ)
  | b (v : Bool)
  | t (s : List Char)
  deriving DecidableEq

def AS.asBool : AS → Option Bool
  | .b v => some v
  | _ => none

def AS.num? : AS → Option Number
  | .n x _ => some x
  | _ => none

def AS.ofNum (x : Number) : AS := .n x none

/-- Lengths in metres (`false`) and kilometres (`true`), brought to metres. -/
def toMetres (l : List (AS × Option Bool)) (_ _ : Bool) :
    Except Raise (List (AS × Option Bool) × Option Bool) :=
  if l.all (fun v => v.2 = none) then .ok (l, none)
  else .ok (l.map (fun v => match v with
    | (.n x k, some true) => (.n ⟨x.num * 1000, x.den⟩ k, some false)
    | v => v), some false)

/-- A calculator without validators. -/
def bareCalc : Calc AS Bool Unit ℕ where
  validator := fun _ => none
  number := fun x => match x with | .n a k => some (.n a k) | _ => none
  isNumber := fun x => match x with | .n _ _ => true | _ => false
  cast := fun x => match x with | .n _ k => k | _ => none
  setCast := fun k x => match x with | .n a _ => .n a (some k) | x => x
  normalise := some toMetres
  toString := fun _ => .ok "x"

/-- The validators; that of arrays looks up the others, never with a sub-type. -/
def arrValidator (array : Opd AS Bool Unit → Option String → Except Raise Bool) (t : String) :
    Option (Opd AS Bool Unit → Option String → Except Raise Bool) :=
  if t = "array" then some array
  else if t = "number" then some (validateNumber bareCalc)
  else if t = "boolean" then some (Boolean.validateBoolean AS.asBool)
  else none

/-- A calculator with numbers, booleans and arrays. -/
def arrCalc : Calc AS Bool Unit ℕ :=
  { bareCalc with
    validator := arrValidator (validateArray { bareCalc with
      validator := arrValidator (fun x _ => validateArray bareCalc x none) }) }

theorem arrCalc_has : HasArrays arrCalc AS.asBool where
  array := by
    show some _ = some _
    congr 1
    funext x sub
    unfold validateArray
    cases x.value with
    | sc v => rfl
    | exc e => rfl
    | arr els =>
      cases sub with
      | none => rfl
      | some t =>
        dsimp only
        induction els with
        | nil => rfl
        | cons e es ih =>
          unfold validateArray.go
          rw [ih]
          simp only [arrCalc, arrValidator]
          by_cases h : t = "array"
          · simp [h, validateArray]
          · simp [h]
  number := by
    show some _ = some _
    rfl
  boolean := rfl

/-- A number without unit. -/
def numV (z : ℤ) : Opd AS Bool Unit := ⟨.sc (.n ⟨z, 1⟩ none), none, none, none⟩
/-- A length. -/
def len (z : ℤ) (km : Bool) : Opd AS Bool Unit := ⟨.sc (.n ⟨z, 1⟩ none), some km, none, none⟩
/-- A truth value. -/
def flag (b : Bool) : Opd AS Bool Unit := ⟨.sc (.b b), none, none, none⟩

/-- The numbers `3, 1, 2`. -/
theorem numbers312 {name : String} {f} : NumbersOf arrCalc AS.num?
    (numbersOp (σ := ℕ) AS.num? name f) [numV 3, numV 1, numV 2] [⟨3, 1⟩, ⟨1, 1⟩, ⟨2, 1⟩] none :=
  ⟨_, _, rfl, rfl, rfl, rfl⟩

/-- The lengths `700 m, 1 km, 300 m`, in metres. -/
theorem lengths {name : String} {f} : NumbersOf arrCalc AS.num?
    (numbersOp (σ := ℕ) AS.num? name f) [len 700 false, len 1 true, len 300 false]
    [⟨700, 1⟩, ⟨1000, 1⟩, ⟨300, 1⟩] (some false) :=
  ⟨_, _, rfl, rfl, rfl, rfl⟩

example : call arrCalc opConcat [arrayOf [numV 1], arrayOf [flag true, numV 2]] 0 =
    (.ok (arrayOf [numV 1, flag true, numV 2]), 0) :=
  C52_concat (a := [numV 1]) (b := [flag true, numV 2]) arrCalc_has rfl rfl (by simp [Plain, numV]) (by simp [Plain, numV, flag]) 0

example : call arrCalc opReverse [arrayOf [numV 1, flag true]] 0 = (.ok (arrayOf [flag true, numV 1]), 0) :=
  C52_reverse (a := [numV 1, flag true]) arrCalc_has rfl (by simp [Plain, numV, flag]) 0

example : ∃ r, call arrCalc opReverse [arrayOf [numV 1, numV 2]] 0 = (.ok r, 0) ∧
    call arrCalc opReverse [r] 0 = (.ok (arrayOf [numV 1, numV 2]), 0) :=
  C52_reverse_involution arrCalc_has rfl (by simp [Plain, numV]) 0

example : call arrCalc (opCount 30 AS.ofNum) [arrayOf [numV 1, flag true]] 0 = (.ok (numV 2), 0) :=
  C52_count (p := 30) (a := [numV 1, flag true]) (ofNum := AS.ofNum) arrCalc_has (by norm_num) rfl 0

example : call arrCalc (opFilter AS.asBool) [arrayOf [numV 1, numV 2, numV 3],
    arrayOf [flag true, flag false, flag true]] 0 = (.ok (arrayOf [numV 1, numV 3]), 0) :=
  C52_filter (a := [numV 1, numV 2, numV 3]) (fs := [flag true, flag false, flag true]) arrCalc_has rfl rfl
    (by simp [Plain, numV])
    (bs := [true, false, true]) (by simp [Flags, flag, AS.asBool]) (by simp) 0

example : ∃ e, call arrCalc (opFilter AS.asBool) [arrayOf [numV 1],
    arrayOf [flag true, flag true]] 0 = (.error e, 0) :=
  C52_filter_too_many arrCalc_has rfl rfl
    (bs := [true, true]) (by simp [Flags, flag, AS.asBool]) (k := 1) rfl (by simp) 0

theorem toInt_30 (z : ℤ) (h : |z| < 10 ^ 30) : (⟨z, 1⟩ : Number).toInt 30 = z := by
  unfold Number.toInt
  simp [Number.toDecimal_int h, truncQ_intCast]

/-- `element([5, 6, 7], 2)` is 6. -/
example : ∃ r, call arrCalc (opElement 30 AS.num?) [arrayOf [numV 5, numV 6, numV 7], numV 2] 0 = (.ok r, 0) ∧
    IsElement arrCalc r (numV 6) :=
  C52_element arrCalc_has rfl rfl rfl rfl (i := 1) (by rw [toInt_30 _ (by norm_num)]; rfl) rfl
    (by simp [numV]) 0

/-- `element([5, 6, 7], 0)` is 7. -/
example : ∃ r, call arrCalc (opElement 30 AS.num?) [arrayOf [numV 5, numV 6, numV 7], numV 0] 0 = (.ok r, 0) ∧
    IsElement arrCalc r (numV 7) :=
  C52_element_violation arrCalc_has rfl rfl rfl rfl (i := 0) (by rw [toInt_30 _ (by norm_num)]; rfl)
    (by simp) rfl (by simp [numV]) 0

example : ∃ e, call arrCalc (opElement 30 AS.num?) [arrayOf [numV 5, numV 6, numV 7], numV 4] 0 = (.error e, 0) :=
  C52_element_outside arrCalc_has rfl rfl rfl rfl (by rw [toInt_30 _ (by norm_num)]; left; simp) 0

/-- `sort([3, 1, 2])` meets the hypotheses of `C52_sort`; so do lengths in different units. -/
example := C52_sort (p := 30) arrCalc_has (x := arrayOf [numV 3, numV 1, numV 2]) rfl (by simp [Plain, numV]) numbers312 0
example := C52_sort (p := 30) arrCalc_has (x := arrayOf [len 700 false, len 1 true, len 300 false]) rfl
  (by simp [Plain, len]) lengths 0

/-- The sum of `700 m, 1 km, 300 m` is 2000 m. -/
example : ∃ r n, call arrCalc (opSum 30 AS.num? AS.ofNum)
    [arrayOf [len 700 false, len 1 true, len 300 false]] 0 = (.ok r, 0) ∧
    IsNumber arrCalc AS.ofNum r n (some false) ∧ n.Canonical ∧ n.val = 2000 := by
  obtain ⟨r, n, h1, h2, h3, h4⟩ := C53_sum (p := 30) (ofNum := AS.ofNum) arrCalc_has (by norm_num)
    (x := arrayOf [len 700 false, len 1 true, len 300 false]) rfl lengths (D := 1)
    (Ns := [700, 1000, 300]) (by norm_num)
    (.cons ⟨Number.canonical_int _, by norm_num [Number.val]⟩
      (.cons ⟨Number.canonical_int _, by norm_num [Number.val]⟩
        (.cons ⟨Number.canonical_int _, by norm_num [Number.val]⟩ .nil))) (by norm_num) 0
  exact ⟨r, n, h1, h2, h3, by rw [h4]; norm_num [Number.val]⟩

/-- The least of `700 m, 1 km, 300 m` and the greatest, with their own units. -/
example := C53_min (p := 30) arrCalc_has (x := arrayOf [len 700 false, len 1 true, len 300 false]) rfl
  (by simp) lengths 0
example := C53_max (p := 30) arrCalc_has (x := arrayOf [len 700 false, len 1 true, len 300 false]) rfl
  (by simp) lengths 0

example : (match (call arrCalc (opMax 30 AS.num?)
      [arrayOf [len 700 false, len 1 true, len 300 false]] 0).1 with
    | .ok ⟨.sc (.n x k), u, _, _⟩ => decide (x = ⟨1, 1⟩ ∧ k = none ∧ u = some true)
    | _ => false) = true := by decide +kernel

/-- The mean of `3, 1, 2` is 2. -/
example : ∃ r n, call arrCalc (opMean 30 AS.num? AS.ofNum) [arrayOf [numV 3, numV 1, numV 2]] 0 = (.ok r, 0) ∧
    IsNumber arrCalc AS.ofNum r n none ∧ n.Canonical ∧ n.val = 2 := by
  have e : Spec.meanOf ([⟨3, 1⟩, ⟨1, 1⟩, ⟨2, 1⟩].map Number.val) = 2 := by
    norm_num [Spec.meanOf, Number.val]
  have := C53_mean_exact (p := 30) (ofNum := AS.ofNum) arrCalc_has (x := arrayOf [numV 3, numV 1, numV 2]) rfl
    (by simp) numbers312
    (by simp only [List.mem_cons, List.not_mem_nil, or_false]
        rintro n (rfl | rfl | rfl) <;> rw [Number.val_int] <;> exact fits_int (by norm_num))
    (by rw [e]; exact_mod_cast fits_int (n := 2) (by norm_num)) (by rw [e]; norm_num) 0
  rwa [e] at this

theorem fits_half (z : ℤ) (h : 5 * |z| < 10 ^ 30) : Fits 30 ((z:ℚ) / 2) :=
  ⟨5 * z, -1, by push_cast; rw [zpow_neg_one]; ring, by rw [abs_mul]; simpa using h⟩

/-- `3, 1, 2` meet the hypotheses of `C53_median` and `C53_mode`. -/
example : ∃ r n, call arrCalc (opMedian 30 AS.num? AS.ofNum) [arrayOf [numV 3, numV 1, numV 2]] 0 = (.ok r, 0) ∧
    IsNumber arrCalc AS.ofNum r n none ∧ n.Canonical ∧
    IsMedian ([⟨3, 1⟩, ⟨1, 1⟩, ⟨2, 1⟩].map Number.val) n.val := by
  have hv : ∀ n ∈ ([⟨3, 1⟩, ⟨1, 1⟩, ⟨2, 1⟩] : List Number), ∃ z : ℤ, n = ⟨z, 1⟩ ∧ |z| ≤ 3 := by
    simp only [List.mem_cons, List.not_mem_nil, or_false]
    rintro n (rfl | rfl | rfl)
    · exact ⟨3, rfl, by norm_num⟩
    · exact ⟨1, rfl, by norm_num⟩
    · exact ⟨2, rfl, by norm_num⟩
  refine C53_median (p := 30) (ofNum := AS.ofNum) arrCalc_has (x := arrayOf [numV 3, numV 1, numV 2]) rfl
    (by simp) numbers312 ?_ ?_ ?_ 0
  · intro n hn
    obtain ⟨z, rfl, hz⟩ := hv n hn
    rw [Number.val_int]
    exact fits_int (lt_of_le_of_lt hz (by norm_num))
  · intro a ha b hb
    obtain ⟨x, rfl, hx⟩ := hv a ha
    obtain ⟨y, rfl, hy⟩ := hv b hb
    have hxy : |x + y| ≤ 6 := (abs_add_le x y).trans (by omega)
    rw [Number.val_int, Number.val_int, ← Int.cast_add]
    exact ⟨fits_int (lt_of_le_of_lt hxy (by norm_num)), fits_half _ (by norm_num; omega)⟩
  · simp only [List.mem_cons, List.not_mem_nil, or_false]
    rintro a (rfl | rfl | rfl) b (rfl | rfl | rfl) <;> norm_num [Number.val] <;> decide +kernel

example := C53_mode (p := 30) (ofNum := AS.ofNum) arrCalc_has (x := arrayOf [numV 3, numV 1, numV 2]) rfl
  (by simp) numbers312
  (by simp only [List.mem_cons, List.not_mem_nil, or_false]
      rintro n (rfl | rfl | rfl) <;> rw [Number.val_int] <;>
        exact ⟨fits_int (by norm_num), by norm_num⟩) 0

example := C53_empty (p := 30) (num? := AS.num?) (ofNum := AS.ofNum) arrCalc_has (by norm_num)
  (x := arrayOf []) rfl (by rintro a b f ⟨⟩; rfl) (0 : ℕ)

end MC.Props
