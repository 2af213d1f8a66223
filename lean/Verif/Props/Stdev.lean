import Verif.Model.Stdev
import Verif.Spec.Stdev
import Verif.Props.Stats

/-! # C53: the standard deviation -/

namespace MC.Props
open MC Arrays Spec

theorem sum_squares (l : List ℚ) (a : ℚ) :
    (l.map (fun x => (x - a) ^ 2)).sum = (l.map (fun x => x * x)).sum - 2 * a * l.sum + l.length * a ^ 2 := by
  induction l with
  | nil => simp
  | cons x l ih =>
    simp only [List.map_cons, List.sum_cons, ih, List.length_cons]
    push_cast
    ring

/-- What the library computes is the sum of the squared distances from the mean. -/
theorem squares_eq {l : List ℚ} (h : l ≠ []) : squares l = (l.map (fun x => (x - meanOf l) ^ 2)).sum := by
  have hl : (l.length : ℚ) ≠ 0 := by simpa using h
  rw [sum_squares]
  unfold squares meanOf
  field_simp
  ring

theorem stdev_eq (root : ℚ → ℚ) {l : List ℚ} (h : 2 ≤ l.length) :
    stdev root l = some (if varianceOf l = 0 then 0 else root (varianceOf l)) := by
  have hv : squares l / ((l.length - 1 : ℕ) : ℚ) = varianceOf l := by
    rw [squares_eq (by intro h0; rw [h0] at h; simp at h)]
    unfold varianceOf
    rw [Nat.cast_sub (by omega), Nat.cast_one]
  unfold stdev
  rw [if_neg (by omega), hv]
  dsimp only
  split <;> simp_all

theorem variance_nonneg {l : List ℚ} (h : 2 ≤ l.length) : 0 ≤ varianceOf l := by
  refine div_nonneg (List.sum_nonneg ?_) (by have : (2 : ℚ) ≤ l.length := by exact_mod_cast h
                                             linarith)
  intro x hx
  obtain ⟨y, -, rfl⟩ := List.mem_map.1 hx
  exact sq_nonneg _

theorem nearest_zero (p : ℕ) : IsNearestRoot p 0 0 := by
  refine ⟨le_refl _, ⟨0, 0, by simp, by positivity⟩, fun g _ => ?_⟩
  simp

theorem nearest_square {p : ℕ} {q r : ℚ} (hq : 0 ≤ q) (hr : Representable p q) (h : IsNearestRoot p (q ^ 2) r) : r = q := by
  have := h.2.2 q hr
  have e : Real.sqrt ((q ^ 2 : ℚ) : ℝ) = (q : ℝ) := by
    push_cast
    exact Real.sqrt_sq (by exact_mod_cast hq)
  rw [e, sub_self, abs_zero, abs_nonpos_iff, sub_eq_zero] at this
  exact_mod_cast this.symm

section
variable {S U R K σ : Type} {c : Calc S U R K} {asBool : S → Option Bool}
  {p : ℕ} {num? : S → Option Number} {ofNum : Number → S} {root : ℚ → ℚ}

theorem number_count (hc : HasArrays c asBool) {name : String} {f : List ℚ → Option ℚ} {x : Opd S U R} {els : List (Opd S U R)}
    (hx : x.value = .arr els) {ns : List Number} {ru : Option U}
    (hn : NumbersOf c num? (statOp (σ := σ) p num? ofNum name f) els ns ru) (s : σ) : ns.length = els.length := by
  obtain ⟨_, _, _, hnl, -⟩ := call_numbersOp hc hx hn s; exact hnl

/-- **C53**: `stdev` is the number of `p` digits nearest to the square root of the variance of the elements, in
the common unit, where the square root of the library is the nearest one. -/
theorem C53_stdev (hc : HasArrays c asBool) {x : Opd S U R} {els : List (Opd S U R)}
    (hx : x.value = .arr els) (h2 : 2 ≤ els.length) {ns : List Number} {ru : Option U}
    (hn : NumbersOf c num? (opStdev (σ := σ) p num? ofNum root) els ns ru) (hfit : ∀ n ∈ ns, Representable p n.val)
    (hroot : ∀ v, v = varianceOf (ns.map Number.val) → 0 < v → IsNearestRoot p v (root v))
    (hd : ∀ r, IsNearestRoot p (varianceOf (ns.map Number.val)) r → (r.den : ℤ) < 10 ^ p) (s : σ) :
    ∃ r n, call c (opStdev p num? ofNum root) [x] s = (.ok r, s) ∧ IsNumber c ofNum r n ru ∧
      n.Canonical ∧ IsNearestRoot p (varianceOf (ns.map Number.val)) n.val := by
  have hnl := number_count hc hx hn s
  have e : ns.map (fun n => n.toDecimal p) = ns.map Number.val :=
    List.map_congr_left (fun n h => rnd_of_fits (hfit n h))
  have hl : 2 ≤ (ns.map Number.val).length := by simp; omega
  have key : IsNearestRoot p (varianceOf (ns.map Number.val))
      (if varianceOf (ns.map Number.val) = 0 then 0 else root (varianceOf (ns.map Number.val))) := by
    split
    · rename_i h0
      rw [h0]
      exact nearest_zero p
    · rename_i h0
      exact hroot _ rfl (lt_of_le_of_ne (variance_nonneg hl) (Ne.symm h0))
  obtain ⟨r, n, c1, c2, c3, c4⟩ := call_stat hc hx hn (by rw [e]; exact stdev_eq root hl) (hd _ key) s
  exact ⟨r, n, c1, c2, c3, by rw [c4]; exact key⟩

/-- **C53**: `stdev` is the exact standard deviation when that can be represented. -/
theorem C53_stdev_exact (hc : HasArrays c asBool) {x : Opd S U R} {els : List (Opd S U R)}
    (hx : x.value = .arr els) (h2 : 2 ≤ els.length) {ns : List Number} {ru : Option U}
    (hn : NumbersOf c num? (opStdev (σ := σ) p num? ofNum root) els ns ru) (hfit : ∀ n ∈ ns, Representable p n.val)
    (hroot : ∀ v, v = varianceOf (ns.map Number.val) → 0 < v → IsNearestRoot p v (root v)) {q : ℚ} (hq : 0 ≤ q) (hr : Representable p q)
    (hd : (q.den : ℤ) < 10 ^ p) (hv : varianceOf (ns.map Number.val) = q ^ 2) (s : σ) :
    ∃ r n, call c (opStdev p num? ofNum root) [x] s = (.ok r, s) ∧ IsNumber c ofNum r n ru ∧
      n.Canonical ∧ n.val = q := by
  obtain ⟨r, n, c1, c2, c3, c4⟩ := C53_stdev hc hx h2 hn hfit hroot
    (fun r h => by rw [hv] at h; rw [nearest_square hq hr h]; exact hd) s
  rw [hv] at c4
  exact ⟨r, n, c1, c2, c3, nearest_square hq hr c4⟩

/-- **C53**: fewer than two numbers have no standard deviation. -/
theorem C53_stdev_few (hc : HasArrays c asBool) {x : Opd S U R} {els : List (Opd S U R)}
    (hx : x.value = .arr els) (h2 : els.length < 2) {ns : List Number} {ru : Option U}
    (hn : NumbersOf c num? (opStdev (σ := σ) p num? ofNum root) els ns ru) (s : σ) :
    ∃ e, call c (opStdev p num? ofNum root) [x] s = (.error e, s) := by
  obtain ⟨nums', k, hlen, hnl, hcall⟩ := call_numbersOp hc hx hn s
  have hz : stdev root (((setElements els nums').zip ns).map (fun q => q.2.toDecimal p)) = none := by
    unfold stdev
    rw [if_pos]
    simp only [List.length_map, List.length_zip]
    omega
  exact ⟨_, by rw [opStdev, statOp, hcall, hz]⟩
end

/-! ### Examples -/

/-- The standard deviation of `3, 1, 2` is 1. -/
example (root : ℚ → ℚ) (h1 : root 1 = 1) :
    ∃ r n, call arrCalc (opStdev 30 AS.num? AS.ofNum root) [arrayOf [numV 3, numV 1, numV 2]] 0 = (.ok r, 0) ∧
      IsNumber arrCalc AS.ofNum r n none ∧ n.Canonical ∧ n.val = 1 := by
  have e : varianceOf ([⟨3, 1⟩, ⟨1, 1⟩, ⟨2, 1⟩].map Number.val) = 1 := by norm_num [varianceOf, meanOf, Number.val]
  refine C53_stdev_exact arrCalc_has rfl (by simp) numbers312 ?_ ?_ (by norm_num) ⟨1, 0, by norm_num, by norm_num⟩
    (by norm_num) (by rw [e]; norm_num) 0
  · simp only [List.mem_cons, List.not_mem_nil, or_false]
    rintro n (rfl | rfl | rfl) <;> rw [Number.val_int] <;> exact fits_int (by norm_num)
  · rw [e]
    rintro v rfl -
    rw [h1]
    exact ⟨by norm_num, ⟨1, 0, by norm_num, by norm_num⟩, fun g _ => by simp⟩

example (root : ℚ → ℚ) : ∃ e, call arrCalc (opStdev 30 AS.num? AS.ofNum root) [arrayOf [numV 3]] 0 = (.error e, 0) :=
  C53_stdev_few arrCalc_has rfl (by simp) (ns := [⟨3, 1⟩]) (ru := none) ⟨_, _, rfl, rfl, rfl, rfl⟩ 0

end MC.Props
