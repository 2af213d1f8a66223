import Verif.Lemmas.QuantityOps
import Verif.Lemmas.RefineText
import Verif.Props.Arithmetic
import Verif.Props.UnitMeaning
import Verif.Spec.UnitDemo

/-! # C80: answers with units are physically right -/

set_option linter.unusedSectionVars false

namespace MC.Props
open MC MC.Spec MC.Unit MC.Unit.Spec
open MC.Parse (Text Cache shippedCfg)

section
variable {U D K σ : Type} [DecidableEq U] [DecidableEq D] [Field K] [LinearOrder K] [IsStrictOrderedRing K]
variable {pw : K → ℚ → K} {N : Unit.Norm U D K} {t : D} {asRat : K → Option ℚ} {fuel : ℕ}
  {rest : String → List (QVal U K) → Act σ (QVal U K)}

theorem stands_fine {v : QVal U K} {w : Quantity D K} (h : StandsFor pw N t v w) : v.getErr = none := by
  cases h <;> rfl

theorem stands_isUnit {v : QVal U K} {w : Quantity D K} (h : StandsFor pw N t v w) : v.isUnit = w.isUnit := by
  cases h <;> rfl

theorem callQ_follows {o : String} (ho : o ∈ quantityOps) {vs : List (QVal U K)} {ws : List (Quantity D K)}
    (hv : List.Forall₂ (StandsFor pw N t) vs ws) {r : Option (Except Raise (QVal U K))}
    (ha : applyQ pw N asRat fuel o vs = some r) {w : Quantity D K}
    (hr : ∀ v, r = some (.ok v) → StandsFor pw N t v w) (s : σ) :
    (∃ v, callQ pw N asRat fuel rest o vs s = (.ok v, s) ∧ StandsFor pw N t v w) ∨
      ∃ e s', callQ pw N asRat fuel rest o vs s = (.error e, s') := by
  have hf : vs.find? (fun x => x.getErr.isSome) = none := by
    rw [List.find?_eq_none]
    intro x hx
    have : ∀ (vs : List (QVal U K)) (ws : List (Quantity D K)), List.Forall₂ (StandsFor pw N t) vs ws →
        ∀ x ∈ vs, x.getErr = none := by
      intro vs ws h
      induction h with
      | nil => intro x hx; cases hx
      | cons h _ ih =>
        intro x hx
        rcases List.mem_cons.1 hx with rfl | hx
        · exact stands_fine h
        · exact ih x hx
    rw [this _ _ hv x hx]
    simp
  unfold callQ
  rw [if_pos ho, hf]
  simp only [ha]
  match r, hr with
  | none, _ => exact .inr ⟨_, _, rfl⟩
  | some (.ok v), hr => exact .inl ⟨v, rfl, hr v rfl⟩
  | some (.error (.calc m true)), _ => exact .inr ⟨_, _, rfl⟩
  | some (.error (.calc m false)), _ => exact .inr ⟨_, _, rfl⟩
  | some (.error (.exec e)), _ => exact .inr ⟨_, _, rfl⟩
  | some (.error (.py e)), _ => exact .inr ⟨_, _, rfl⟩

theorem asArg_some {r : Option (Except Raise (Arg U K))} {v : QVal U K} (h : asArg r = some (.ok v)) :
    ∃ a, r = some (.ok a) ∧ v = .arg a := by
  match r, h with
  | some (.ok a), h =>
    simp only [asArg, Option.map_some, Except.map, Option.some.injEq, Except.ok.injEq] at h
    exact ⟨a, rfl, h.symm⟩

theorem two_rel {α β : Type} {R : α → β → Prop} {vs : List α} {x y : β} (h : List.Forall₂ R vs [x, y]) :
    ∃ a b, vs = [a, b] ∧ R a x ∧ R b y := by
  cases h with
  | cons h1 h2 =>
    cases h2 with
    | cons h2 h3 =>
      cases h3
      exact ⟨_, _, rfl, h1, h2⟩

/-- Sums and differences. -/
theorem combine_case (f : K → K → K) (g : K × Option (PL U) → K × Option (PL U) → Option (Except Raise (Arg U K)))
    (hn : ∀ a b, g (a, none) (b, none) = some (.ok (.num (f a b) none)))
    (hg : ∀ x y q q' (d d' : D → ℚ), Worth pw N t x q d → Worth pw N t y q' d' → ∀ res, g x y = some (.ok res) →
      ∃ z, res = .num z.1 z.2 ∧ Worth pw N t z (f q q') d)
    {a b : QVal U K} {x y w : Quantity D K} (ha : StandsFor pw N t a x) (hb : StandsFor pw N t b y)
    (h : combine f x y = .ok w) :
    ∃ v u v' u', a = .arg (.num v u) ∧ b = .arg (.num v' u') ∧
      ∀ res, asArg (g (v, u) (v', u')) = some (.ok res) → StandsFor pw N t res w := by
  unfold combine at h
  split at h
  · cases h
    cases ha
    cases hb
    refine ⟨_, _, _, _, rfl, rfl, ?_⟩
    intro res hres
    obtain ⟨r, h1, rfl⟩ := asArg_some hres
    rw [hn] at h1
    cases h1
    exact .number _
  · split at h
    · rename_i h1 h2
      split at h
      · cases h
        obtain ⟨v, u, rfl, h3⟩ := stands_measure ha h1
        obtain ⟨v', u', rfl, h4⟩ := stands_measure hb h2
        refine ⟨_, _, _, _, rfl, rfl, ?_⟩
        intro res hres
        obtain ⟨r, h1, rfl⟩ := asArg_some hres
        obtain ⟨z, rfl, h5⟩ := hg _ _ _ _ _ _ h3 h4 _ h1
        exact .amount h5
      · cases h
    · cases h

theorem opMultiply_split {a b : Arg U K} (h : ¬ ∃ l m, a = .unit l ∧ b = .unit m) :
    opMultiply a b = opMultiply (.num a.split.1 a.split.2) (.num b.split.1 b.split.2) := by
  cases a <;> cases b <;> first | rfl | exact absurd ⟨_, _, rfl, rfl⟩ h

theorem opDivide_split {a b : Arg U K} (h : ¬ ∃ l m, a = .unit l ∧ b = .unit m) :
    opDivide a b = opDivide (.num a.split.1 a.split.2) (.num b.split.1 b.split.2) := by
  cases a <;> cases b <;> first | rfl | exact absurd ⟨_, _, rfl, rfl⟩ h

theorem newList_worth (hL : Lawful pw N) {a b l : PL U} {q q' : K} {d d' : D → ℚ}
    (ha : Worth pw N t (1, some a) q d) (hb : Worth pw N t (1, some b) q' d')
    (h : newList [(a, 1), (b, 1)] = some l) : l ≠ [] ∧ Worth pw N t (1, some l) (q * q') (d + d') := by
  obtain ⟨z, h1, h2⟩ := mul_worth hL ha hb
  simp only [opMultiply, Arg.split, one_mul, h, Except.ok.injEq, Arg.num.injEq] at h1
  have e : z = (1, some l) := Prod.ext h1.1.symm h1.2.symm
  rw [e] at h2
  exact ⟨(checkEmpty_some h).2, h2⟩

theorem newList_worth_div (hL : Lawful pw N) {a b l : PL U} {q q' : K} {d d' : D → ℚ}
    (ha : Worth pw N t (1, some a) q d) (hb : Worth pw N t (1, some b) q' d')
    (h : newList [(a, 1), (b, -1)] = some l) : l ≠ [] ∧ Worth pw N t (1, some l) (q / q') (d - d') := by
  have hd : opDivide (.num (1 : K) (some a)) (.num 1 (some b)) = .ok (.num 1 (some l)) := by
    simp [opDivide, Arg.split, h]
  obtain ⟨z, h1, h2⟩ := div_worth hL ha hb hd
  simp only [Arg.num.injEq] at h1
  have e : z = (1, some l) := Prod.ext h1.1.symm h1.2.symm
  rw [e] at h2
  exact ⟨(checkEmpty_some h).2, h2⟩

/-- Products, with or without normalising first. -/
theorem product_case (hL : Lawful pw N) (hC : Coherent N) {a b : QVal U K} {x y w : Quantity D K}
    (ha : StandsFor pw N t a x) (hb : StandsFor pw N t b y) (h : product x y = .ok w) :
    ∃ u v, a = .arg u ∧ b = .arg v ∧
      (∀ res, asArg (mulArgs pw N fuel u v) = some (.ok res) → StandsFor pw N t res w) ∧
      (∀ res, asArg (some (opMultiply u v)) = some (.ok res) → StandsFor pw N t res w) := by
  unfold product at h
  split at h
  · cases h
    cases ha
    cases hb
    refine ⟨_, _, rfl, rfl, ?_, ?_⟩
    · intro res hres
      obtain ⟨r, h1, rfl⟩ := asArg_some hres
      simp only [mulArgs, evalMul, callBinary, normaliseInputs] at h1
      cases h1
      exact .number _
    · intro res hres
      obtain ⟨r, h1, rfl⟩ := asArg_some hres
      cases h1
      exact .number _
  · rename_i sa da sb db
    cases h
    cases ha with
    | @unit la _ _ hl hw =>
      cases hb with
      | @unit lb _ _ hl' hw' =>
        refine ⟨_, _, rfl, rfl, ?_⟩
        have key : ∀ res, asArg (some (opMultiply (K := K) (.unit la) (.unit lb))) = some (.ok res) →
            StandsFor pw N t res (.unit (sa * sb) (da + db)) := by
          intro res hres
          obtain ⟨r, h1, rfl⟩ := asArg_some hres
          unfold opMultiply at h1
          simp only at h1
          split at h1
          · cases h1
          · rename_i l hl
            cases h1
            obtain ⟨h2, h3⟩ := newList_worth hL hw hw' hl
            exact .unit h2 h3
        exact ⟨key, key⟩
  · rename_i hnn huu
    split at h
    · rename_i qa da qb db h1 h2
      cases h
      obtain ⟨u, rfl, h3⟩ := stands_worth ha h1
      obtain ⟨v, rfl, h4⟩ := stands_worth hb h2
      have hno : ¬ ∃ l m, u = .unit l ∧ v = .unit m := by
        rintro ⟨l, m, rfl, rfl⟩
        cases ha
        cases hb
        exact huu _ _ _ _ rfl rfl
      have key : ∀ res, asArg (some (opMultiply u v)) = some (.ok res) →
          StandsFor pw N t res (.amount (qa * qb) (da + db)) := by
        intro res hres
        obtain ⟨r, h1, rfl⟩ := asArg_some hres
        rw [opMultiply_split hno] at h1
        obtain ⟨z, h5, h6⟩ := mul_worth hL h3 h4
        rw [h5] at h1
        cases h1
        exact .amount h6
      refine ⟨_, _, rfl, rfl, ?_, key⟩
      intro res hres
      cases u with
      | unit l =>
        have : mulArgs pw N fuel (.unit l) v = some (opMultiply (.unit l) v) := rfl
        rw [this] at hres
        exact key res hres
      | num v1 u1 =>
        cases v with
        | unit l => exact key res hres
        | num v2 u2 =>
          obtain ⟨r, h1, rfl⟩ := asArg_some hres
          obtain ⟨z, rfl, h6⟩ := evalMul_worth hL hC h3 h4 h1
          exact .amount h6
    · cases h

/-- Quotients. -/
theorem quotient_case (hL : Lawful pw N) (hC : Coherent N) {a b : QVal U K} {x y w : Quantity D K}
    (ha : StandsFor pw N t a x) (hb : StandsFor pw N t b y) (h : quotient x y = .ok w) :
    ∃ u v, a = .arg u ∧ b = .arg v ∧
      (∀ res, asArg (divArgs pw N fuel u v) = some (.ok res) → StandsFor pw N t res w) ∧
      (∀ res, asArg (some (opDivide u v)) = some (.ok res) → StandsFor pw N t res w) := by
  unfold quotient at h
  split at h
  · split at h
    · cases h
    · rename_i hb0
      cases h
      cases ha
      cases hb
      have key : ∀ p q : K, ¬ q = 0 → opDivide (U := U) (.num p none) (.num q none) = .ok (.num (p / q) none) := by
        intro p q hq
        simp [opDivide, Arg.split, hq]
      refine ⟨_, _, rfl, rfl, ?_, ?_⟩
      · intro res hres
        obtain ⟨r, h1, rfl⟩ := asArg_some hres
        simp only [divArgs, evalDiv, callBinary, normaliseInputs] at h1
        change some (opDivide _ _) = _ at h1
        rw [key _ _ hb0] at h1
        cases h1
        exact .number _
      · intro res hres
        obtain ⟨r, h1, rfl⟩ := asArg_some hres
        rw [key _ _ hb0] at h1
        cases h1
        exact .number _
  · rename_i sa da sb db
    cases h
    cases ha with
    | @unit la _ _ hl hw =>
      cases hb with
      | @unit lb _ _ hl' hw' =>
        refine ⟨_, _, rfl, rfl, ?_⟩
        have key : ∀ res, asArg (some (opDivide (K := K) (.unit la) (.unit lb))) = some (.ok res) →
            StandsFor pw N t res (.unit (sa / sb) (da - db)) := by
          intro res hres
          obtain ⟨r, h1, rfl⟩ := asArg_some hres
          unfold opDivide at h1
          simp only at h1
          split at h1
          · cases h1
          · rename_i l hl
            cases h1
            obtain ⟨h2, h3⟩ := newList_worth_div hL hw hw' hl
            exact .unit h2 h3
        exact ⟨key, key⟩
  · rename_i hnn huu
    split at h
    · rename_i qa da qb db h1 h2
      split at h
      · cases h
      cases h
      obtain ⟨u, rfl, h3⟩ := stands_worth ha h1
      obtain ⟨v, rfl, h4⟩ := stands_worth hb h2
      have hno : ¬ ∃ l m, u = .unit l ∧ v = .unit m := by
        rintro ⟨l, m, rfl, rfl⟩
        cases ha
        cases hb
        exact huu _ _ _ _ rfl rfl
      have key : ∀ res, asArg (some (opDivide u v)) = some (.ok res) →
          StandsFor pw N t res (.amount (qa / qb) (da - db)) := by
        intro res hres
        obtain ⟨r, h1, rfl⟩ := asArg_some hres
        rw [opDivide_split hno] at h1
        obtain ⟨z, rfl, h6⟩ := div_worth hL h3 h4 (Option.some.inj h1)
        exact .amount h6
      refine ⟨_, _, rfl, rfl, ?_, key⟩
      intro res hres
      cases u with
      | unit l =>
        have : divArgs pw N fuel (.unit l) v = some (opDivide (.unit l) v) := rfl
        rw [this] at hres
        exact key res hres
      | num v1 u1 =>
        cases v with
        | unit l => exact key res hres
        | num v2 u2 =>
          obtain ⟨r, h1, rfl⟩ := asArg_some hres
          obtain ⟨z, rfl, h6⟩ := evalDiv_worth hL hC h3 h4 h1
          exact .amount h6
    · cases h

/-- Powers. -/
theorem raised_case (hP : RealPowers pw) (hS : ∀ u, 0 < stepSize (N.info u))
    (hQ : ∀ v p, asRat v = some p → (p : K) = v) {a b : QVal U K} {x y w : Quantity D K}
    (ha : StandsFor pw N t a x) (hb : StandsFor pw N t b y) (h : raised pw x y = .ok w) :
    ∃ u n m, a = .arg u ∧ b = .arg (.num n m) ∧
      ∀ res, powArgs pw asRat u n m = .ok res → StandsFor pw N t res w := by
  unfold raised at h
  split at h
  · rename_i c
    split at h
    · rename_i hp
      have hc := hp.choose_spec
      generalize hp.choose = p at hc h
      cases hb
      have hpow : ∀ {u : Arg U K} {res : QVal U K}, powArgs pw asRat u c none = .ok res →
          (∀ l, u = .unit l → res = (match power p l with | none => QVal.nothing | some l => .arg (.unit l))) ∧
          (∀ v m, u = .num v m → res = .arg (.num (opPower pw (v, m) p).1 (opPower pw (v, m) p).2)) := by
        intro u res hres
        unfold powArgs at hres
        cases hq : asRat c with
        | none => rw [hq] at hres; cases hres
        | some p' =>
          have : p' = p := by
            have := hQ c p' hq
            rw [← hc] at this
            exact_mod_cast this
          subst this
          rw [hq] at hres
          constructor
          · rintro l rfl
            simp only at hres
            cases hl : power p' l with
            | none => rw [hl] at hres; cases hres; rfl
            | some l => rw [hl] at hres; cases hres; rfl
          · rintro v m rfl
            simp only [Option.isSome_none, Bool.false_eq_true, if_false, Except.ok.injEq] at hres
            exact hres.symm
      cases ha with
      | number q =>
        simp only at h
        split at h
        · cases h
          refine ⟨_, _, _, rfl, rfl, ?_⟩
          intro res hres
          rw [(hpow hres).2 _ _ rfl]
          exact .number _
        · cases h
      | amount hw =>
        simp only at h
        split at h
        · rename_i hm
          cases h
          refine ⟨_, _, _, rfl, rfl, ?_⟩
          intro res hres
          rw [(hpow hres).2 _ _ rfl]
          exact .amount (power_worth hP hS hw hm)
        · cases h
      | @unit l s d hl hw =>
        simp only at h
        split at h
        · rename_i hp0
          cases h
          refine ⟨_, _, _, rfl, rfl, ?_⟩
          intro res hres
          rw [(hpow hres).1 _ rfl]
          have hs : 0 < s := by
            rw [← hw.value]
            unfold quantity
            exact mul_pos one_pos (size_pos_of hP hS _)
          have hL := lawful_of (N := N) hP hS
          have h1 := power_worth hP hS hw (p := p) (.inl hs)
          have e1 : pw 1 p = 1 := hL.1 p
          have hproper : Proper l := hw.proper
          cases hpl : power p l with
          | none =>
            exfalso
            unfold power checkEmpty at hpl
            split at hpl
            · rename_i h0
              rw [List.length_eq_zero_iff] at h0
              cases l with
              | nil => exact hl rfl
              | cons o l =>
                have : (o.1, o.2 * p) ∈ removeZeros (multiply p (o :: l)) := by
                  unfold removeZeros multiply
                  refine List.mem_filter.2 ⟨List.mem_map.2 ⟨o, List.mem_cons_self .., rfl⟩, ?_⟩
                  simpa using ⟨hproper.2 o (List.mem_cons_self ..), hp0⟩
                rw [h0] at this
                cases this
            · cases hpl
          | some l' =>
            have e : opPower pw ((1 : K), some l) p = (1, some l') := by
              simp [opPower, e1, hpl]
            rw [e] at h1
            exact .unit (checkEmpty_some hpl).2 h1
        · cases h
      | truth => cases h
    · cases h
  · cases h

/-- Comparisons. -/
theorem compared_case (hP : RealPowers pw) (hS : ∀ u, 0 < stepSize (N.info u)) (hT : Thermal N t)
    {test : K → K → Bool} {f : K → K → Prop} (hf : ∀ a b s, 0 < s → (test a b = true ↔ f (a * s) (b * s)))
    {a b : QVal U K} {x y w : Quantity D K} (ha : StandsFor pw N t a x) (hb : StandsFor pw N t b y)
    (h : compared f x y = .ok w) :
    ∃ v u v' u', a = .arg (.num v u) ∧ b = .arg (.num v' u') ∧
      ∀ res, compareArgs pw N fuel test (v, u) (v', u') = some (.ok res) → StandsFor pw N t res w := by
  unfold compared at h
  split at h
  · rename_i qa da qb db h1 h2
    split at h
    · cases h
      obtain ⟨v, u, rfl, h3⟩ := stands_measure ha h1
      obtain ⟨v', u', rfl, h4⟩ := stands_measure hb h2
      refine ⟨_, _, _, _, rfl, rfl, ?_⟩
      intro res hres
      obtain ⟨b, rfl, h5⟩ := compare_worth hP hS hT h3 h4 hf hres
      classical
      have : b = decide (f qa qb) := by
        rw [Bool.eq_iff_iff, h5, decide_eq_true_iff]
      rw [this]
      exact .truth _
    · cases h
  · cases h


theorem callQ_known {o : String} {ws : List (Quantity D K)} {w : Quantity D K} (h : physics pw o ws = .ok w) :
    o ∈ quantityOps := by
  unfold physics at h
  split at h <;> first | (cases h; done) | decide

theorem physics_then (ws : List (Quantity D K)) (w : Quantity D K) : physics pw "then" ws ≠ .ok w := by
  intro h
  have := callQ_known h
  revert this
  decide

theorem callQ_passOn : PassOn (· ∈ quantityOps) (callQ pw N asRat fuel rest) (QVal.mkErr (U := U) (K := K)) QVal.getErr where
  made := by intro e h; cases h
  hidden := by decide
  divide := by decide
  passed := by
    intro o ho ins s v s' hx h
    unfold callQ at h
    rw [if_pos ho] at h
    cases hf : ins.find? (fun x => x.getErr.isSome) with
    | none =>
      obtain ⟨x, hx, hne⟩ := hx
      have := List.find?_eq_none.1 hf x hx
      cases hg : x.getErr with
      | none => exact absurd hg hne
      | some e => rw [hg] at this; exact absurd rfl this
    | some x =>
      rw [hf] at h
      simp only [Prod.mk.injEq, Except.ok.injEq] at h
      rw [← h.1]
      have := List.find?_some hf
      intro he
      rw [he] at this
      cases this

theorem evalAdd_numbers (a b : K) : evalAdd pw N fuel ((a, none) : K × Option (PL U)) (b, none) = some (.ok (.num (a + b) none)) := by
  rfl

theorem evalSub_numbers (a b : K) : evalSub pw N fuel ((a, none) : K × Option (PL U)) (b, none) = some (.ok (.num (a - b) none)) := by
  rfl

theorem callQ_follows_all (hP : RealPowers pw) (hS : ∀ u, 0 < stepSize (N.info u)) (hC : Coherent N)
    (hT : Thermal N t) (hQ : ∀ v p, asRat v = some p → (p : K) = v) :
    Follows (StandsFor pw N t) (· ∈ quantityOps) (callQ pw N asRat fuel rest) (physics pw) where
  known _ _ _ h := callQ_known h
  noThen := physics_then
  result := by
    intro o ws w h vs hv s
    have hk := callQ_known h
    have hL := lawful_of (N := N) hP hS
    suffices hs : ∃ r, applyQ pw N asRat fuel o vs = some r ∧ ∀ v, r = some (.ok v) → StandsFor pw N t v w by
      obtain ⟨r, h1, h2⟩ := hs
      exact callQ_follows hk hv h1 h2 s
    unfold physics at h
    split at h
    case h_22 => cases h
    all_goals obtain ⟨a, b, rfl, ha, hb⟩ := two_rel hv
    case h_1 =>
      obtain ⟨v, u, v', u', rfl, rfl, hr⟩ := combine_case (· + ·) (evalAdd pw N fuel) evalAdd_numbers
        (fun x y q q' d d' hx hy res hres => evalAdd_worth hL hx hy hres) ha hb h
      exact ⟨_, rfl, hr⟩
    case h_2 =>
      obtain ⟨v, u, v', u', rfl, rfl, hr⟩ := combine_case (· - ·) (evalSub pw N fuel) evalSub_numbers
        (fun x y q q' d d' hx hy res hres => evalSub_worth hL hx hy hres) ha hb h
      exact ⟨_, rfl, hr⟩
    case h_3 =>
      obtain ⟨u, v, rfl, rfl, hr, -⟩ := product_case (fuel := fuel) hL hC ha hb h
      exact ⟨_, rfl, hr⟩
    case h_4 =>
      obtain ⟨u, v, rfl, rfl, hr, -⟩ := quotient_case (fuel := fuel) hL hC ha hb h
      exact ⟨_, rfl, hr⟩
    case h_5 =>
      obtain ⟨u, n, m, rfl, rfl, hr⟩ := raised_case hP hS hQ ha hb h
      exact ⟨_, rfl, fun v hv => hr v (Option.some.inj hv)⟩
    case h_6 | h_7 | h_8 | h_9 =>
      obtain ⟨u, v, rfl, rfl, hr, -⟩ := product_case (fuel := fuel) hL hC ha hb h
      (cases ha; cases hb; exact ⟨_, rfl, hr⟩)
    case h_10 | h_12 | h_13 =>
      obtain ⟨u, v, rfl, rfl, -, hr⟩ := product_case (fuel := fuel) hL hC ha hb h
      (cases ha; cases hb; exact ⟨_, rfl, hr⟩)
    case h_11 =>
      obtain ⟨u, v, rfl, rfl, -, hr⟩ := quotient_case (fuel := fuel) hL hC ha hb h
      (cases ha; cases hb; exact ⟨_, rfl, hr⟩)
    case h_14 =>
      cases ha with
      | @amount v u _ _ hw =>
        cases hb with
        | @unit b _ _ hl hw' =>
          unfold inUnit at h
          split at h
          · rename_i hd
            cases h
            cases u with
            | none => exact ⟨_, rfl, fun v hv => by cases hv⟩
            | some l =>
              refine ⟨_, rfl, fun y hy => ?_⟩
              unfold convertArgs at hy
              cases hc : unitConversion pw N v (some l) (some b) false with
              | error e => rw [hc] at hy; cases hy
              | ok r =>
                rw [hc] at hy
                cases hy
                rw [hd]
                exact .amount (to_worth hL hT hw hw' hc)
          · cases h
    case h_15 =>
      cases ha with
      | @unit l _ _ _ hw =>
        cases hb with
        | @unit b _ _ hl hw' =>
          unfold inUnit at h
          split at h
          · rename_i hd
            cases h
            refine ⟨_, rfl, fun y hy => ?_⟩
            unfold convertArgs at hy
            cases hc : unitConversion pw N 1 (some l) (some b) false with
            | error e => rw [hc] at hy; cases hy
            | ok r =>
              rw [hc] at hy
              cases hy
              rw [hd]
              exact .amount (to_worth hL hT hw hw' hc)
          · cases h
    case h_16 =>
      obtain ⟨v, u, v', u', rfl, rfl, hr⟩ := compared_case (fuel := fuel) (test := fun x y => x < y) hP hS hT
        (fun a b s hs => by simp [hs]) ha hb h
      exact ⟨_, rfl, hr⟩
    case h_17 =>
      obtain ⟨v, u, v', u', rfl, rfl, hr⟩ := compared_case (fuel := fuel) (test := fun x y => y < x) hP hS hT
        (fun a b s hs => by simp [hs]) ha hb h
      exact ⟨_, rfl, hr⟩
    case h_18 =>
      obtain ⟨v, u, v', u', rfl, rfl, hr⟩ := compared_case (fuel := fuel) (test := fun x y => x ≤ y) hP hS hT
        (fun a b s hs => by simp [hs]) ha hb h
      exact ⟨_, rfl, hr⟩
    case h_19 =>
      obtain ⟨v, u, v', u', rfl, rfl, hr⟩ := compared_case (fuel := fuel) (test := fun x y => y ≤ x) hP hS hT
        (fun a b s hs => by simp [hs]) ha hb h
      exact ⟨_, rfl, hr⟩
    case h_20 =>
      obtain ⟨v, u, v', u', rfl, rfl, hr⟩ := compared_case (fuel := fuel) (test := fun x y => x = y) hP hS hT
        (fun a b s hs => by simp [hs.ne']) ha hb h
      exact ⟨_, rfl, hr⟩
    case h_21 =>
      obtain ⟨v, u, v', u', rfl, rfl, hr⟩ := compared_case (fuel := fuel) (test := fun x y => x ≠ y) hP hS hT
        (fun a b s hs => by simp [hs.ne']) ha hb h
      exact ⟨_, rfl, hr⟩


/-- The words. -/
theorem wordQ_does {p : ℕ} {named : Text → Option U} {others : Parse.Item → Act σ (QVal U K)}
    {funcs : String → Option (FuncDef (QVal U K) σ)} (hP : RealPowers pw) (hT : Thermal N t) :
    DoesR (StandsFor pw N t) (wordQ p named others) QVal.getErr funcs (Measure p N t named)
      (fun _ _ => .error "no function") where
  words := by
    intro k tx w h s
    cases h with
    | @number neg whole frac ip fp h1 h2 h3 h4 =>
      obtain ⟨n, e1, e2, e3, _⟩ := decimal_literal (neg := neg) (ip := whole) h4
      have := matchDecimal_assemble (neg := neg) h1.ten.1 h2 h3.ten.1
      unfold assemble at this
      refine .inl ⟨.arg (.num (n.num / n.den) none), ?_, ?_⟩
      · simp only [wordQ, parseDecimal, this, e1]
      · have e : ((n.num : K) / n.den) = ((if neg then -1 else 1) * positionalQ 10 ip fp : ℚ) := by
          rw [← decimalOf_positional h1 h3, ← e3]
          unfold Number.val
          push_cast
          rfl
        rw [e]
        exact .number _
    | @unit _ u h1 h2 =>
      have hn : newFromUnit u = [(u, 1)] := by simp [newFromUnit, add, find]
      refine .inl ⟨.arg (.unit (newFromUnit u)), ?_, ?_⟩
      · simp only [wordQ, h1]
      · rw [hn]
        refine .unit (by simp) ⟨?_, ?_, ?_, ?_⟩
        · have := hP.whole (stepSize (N.info u)) 1
          simp only [Int.cast_one, zpow_one] at this
          simp [quantity, size_cons, this]
        · intro z
          simp [dimOfO, dimOf]
        · simp [Proper]
        · intro o ho
          simp only [Option.getD_some, List.mem_singleton] at ho
          subst ho
          exact h2
  functions := by intro n ws w h; cases h
  fine := fun _ _ h => stands_fine h

/-- The last step. -/
theorem finalQ_shows (hP : RealPowers pw) (hS : ∀ u, 0 < stepSize (N.info u)) (hC : Coherent N) (hT : Thermal N t)
    {simplifies : PL U → σ → Bool} {v y : QVal U K} {w : Quantity D K} {s s' : σ} (h : StandsFor pw N t v w)
    (hf : finalQ pw N fuel simplifies v s = (.ok y, s')) :
    s' = s ∧ Shows pw N y w ∧ ((∀ l, simplifies l s = false) → ShowsDimension N y w) := by
  have hL := lawful_of (N := N) hP hS
  cases h with
  | number q => cases hf; exact ⟨rfl, rfl, fun _ => trivial⟩
  | truth b => cases hf; exact ⟨rfl, rfl, fun _ => trivial⟩
  | @unit l _ _ _ hw =>
    cases hf
    refine ⟨rfl, ⟨l, rfl, ?_, hw.dim⟩, fun _ => trivial⟩
    have := hw.value
    rwa [quantity, one_mul] at this
  | @amount v u q d hw =>
    cases u with
    | none => cases hf; exact ⟨rfl, ⟨_, _, rfl, hw.value⟩, fun _ => ⟨_, _, rfl, hw.dim⟩⟩
    | some l =>
      unfold finalQ at hf
      simp only at hf
      cases hs : simplifies l s with
      | false =>
        rw [hs] at hf
        cases hf
        exact ⟨rfl, ⟨_, _, rfl, hw.value⟩, fun _ => ⟨_, _, rfl, hw.dim⟩⟩
      | true =>
        rw [hs] at hf
        simp only [if_true] at hf
        cases hr : simplifyUnits pw N fuel v l with
        | none => rw [hr] at hf; cases hf
        | some r =>
          rw [hr] at hf
          cases r with
          | error e => cases hf
          | ok z =>
            cases hf
            refine ⟨rfl, ⟨_, _, rfl, ?_⟩, fun h => by rw [h] at hs; cases hs⟩
            exact (C45_simplify_partial hL hC hT hw.cool hr).trans hw.value

/-- **C80**: let an expression of numbers and units mean a quantity, by the rules of `Spec.physics`.  If
the calculator answers it, the answer shows that quantity; else it reports an error, and nothing else
happens.  And if the units of answers are not simplified, the answer has the dimension of the quantity. -/
theorem C80_sound_partial (p : ℕ) (powF : ℚ → ℚ → Except Err ℚ) (word alpha : Char → Bool)
    (hw : ∀ c, c.toNat < 128 → word c = Parse.asciiWord c)
    (ha : ∀ c, c.toNat < 128 → alpha c = Parse.isLetter c)
    (hP : RealPowers pw) (hS : ∀ u, 0 < stepSize (N.info u)) (hC : Coherent N) (hT : Thermal N t)
    (hQ : ∀ v p, asRat v = some p → (p : K) = v) (named : Text → Option U)
    (others : Parse.Item → Act σ (QVal U K)) (funcs : String → Option (FuncDef (QVal U K) σ))
    (simplifies : PL U → σ → Bool) (names : List Text) (inc : List Parse.Item → Bool)
    {n : ℕ} {tx : Text} {its : List Parse.Item}
    (hx : Parse.Spec.Expression (fullLex p powF word alpha) names n tx its) {w : Quantity D K}
    (hm : MeansU Quantity.isUnit (Measure p N t named) (physics pw) (fun _ _ => .error "no function") its w)
    (m : Cache) (extra : ℕ) (s : σ) :
    ∃ rs out s2, calculateText (shippedCfg (fullLex p powF word alpha) names inc)
        (shipped (callQ pw N asRat fuel rest) QVal.isUnit QVal.mkErr QVal.getErr funcs)
        (wordQ p named others) (finalQ pw N fuel simplifies) (n + extra + 1) tx m s
        = some (.ran rs out, m, s2) ∧
      ((∃ y, rs = [⟨some y, s⟩] ∧ out = .done ∧ s2 = s ∧ Shows pw N y w ∧
          ((∀ l, simplifies l s = false) → ShowsDimension N y w)) ∨
        (rs = [] ∧ out ≠ .done)) := by
  obtain ⟨rs, out, s2, h1, h2⟩ := expressionR p powF word alpha hw ha callQ_passOn
    (callQ_follows_all (fuel := fuel) (rest := rest) hP hS hC hT hQ)
    (fun v w h => stands_isUnit h) (wordQ_does (funcs := funcs) (others := others) hP hT) names inc
    (finalQ pw N fuel simplifies) hx hm m extra s
  rcases h2 with ⟨v, y, s', h3, h4, rfl, rfl, rfl⟩ | h2
  · obtain ⟨rfl, h5, h6⟩ := finalQ_shows hP hS hC hT h3 h4
    exact ⟨_, _, _, h1, .inl ⟨y, rfl, rfl, rfl, h5, h6⟩⟩
  · exact ⟨_, _, _, h1, .inr h2⟩

end

/-! ## Non-vacuity -/

theorem real_powers : RealPowers Demo.rpw where
  whole x z := by simp [Demo.rpw]
  pos x p h := Real.rpow_pos_of_pos h _
  add x p q h := (Demo.rpw_law h).2 p q
  mul x y p hx hy := Real.mul_rpow hx.le hy.le
  twice x p q h := by
    unfold Demo.rpw
    push_cast
    rw [Real.rpow_mul h.le]

theorem demo_steps (u : Demo.U) : 0 < stepSize ((Demo.reg ℝ).info u) := by
  cases u <;> simp [stepSize, Demo.reg, Demo.kind, Demo.scale]

open Classical in
/-- Real numbers that are rational. -/
noncomputable def realAsRat (v : ℝ) : Option ℚ := if h : ∃ p : ℚ, (p : ℝ) = v then some h.choose else none

theorem realAsRat_eq (v : ℝ) (p : ℚ) (h : realAsRat v = some p) : (p : ℝ) = v := by
  unfold realAsRat at h
  split at h
  · rename_i hv
    cases h
    exact hv.choose_spec
  · cases h

/-- Two units by their names. -/
def demoNamed (t : Text) : Option Demo.U :=
  if t = "ft".toList then some .foot else if t = "s".toList then some .second else none

theorem isUnit_ft : Parse.Spec.IsUnit asciiFull "ft".toList :=
  isUnit_writes (fun _ _ => rfl) (fun _ _ => rfl) (.inl (by decide +kernel)) (by decide) (by decide)

/-- The items of `6 ft/2 s`. -/
def feetItems : List Parse.Item :=
  [.leaf .num ['6'], .leaf .space [' '], .leaf .unit "ft".toList, .leaf .op ['/'], .leaf .num ['2'],
   .leaf .space [' '], .leaf .unit "s".toList]

theorem feet_written : Parse.Spec.Expression asciiFull [] 1 "6 ft/2 s".toList feetItems := by
  refine Parse.Spec.Line.cons (t := ['6']) (rest := " ft/2 s".toList)
    (.inl ⟨_, rfl, .num (demo_digit '6' (by decide)) ?_⟩) ?_
  · intro c hc
    cases hc
    decide
  refine Parse.Spec.Line.cons (t := [' ']) (rest := "ft/2 s".toList)
    (.inl ⟨_, rfl, .space (by decide) (by decide)⟩) ?_
  refine Parse.Spec.Line.cons (t := "ft".toList) (rest := "/2 s".toList)
    (.inl ⟨_, rfl, .unit isUnit_ft (demo_ends '/' (by decide) (by decide)) ?_
      (demo_longer _ _ _ (by decide +kernel)) (demo_longer _ _ _ (by decide +kernel))⟩) ?_
  · intro c hc
    cases hc
    decide
  refine Parse.Spec.Line.cons (t := ['/']) (rest := "2 s".toList)
    (.inl ⟨_, rfl, demo_op ['/'] '2' (by decide +kernel) (by decide +kernel) (by decide) false⟩) ?_
  refine Parse.Spec.Line.cons (t := ['2']) (rest := " s".toList)
    (.inl ⟨_, rfl, .num (demo_digit '2' (by decide)) ?_⟩) ?_
  · intro c hc
    cases hc
    decide
  refine Parse.Spec.Line.cons (t := [' ']) (rest := "s".toList)
    (.inl ⟨_, rfl, .space (by decide) (by decide)⟩) ?_
  refine Parse.Spec.Line.cons (t := "s".toList) (rest := []) (.inl ⟨_, rfl, .unit isUnit_s ?_ ?_ ?_ ?_⟩) .nil
  all_goals (intro c hc; cases hc)

/-- `6 ft/2 s` is 0.9144 metres in a second. -/
theorem feet_means : ∃ d, MeansU Quantity.isUnit (Measure 30 (Demo.reg ℝ) .temperature demoNamed)
    (physics Demo.rpw) (fun _ _ => .error "no function") feetItems (.amount (6 * 0.3048 / (2 * 1)) d) := by
  have six : Measure 30 (Demo.reg ℝ) .temperature demoNamed .num ['6'] (.number 6) := by
    have := Measure.number (p := 30) (N := Demo.reg ℝ) (t := .temperature) (named := demoNamed) (neg := false)
      (whole := ['6']) (frac := []) (ip := [6]) (fp := []) (by constructor <;> decide) (by decide) (by constructor) (by decide)
    simpa [positionalQ, positional] using this
  have two : Measure 30 (Demo.reg ℝ) .temperature demoNamed .num ['2'] (.number 2) := by
    have := Measure.number (p := 30) (N := Demo.reg ℝ) (t := .temperature) (named := demoNamed) (neg := false)
      (whole := ['2']) (frac := []) (ip := [2]) (fp := []) (by constructor <;> decide) (by decide) (by constructor) (by decide)
    simpa [positionalQ, positional] using this
  have foot : Measure 30 (Demo.reg ℝ) .temperature demoNamed .unit "ft".toList
      (.unit (stepSize ((Demo.reg ℝ).info .foot)) (unitDim (Demo.reg ℝ) .foot)) := .unit rfl (by decide)
  have second : Measure 30 (Demo.reg ℝ) .temperature demoNamed .unit "s".toList
      (.unit (stepSize ((Demo.reg ℝ).info .second)) (unitDim (Demo.reg ℝ) .second)) := .unit rfl (by decide)
  have e1 : stepSize ((Demo.reg ℝ).info .foot) = 0.3048 := by
    simp [stepSize, Demo.reg, Demo.kind, Demo.scale]; norm_num
  have e2 : stepSize ((Demo.reg ℝ).info .second) = 1 := by
    simp [stepSize, Demo.reg, Demo.kind, Demo.scale]
  rw [e1] at foot
  rw [e2] at second
  refine ⟨(0 + unitDim (Demo.reg ℝ) .foot) - (0 + unitDim (Demo.reg ℝ) .second), ?_⟩
  refine .phrase (b := false) (e := true) (.word (by decide) six (.skip (by decide) (.word (by decide) foot
    (.op (.word (by decide) two (.skip (by decide) (.word (by decide) second .nil))))))) ?_
  refine phrase_up (j := 0) 9 (i := 7) (toks := ([.val _] ++ [.val _]) ++ .op "/" :: ([.val _] ++ [.val _])) ?_
  refine .left (k := 6) (o := "/") rfl (by decide) (phrase_up 2 (i := 5) (.of (phrase_word 4 _ rfl)
    (phrase_word 4 _ rfl) rfl rfl rfl rfl))
    (phrase_up 1 (i := 5) (.of (phrase_word 4 _ rfl) (phrase_word 4 _ rfl) rfl rfl rfl rfl))
    ?_ (by decide) ?_
  · simp [physics, product, quotient, Quantity.worth, Quantity.measure]
  · intro _ h
    cases h

/-- Non-vacuity: what is shown for `6 ft/2 s`, if anything. -/
example (m : Cache) (rest : String → List (QVal Demo.U ℝ) → Act ℕ (QVal Demo.U ℝ))
    (others : Parse.Item → Act ℕ (QVal Demo.U ℝ)) (funcs : String → Option (FuncDef (QVal Demo.U ℝ) ℕ)) :
    ∃ rs out s2, calculateText (shippedCfg asciiFull [] (fun _ => false))
        (shipped (callQ Demo.rpw (Demo.reg ℝ) realAsRat 20 rest) QVal.isUnit QVal.mkErr QVal.getErr funcs)
        (wordQ 30 demoNamed others) (finalQ Demo.rpw (Demo.reg ℝ) 20 (fun _ _ => true)) 2
        "6 ft/2 s".toList m 7 = some (.ran rs out, m, s2) ∧
      ((∃ y, rs = [⟨some y, 7⟩] ∧ out = .done ∧ s2 = 7 ∧
          ∃ v u, y = .arg (.num v u) ∧ v * size Demo.rpw (Demo.reg ℝ) (u.getD []) = 0.9144) ∨
        (rs = [] ∧ out ≠ .done)) := by
  obtain ⟨d, hm⟩ := feet_means
  obtain ⟨rs, out, s2, h1, h2⟩ := C80_sound_partial 30 (fun _ _ => .ok 0) Parse.asciiWord Parse.isLetter
    (fun _ _ => rfl) (fun _ _ => rfl) real_powers demo_steps (Demo.coherent ℝ) (Demo.thermal ℝ) realAsRat_eq
    demoNamed others funcs (fun _ _ => true) [] (fun _ => false) (rest := rest) (fuel := 20) feet_written hm m 0 7
  refine ⟨rs, out, s2, h1, ?_⟩
  rcases h2 with ⟨y, h2, h3, h4, ⟨v, u, h5, h6⟩, -⟩ | h2
  · refine .inl ⟨y, h2, h3, h4, v, u, h5, ?_⟩
    rw [h6]
    norm_num
  · exact .inr h2

/-- Non-vacuity: there are answers. -/
example (rest : String → List (QVal Demo.U ℝ) → Act ℕ (QVal Demo.U ℝ)) :
    callQ Demo.rpw (Demo.reg ℝ) realAsRat 20 rest "+"
      [.arg (.num 6 (some [(.foot, 1)])), .arg (.num 2 (some [(.foot, 1)]))] 7
    = (.ok (.arg (.num 8 (some [(.foot, 1)]))), 7) := by
  have h : same [(Demo.U.foot, (1 : ℚ))] [(Demo.U.foot, 1)] = true := by decide +kernel
  have e : (6 : ℝ) + 2 = 8 := by norm_num
  simp [callQ, quantityOps, QVal.getErr, applyQ, evalAdd, callBinary, normaliseInputs, normSame, unitConversion, h,
    asArg, wrapErr, e]
  rfl

/-- The unit of the exponent of a unit is not looked at (`basicarithmetic.py:94-96`): `metre^(2 minutes)` is
`metre^2`, which has no meaning. -/
theorem C80_exponent_violation (rest : String → List (QVal Demo.U ℚ) → Act ℕ (QVal Demo.U ℚ)) :
    callQ Demo.zpw (Demo.reg ℚ) some 20 rest "^"
      [.arg (.unit [(.metre, 1)]), .arg (.num 2 (some [(.minute, 1)]))] 7
      = (.ok (.arg (.unit [(.metre, 2)])), 7) ∧
    ∀ s d q e w, physics (D := Demo.D) Demo.zpw "^" [.unit s d, .amount q e] ≠ .ok w := by
  constructor
  · have h : power 2 [(Demo.U.metre, 1)] = some [(.metre, 2)] := by decide +kernel
    simp [callQ, quantityOps, QVal.getErr, applyQ, powArgs, wrapErr, h]
  · intro s d q e w h
    simp [physics, raised] at h

end MC.Props
