import Verif.Props.Engine4

/-! # Which exceptions of Python can leave the engine -/

namespace MC.Escape
open MC.Props

variable {V σ : Type} {cfg : Config V σ} {P : V → Prop} {Q : String → Prop}

/-- The action returns a value with `P`, or raises an error of the calculator, or raises an
exception of Python with `Q`. -/
def Safe (P : V → Prop) (Q : String → Prop) (act : Act σ V) : Prop :=
  ∀ s, (∀ v, (act s).1 = .ok v → P v) ∧ ∀ m, (act s).1 = .error (.py m) → Q m

/-- Every pair of adjacent values is joined by an invisible operator, before any operator with a
symbol among its inputs. -/
structure Joins (cfg : Config V σ) (divide assign mul div juxt : String) : Prop where
  units : HasUnits cfg divide assign mul div juxt
  hasAssign : ∃ l ∈ cfg.ops, l.has assign = true
  hasMul : ∃ l ∈ cfg.ops, l.has mul = true
  hasJuxt : ∃ l ∈ cfg.ops, l.has juxt = true
  symbols : ∀ pre l post sym d, cfg.ops = pre ++ l :: post → l.has sym = true →
    opsList cfg sym = some d → (∀ e ∈ d.linputs ++ d.rinputs, e = none) ∨
      ((∃ t, d.linputs = [none] ∧ d.rinputs = [none, some t, none]) ∧
        (∃ l ∈ pre, l.has assign = true) ∧ (∃ l ∈ pre, l.has mul = true) ∧
          ∃ l ∈ pre, l.has juxt = true)

theorem lookup_isSome {α : Type} {s : String} {d : α} : ∀ {l : List (String × α)}, (s, d) ∈ l →
    (l.lookup s).isSome
  | (t, e) :: l, h => by
    rw [List.lookup_cons]
    by_cases hs : s == t
    · simp [hs]
    · simp only [hs]
      rcases List.mem_cons.mp h with h | h
      · cases h; simp at hs
      · exact lookup_isSome h

theorem opsList_isSome {l : Level V σ} (hl : l ∈ cfg.ops) {e : String × OpDef V σ}
    (he : e ∈ l.entries) : (opsList cfg e.1).isSome := by
  unfold opsList
  refine lookup_isSome (d := e.2) ?_
  rw [List.mem_reverse, List.mem_flatMap]
  exact ⟨l, hl, he⟩

theorem scanL_none {prec : Level V σ} : ∀ {a : List (Item V)} {prev : Option (Tok V)} {x y : Item V}
    {b : List (Item V)}, scanL cfg prec prev (a ++ x :: y :: b) = none →
    ruleAt cfg prec (some x.tok) y.tok (b.head?.map Item.tok) = none
  | [], prev, x, y, b, h => by
    rw [List.nil_append, scanL] at h
    split at h
    · cases h
    · rw [Option.map_eq_none_iff, scanL] at h
      split at h
      · cases h
      · assumption
  | z :: a, prev, x, y, b, h => by
    rw [List.cons_append, scanL] at h
    split at h
    · cases h
    · exact scanL_none (Option.map_eq_none_iff.mp h)

theorem scanR_none {prec : Level V σ} : ∀ {a : List (Item V)} {prev : Option (Tok V)} {x y : Item V}
    {b : List (Item V)}, scanR cfg prec prev (a ++ x :: y :: b) = none →
    ruleAt cfg prec (some x.tok) y.tok (b.head?.map Item.tok) = none
  | [], prev, x, y, b, h => by
    rw [List.nil_append, scanR] at h
    split at h
    · cases h
    · rename_i h1
      rw [scanR] at h1
      split at h1
      · cases h1
      · exact Option.map_eq_none_iff.mp h1
  | z :: a, prev, x, y, b, h => by
    rw [List.cons_append, scanR] at h
    split at h
    · cases h
    · rename_i h1; exact scanR_none h1

theorem scan_none {prec : Level V σ} (hp : prec ∈ cfg.ops) {a : List (Item V)} {x y : Item V}
    {b : List (Item V)} (h : scanLevel cfg prec (a ++ x :: y :: b) = none) :
    ruleAt cfg prec (some x.tok) y.tok (b.head?.map Item.tok) = none := by
  unfold scanLevel at h
  split at h
  · split at h
    · exact scanR_none h
    · exact scanL_none h
  · rename_i h1
    have := opsList_isSome hp (e := prec.head) (by simp [Level.entries])
    rw [h1] at this
    cases this

variable {divide assign mul div juxt : String}

/-- There are no two adjacent values once the invisible operators have been tried. -/
theorem no_pair (h : HasUnits cfg divide assign mul div juxt) {pre : List (Level V σ)}
    (hsub : ∀ l ∈ pre, l ∈ cfg.ops) (ha : ∃ l ∈ pre, l.has assign = true)
    (hm : ∃ l ∈ pre, l.has mul = true) (hj : ∃ l ∈ pre, l.has juxt = true)
    {items : List (Item V)} (hq : ∀ l ∈ pre, scanLevel cfg l items = none)
    {a b : List (Item V)} {x y : Item V} (hi : items = a ++ x :: y :: b) {v w : V}
    (hx : x.tok = .val v) (hy : y.tok = .val w) : False := by
  have key : ∀ l ∈ pre, ruleAt cfg l (some (.val v)) (.val w) (b.head?.map Item.tok) = none := by
    intro l hl
    have := hq l hl
    rw [hi] at this
    have := scan_none (hsub l hl) this
    rwa [hx, hy] at this
  cases hw : cfg.isUnit w with
  | false =>
    obtain ⟨l, hl, hh⟩ := hj
    have h1 := (C67_adjacent h l v w (b.head?.map Item.tok)).2.2 hw
    rw [key l hl, if_pos hh] at h1
    cases h1
  | true =>
    cases hv : cfg.isUnit v with
    | false =>
      obtain ⟨l, hl, hh⟩ := ha
      have h1 := (C67_adjacent h l v w (b.head?.map Item.tok)).1 hv hw
      rw [key l hl, if_pos hh] at h1
      cases h1
    | true =>
      obtain ⟨l, hl, hh⟩ := hm
      have h1 := (C67_adjacent h l v w (b.head?.map Item.tok)).2.1 hv hw
      rw [key l hl, if_pos hh] at h1
      cases h1

theorem gather_plain {sym : String} {index : ℕ} : ∀ {its : List (Item V)} {es : List (Option String)}
    {m : String}, (∀ e ∈ es, e = none) → gather sym index its es ≠ .error (.py m)
  | [], es, m, _ => by cases es <;> simp [gather]
  | it :: its, [], m, _ => by simp [gather]
  | it :: its, e :: es, m, h => by
    have he : e = none := h e (by simp)
    subst he
    have ih := gather_plain (sym := sym) (index := index) (its := its) (es := es) (m := m)
      (fun e he => h e (by simp [he]))
    cases ht : it.tok with
    | op o => simp [gather, ht]
    | val v =>
      simp only [gather, ht]
      cases hg : gather sym index its es with
      | ok vs => simp
      | error e => simp only; rw [hg] at ih; exact ih

theorem gather_then {sym : String} {index : ℕ} {a b c d : Item V} {t m : String}
    (h : ∀ v w, b.tok = .val v → c.tok = .val w → False) :
    gather sym index [a, b, c, d] [none, none, some t, none] ≠ .error (.py m) := by
  cases ha : a.tok with
  | op o => simp [gather, ha]
  | val va =>
    cases hb : b.tok with
    | op o => simp [gather, ha, hb]
    | val vb =>
      cases hc : c.tok with
      | val vc => exact (h vb vc hb hc).elim
      | op o =>
        by_cases ho : o = t
        · cases hd : d.tok <;> simp [gather, ha, hb, hc, hd, ho]
        · simp [gather, ha, hb, hc, ho]

theorem gather_mem {sym : String} {index : ℕ} : ∀ {its : List (Item V)} {es : List (Option String)}
    {vs : List V}, gather sym index its es = .ok vs → ∀ v ∈ vs, ∃ it ∈ its, it.tok = .val v
  | [], es, vs, h => by
    cases es <;> simp only [gather, Except.ok.injEq] at h <;> subst h <;> simp
  | it :: its, [], vs, h => by
    simp only [gather, Except.ok.injEq] at h
    subst h; simp
  | it :: its, e :: es, vs, h => by
    intro v hv
    cases e with
    | some t =>
      cases ht : it.tok with
      | val u => simp [gather, ht] at h
      | op o =>
        simp only [gather, ht] at h
        split at h
        · obtain ⟨x, hx, h2⟩ := gather_mem h v hv
          exact ⟨x, by simp [hx], h2⟩
        · cases h
    | none =>
      cases ht : it.tok with
      | op o => simp [gather, ht] at h
      | val u =>
        simp only [gather, ht] at h
        split at h
        · rename_i vs' hg
          simp only [Except.ok.injEq] at h
          subst h
          rcases List.mem_cons.mp hv with rfl | hv
          · exact ⟨it, by simp, ht⟩
          · obtain ⟨x, hx, h2⟩ := gather_mem hg v hv
            exact ⟨x, by simp [hx], h2⟩
        · cases h

/-- All values among the items have `P`. -/
def AllP (P : V → Prop) (items : List (Item V)) : Prop := ∀ it ∈ items, ∀ v, it.tok = .val v → P v

theorem ruleAt_has {prec : Level V σ} {prev : Option (Tok V)} {item : Tok V} {next : Option (Tok V)}
    {s : String} {w : ℕ} (h : ruleAt cfg prec prev item next = some (s, w)) : prec.has s = true := by
  have key : ∀ (o : Option String) (p : String → Bool) (r : String),
      o.filter (fun s => prec.has s && p s) = some r → prec.has r = true := by
    intro o p r hr
    have := (Option.filter_eq_some_iff.mp hr).2
    simp only [Bool.and_eq_true] at this
    exact this.1
  unfold ruleAt at h
  simp only [Bool.and_assoc] at h
  split at h
  · rename_i r hr; cases h; exact key _ _ _ hr
  split at h
  · rename_i r hr; cases h; exact key _ _ _ hr
  split at h
  · rename_i r hr; cases h; exact key _ _ _ hr
  split at h
  · rename_i r hr; cases h; exact key _ _ _ hr
  split at h
  · split at h
    · rename_i hc
      cases h
      simp only [Bool.and_eq_true] at hc
      exact hc.1
    · cases h
  · cases h

theorem scanL_has {prec : Level V σ} : ∀ {items : List (Item V)} {prev : Option (Tok V)} {i w : ℕ}
    {s : String}, scanL cfg prec prev items = some (i, s, w) → prec.has s = true
  | [], _, _, _, _, h => by simp [scanL] at h
  | it :: rest, prev, i, w, s, h => by
    rw [scanL] at h
    split at h
    · rename_i r hr
      cases h
      exact ruleAt_has hr
    · obtain ⟨⟨j, t, u⟩, hx, he⟩ := Option.map_eq_some_iff.mp h
      cases he
      exact scanL_has hx

theorem scanR_has {prec : Level V σ} : ∀ {items : List (Item V)} {prev : Option (Tok V)} {i w : ℕ}
    {s : String}, scanR cfg prec prev items = some (i, s, w) → prec.has s = true
  | [], _, _, _, _, h => by simp [scanR] at h
  | it :: rest, prev, i, w, s, h => by
    rw [scanR] at h
    split at h
    · rename_i x hx
      obtain ⟨j, t, u⟩ := x
      cases h
      exact scanR_has hx
    · obtain ⟨⟨t, u⟩, hx, he⟩ := Option.map_eq_some_iff.mp h
      cases he
      exact ruleAt_has hx

theorem findRedex_split {items : List (Item V)} {i w : ℕ} {sym : String}
    (h : findRedex cfg items = some (i, sym, w)) :
    ∃ pre l post, cfg.ops = pre ++ l :: post ∧ l.has sym = true ∧
      ∀ q ∈ pre, scanLevel cfg q items = none := by
  unfold findRedex at h
  obtain ⟨pre, l, post, h1, h2, h3⟩ := List.findSome?_eq_some_iff.mp h
  refine ⟨pre, l, post, h1, ?_, h3⟩
  unfold scanLevel at h2
  split at h2
  · split at h2
    · exact scanR_has h2
    · exact scanL_has h2
  · cases h2

/-- One application of an operator. -/
theorem step_safe (hj : Joins cfg divide assign mul div juxt)
    (hmk : ∀ e, P (cfg.mkErr e))
    (hops : ∀ o d, opsList cfg o = some d → ∀ ins, (∀ v ∈ ins, P v) → Safe P Q (d.call ins))
    {items : List (Item V)} (hP : AllP P items) {act : Act σ (List (Item V))}
    (h : step cfg items = some act) (s : σ) :
    (∀ its, (act s).1 = .ok its → AllP P its) ∧ ∀ m, (act s).1 = .error (.py m) → Q m := by
  unfold step at h
  split at h
  · cases h
  rename_i i sym w hr
  split at h
  · cases h
  rename_i item hit
  injection h with h
  subst h
  obtain ⟨pre, l, post, h1, h2, h3⟩ := findRedex_split hr
  have hl : l ∈ cfg.ops := by rw [h1]; simp
  obtain ⟨e, he, hes⟩ : ∃ e ∈ l.entries, e.1 = sym := by
    unfold Level.has at h2
    obtain ⟨e, he, hes⟩ := List.any_eq_true.mp h2
    exact ⟨e, he, by simpa using hes⟩
  have hsome := opsList_isSome hl he
  rw [hes] at hsome
  obtain ⟨d, hd⟩ := Option.isSome_iff_exists.mp hsome
  unfold execOp
  rw [hd]
  dsimp only
  split
  · simp
  split
  · simp
  rename_i hlen1 hlen2
  have hgood : ∀ m, gather sym item.index ((items.drop (i - d.linputs.length)).take d.linputs.length
      ++ (items.drop (i + w)).take d.rinputs.length) (d.linputs ++ d.rinputs) ≠ .error (.py m) := by
    intro m
    rcases hj.symbols pre l post sym d h1 h2 hd with hp | ⟨⟨t, hL, hR⟩, ha, hm, hx⟩
    · exact gather_plain hp
    · rw [hL] at hlen1
      rw [hR] at hlen2
      rw [hL, hR]
      simp only [List.length_cons, List.length_nil] at hlen1 hlen2 ⊢
      obtain ⟨a, A, hA⟩ : ∃ a A, items.drop (i - (0 + 1)) = a :: A := by
        cases hh : items.drop (i - (0 + 1)) with
        | nil => have := congrArg List.length hh; simp at this; omega
        | cons a A => exact ⟨a, A, rfl⟩
      obtain ⟨b, c, d', B, hB⟩ : ∃ b c d' B, items.drop (i + w) = b :: c :: d' :: B := by
        have hlen : 3 ≤ (items.drop (i + w)).length := by simp; omega
        match hh : items.drop (i + w), hlen with
        | b :: c :: d' :: B, _ => exact ⟨b, c, d', B, rfl⟩
      rw [hA, hB]
      refine gather_then ?_
      intro v u hv hu
      refine no_pair hj.units (pre := pre) (by intro l hl; rw [h1]; simp [hl]) ha hm hx h3
        (a := items.take (i + w)) (b := d' :: B) (x := b) (y := c) ?_ hv hu
      rw [← hB, List.take_append_drop]
  split
  · rename_i e hg
    constructor
    · intro its hi; cases hi
    · intro m hm
      simp only [Except.error.injEq] at hm
      subst hm
      exact (hgood m hg).elim
  · rename_i inputs hg
    have hin : ∀ v ∈ inputs, P v := by
      intro v hv
      obtain ⟨it, hit, h⟩ := gather_mem hg v hv
      refine hP it ?_ v h
      rcases List.mem_append.mp hit with h | h
      · exact List.mem_of_mem_drop (List.mem_of_mem_take h)
      · exact List.mem_of_mem_drop (List.mem_of_mem_take h)
    have hput : ∀ v, P v → AllP P (items.take (i - d.linputs.length) ++
        (⟨.val v, item.index⟩ : Item V) :: items.drop (i + d.rinputs.length + w)) := by
      intro v hv it hit u hu
      rcases List.mem_append.mp hit with h | h
      · exact hP it (List.mem_of_mem_take h) u hu
      · rcases List.mem_cons.mp h with h | h
        · subst h; cases hu; exact hv
        · exact hP it (List.mem_of_mem_drop h) u hu
    have hs := hops sym d hd inputs hin s
    split
    · rename_i v s' hc
      rw [hc] at hs
      refine ⟨fun its hi => ?_, fun m hm => by cases hm⟩
      cases hi
      exact hput v (hs.1 v rfl)
    · rename_i m s' hc
      rw [hc] at hs
      refine ⟨fun its hi => (by cases hi), fun m' hm => ?_⟩
      cases hm
      exact hs.2 m rfl
    · refine ⟨fun its hi => ?_, fun m hm => by cases hm⟩
      cases hi
      exact hput _ (hmk _)

theorem finish_safe (hj : Joins cfg divide assign mul div juxt) {items : List (Item V)}
    (hP : AllP P items) (hne : items ≠ []) (h : step cfg items = none) :
    (∀ v, finish items = .ok v → P v) ∧ ∀ m, finish items = .error (.py m) → Q m := by
  match items, hne with
  | [it], _ =>
    unfold finish
    cases ht : it.tok with
    | op o => simp [ht]
    | val v =>
      refine ⟨fun u hu => ?_, fun m hm => by simp [ht] at hm⟩
      simp only [ht, Except.ok.injEq] at hu
      subst hu
      exact hP it (by simp) v ht
  | x :: y :: rest, _ =>
    unfold finish
    dsimp only
    split
    · rename_i it hf
      have ho := List.find?_some hf
      cases ht : it.tok with
      | op o => simp
      | val v => rw [ht] at ho; simp [Tok.isOp] at ho
    · rename_i hf
      exfalso
      have hall := List.find?_eq_none.mp hf
      have hx := hall x (by simp)
      have hy := hall y (by simp)
      cases htx : x.tok with
      | op o => rw [htx] at hx; simp [Tok.isOp] at hx
      | val v =>
        cases hty : y.tok with
        | op o => rw [hty] at hy; simp [Tok.isOp] at hy
        | val w =>
          refine no_pair hj.units (pre := cfg.ops) (fun l hl => hl) hj.hasAssign hj.hasMul hj.hasJuxt ?_
            (a := []) (b := rest) rfl htx hty
          intro l hl
          have hfr : findRedex cfg (x :: y :: rest) = none := by
            cases hr : findRedex cfg (x :: y :: rest) with
            | none => rfl
            | some r =>
              obtain ⟨i, sym, w⟩ := r
              have hlt := (findRedex_width hr).1
              simp [step, hr, List.getElem?_eq_getElem hlt] at h
          unfold findRedex at hfr
          exact (List.findSome?_eq_none_iff.mp hfr) l hl

theorem loop_safe (hc : Consumes cfg) (hj : Joins cfg divide assign mul div juxt)
    (hmk : ∀ e, P (cfg.mkErr e))
    (hops : ∀ o d, opsList cfg o = some d → ∀ ins, (∀ v ∈ ins, P v) → Safe P Q (d.call ins)) :
    ∀ (n : ℕ) (items : List (Item V)) (s : σ) (r : Except Raise V × σ), AllP P items → items ≠ [] →
      loop cfg n items s = some r → (∀ v, r.1 = .ok v → P v) ∧ ∀ m, r.1 = .error (.py m) → Q m
  | n, items, s, r, hP, hne, h => by
    unfold loop at h
    split at h
    · rename_i hs
      cases h
      exact finish_safe hj hP hne hs
    · rename_i act ha
      cases n with
      | zero => cases h
      | succ n =>
        simp only at h
        have hs := step_safe hj hmk hops hP ha s
        cases hr : act s with
        | mk res s' =>
          rw [hr] at h hs
          cases res with
          | ok its =>
            have hl := (step_shorter hc ha hr).2
            exact loop_safe hc hj hmk hops n its s' r (hs.1 its rfl)
              (by intro h0; subst h0; simp at hl) h
          | error e =>
            cases h
            exact ⟨fun v hv => (by cases hv), fun m hm => by cases hm; exact hs.2 _ rfl⟩

theorem execOperands_safe (hmk : ∀ e, P (cfg.mkErr e)) : ∀ (srcs : List (Src V σ)) (i : ℕ) (s : σ),
    (∀ r, Src.operand r ∈ srcs → Safe P Q r) →
    (∀ its, (execOperands cfg i srcs s).1 = .ok its → AllP P its) ∧
      ∀ m, (execOperands cfg i srcs s).1 = .error (.py m) → Q m
  | [], i, s, _ => by
    refine ⟨fun its h => ?_, fun m h => by simp [execOperands] at h⟩
    simp only [execOperands, Except.ok.injEq] at h
    subst h
    intro it hit; simp at hit
  | .op o :: rest, i, s, h => by
    have ih := execOperands_safe hmk rest (i + 1) s (fun r hr => h r (by simp [hr]))
    rw [execOperands]
    cases hr : execOperands cfg (i + 1) rest s with
    | mk res s' =>
      rw [hr] at ih
      cases res with
      | ok items =>
        refine ⟨fun its hi => ?_, fun m hm => by cases hm⟩
        cases hi
        intro it hit v hv
        rcases List.mem_cons.mp hit with h | h
        · subst h; cases hv
        · exact ih.1 items rfl it h v hv
      | error e => exact ⟨fun its hi => (by cases hi), ih.2⟩
  | .operand r :: rest, i, s, h => by
    have hr := h r (by simp) s
    have hx : (∀ v, (execOperand cfg i r s).1 = .ok v → P v) ∧
        ∀ m, (execOperand cfg i r s).1 = .error (.py m) → Q m := by
      unfold execOperand
      cases hh : r s with
      | mk res s' =>
        rw [hh] at hr
        cases res with
        | ok v => exact ⟨fun u hu => hr.1 u hu, fun m hm => by cases hm⟩
        | error e =>
          cases e with
          | exec e => exact ⟨fun u hu => (by cases hu; exact hmk _), fun m hm => by cases hm⟩
          | «calc» a b => exact ⟨fun u hu => (by cases hu; exact hmk _), fun m hm => by cases hm⟩
          | py m => exact ⟨fun u hu => (by cases hu), hr.2⟩
    rw [execOperands]
    cases hh : execOperand cfg i r s with
    | mk res s' =>
      rw [hh] at hx
      cases res with
      | error e => exact ⟨fun its hi => (by cases hi), fun m hm => by cases hm; exact hx.2 _ rfl⟩
      | ok v =>
        dsimp only
        have ih := execOperands_safe hmk rest (i + 1) s' (fun r hr => h r (by simp [hr]))
        cases hr : execOperands cfg (i + 1) rest s' with
        | mk res s'' =>
          rw [hr] at ih
          cases res with
          | error e => exact ⟨fun its hi => (by cases hi), ih.2⟩
          | ok items =>
            refine ⟨fun its hi => ?_, fun m hm => by cases hm⟩
            cases hi
            intro it hit u hu
            rcases List.mem_cons.mp hit with h | h
            · subst h; cases hu; exact hx.1 v rfl
            · exact ih.1 items rfl it h u hu

theorem execute_safe (hc : Consumes cfg) (hj : Joins cfg divide assign mul div juxt)
    (hmk : ∀ e, P (cfg.mkErr e))
    (hops : ∀ o d, opsList cfg o = some d → ∀ ins, (∀ v ∈ ins, P v) → Safe P Q (d.call ins))
    {srcs : List (Src V σ)} (h : ∀ r, Src.operand r ∈ srcs → Safe P Q r) :
    Safe P Q (execute cfg srcs) := by
  intro s
  have he := executeF_eq hc srcs s
  unfold executeF at he
  split at he
  · rw [← Option.some.inj he]
    exact ⟨fun v hv => (by cases hv), fun m hm => by cases hm⟩
  · rename_i hne
    have ho := execOperands_safe hmk srcs 0 s h
    cases hr : execOperands cfg 0 srcs s with
    | mk res s' =>
      rw [hr] at he ho
      cases res with
      | error e =>
        rw [← Option.some.inj he]
        exact ⟨fun v hv => (by cases hv), fun m hm => by cases hm; exact ho.2 _ rfl⟩
      | ok its =>
        have hl := execOperands_length srcs 0 s s' its hr
        refine loop_safe hc hj hmk hops _ its s' _ (ho.1 its rfl) ?_ he
        intro h0
        subst h0
        exact hne (List.length_eq_zero_iff.mp hl.symm)

/-- Every value that is an exception is one that function arguments may be, or the exception of
Python it then causes is allowed. -/
def Errs (cfg : Config V σ) (P : V → Prop) (Q : String → Prop) : Prop :=
  ∀ v e, P v → cfg.getErr v = some e →
    (∃ x, e = .exec x) ∨ ((∃ m b, e = .calc m b) ∧ Q "AttributeError: items")

theorem innerVal_safe (he : Errs cfg P Q) {run : Act σ V} (h : Safe P Q run) :
    Safe P Q (innerVal cfg run) := by
  intro s
  have hs := h s
  unfold innerVal
  cases hr : run s with
  | mk res s' =>
    rw [hr] at hs
    cases res with
    | error e =>
      refine ⟨fun v hv => (by cases hv), fun m hm => ?_⟩
      cases e with
      | py m' => cases hm; exact hs.2 _ rfl
      | exec e => cases hm
      | «calc» a b => cases hm
    | ok v =>
      dsimp only
      split
      · rename_i e hg
        refine ⟨fun v hv => (by cases hv), fun m hm => ?_⟩
        rcases he v e (hs.1 v rfl) hg with ⟨x, rfl⟩ | ⟨⟨a, b, rfl⟩, _⟩ <;> cases hm
      · exact ⟨fun u hu => hs.1 u hu, fun m hm => by cases hm⟩

theorem argVals_safe (he : Errs cfg P Q) (b : Bool) : ∀ (runs : List (Act σ V)) (s : σ),
    (∀ r ∈ runs, Safe P Q r) →
    (∀ vs, (argVals cfg b runs s).1 = .ok vs → ∀ v ∈ vs, P v) ∧
      ∀ m, (argVals cfg b runs s).1 = .error (.py m) → Q m
  | [], s, _ => by
    refine ⟨fun vs h => ?_, fun m h => by simp [argVals] at h⟩
    simp only [argVals, Except.ok.injEq] at h
    subst h; simp
  | run :: rest, s, h => by
    have hs := h run (by simp) s
    rw [argVals]
    cases hr : run s with
    | mk res s' =>
      rw [hr] at hs
      cases res with
      | error e =>
        refine ⟨fun v hv => (by cases hv), fun m hm => ?_⟩
        cases e with
        | py m' => cases hm; exact hs.2 _ rfl
        | exec e => cases hm
        | «calc» a b => cases hm
      | ok v =>
        dsimp only
        split
        · exact ⟨fun v hv => (by cases hv), fun m hm => by cases hm⟩
        · rename_i e hne hg
          refine ⟨fun v hv => (by cases hv), fun m hm => ?_⟩
          cases hm
          have hg' : cfg.getErr v = some e := by
            cases b with
            | true => simp at hg
            | false => simpa using hg
          rcases he v e (hs.1 v rfl) hg' with ⟨x, rfl⟩ | ⟨_, hq⟩
          · exact (hne x rfl).elim
          · exact hq
        · have ih := argVals_safe he b rest s' (fun r hr => h r (by simp [hr]))
          cases hh : argVals cfg b rest s' with
          | mk res s'' =>
            rw [hh] at ih
            cases res with
            | error e => exact ⟨fun vs hi => (by cases hi), ih.2⟩
            | ok vs =>
              refine ⟨fun us hi => ?_, fun m hm => by cases hm⟩
              cases hi
              intro u hu
              rcases List.mem_cons.mp hu with rfl | hu
              · exact hs.1 _ rfl
              · exact ih.1 vs rfl u hu

theorem funcVal_safe (he : Errs cfg P Q) {name : String} {f : FuncDef V σ}
    (hf : cfg.funcs name = some f)
    (hfuncs : ∀ ins, (∀ v ∈ ins, P v) → Safe P Q (f.call ins))
    {runs : List (Act σ V)} (h : ∀ r ∈ runs, Safe P Q r) : Safe P Q (funcVal cfg name runs) := by
  intro s
  have ha := argVals_safe he f.canBeExc runs s h
  unfold funcVal
  rw [hf]
  dsimp only
  cases hr : argVals cfg f.canBeExc runs s with
  | mk res s' =>
    rw [hr] at ha
    cases res with
    | error e => exact ⟨fun v hv => (by cases hv), fun m hm => by cases hm; exact ha.2 _ rfl⟩
    | ok vs => exact hfuncs vs (ha.1 vs rfl) s'

end MC.Escape
