import Verif.Lemmas.UnitPhrase
import Verif.Lemmas.EnginePure

/-! # The engine on expressions with units -/

namespace MC.Props
open MC MC.Spec

section
variable {V σ : Type} {call : String → List V → Act σ V} {isUnit : V → Bool} {mkErr : ExecErr → V}
  {getErr : V → Option Raise} {funcs : String → Option (FuncDef V σ)}
  {f : String → List V → Except String V}

/-! ## Prefix operators, from right to left -/

/-- There is no prefix operator in `T`. -/
def NoPrefix (T : List (Tok V)) : Prop := ∀ o, .op o ∈ T → hasS 1 o = false

theorem noPrefix_append {A B : List (Tok V)} (ha : NoPrefix A) (hb : NoPrefix B) : NoPrefix (A ++ B) := by
  intro o ho
  rcases List.mem_append.1 ho with h | h
  · exact ha o h
  · exact hb o h

theorem noPrefix_cons {o : String} {B : List (Tok V)} (ho : hasS 1 o = false) (hb : NoPrefix B) :
    NoPrefix (.op o :: B) := by
  intro o' h
  rcases List.mem_cons.1 h with h | h
  · cases h; exact ho
  · exact hb o' h

theorem noPrefix_val (v : V) : NoPrefix [(.val v : Tok V)] := by
  intro o h
  simp at h

theorem phrase_noPrefix {j k : ℕ} {b e : Bool} {T : List (Tok V)} {v : V} (hj : 2 ≤ j)
    (hp : PhraseFrom isUnit f j k b e T v) : NoPrefix T := by
  induction hp with
  | atom v => exact noPrefix_val v
  | up _ ih => exact ih
  | @left k ops o t u v w x b e b' e' hd ho ht hu hx hdiv h6 iht ihu =>
    have := phrase_le hu
    refine noPrefix_append iht (noPrefix_cons ?_ ihu)
    obtain ⟨h1, h2, h3⟩ := infixes_has hd ho (i := 1) (by omega)
    rw [h1]
    simp; omega
  | pref hk hd _ _ _ _ =>
    have := prefixes_row hd
    omega
  | tern hd _ _ _ _ iht ihu ihr =>
    obtain ⟨rfl, rfl, rfl⟩ := ternary_row hd
    exact noPrefix_append iht (noPrefix_cons (by decide +kernel) (noPrefix_append ihu
      (noPrefix_cons (by decide +kernel) ihr)))
  | times _ _ _ _ _ iht ihu => exact noPrefix_append iht ihu
  | per _ _ _ _ _ iht ihu => exact noPrefix_append iht (noPrefix_cons (by decide +kernel) ihu)
  | of _ _ _ _ _ _ iht ihu => exact noPrefix_append iht ihu
  | next _ _ _ _ iht ihu => exact noPrefix_append iht ihu

/-- The last prefix operator of `T` is applied, which makes `T'` of `T`. -/
inductive AppliesP (f : String → List V → Except String V) : List (Tok V) → List (Tok V) → Prop
  | pref {A B : List (Tok V)} {x z : V} {o : String} : hasS 1 o = true → o ≠ "/" →
      o ≠ "UNIT_MULTIPLY" ∧ o ≠ "UNIT_DIVIDE" ∧ o ≠ "IMPLICIT_MULTIPLY" → inputsS o = some ([], [none]) →
      f o [x] = .ok z → NoPrefix B → AppliesP f (A ++ .op o :: .val x :: B) (A ++ .val z :: B)

theorem appliesP_left {T T' R : List (Tok V)} (h : AppliesP f T T') (hr : NoPrefix R) :
    AppliesP f (T ++ R) (T' ++ R) := by
  cases h with
  | pref h1 h2 h3 h4 h5 h6 =>
    rw [List.append_assoc, List.append_assoc]
    exact .pref h1 h2 h3 h4 h5 (noPrefix_append h6 hr)

theorem appliesP_right {T T' : List (Tok V)} (S : List (Tok V)) (h : AppliesP f T T') :
    AppliesP f (S ++ T) (S ++ T') := by
  cases h with
  | pref h1 h2 h3 h4 h5 h6 =>
    rw [← List.append_assoc, ← List.append_assoc]
    exact .pref h1 h2 h3 h4 h5 h6

theorem prefixes_inputs {k : ℕ} {ops : List String} {o : String} (h : documented[k]? = some (.prefixes ops))
    (ho : o ∈ ops) : inputsS o = some ([], [none]) := by
  have hk := (List.getElem?_eq_some_iff.mp h).1
  have key : ∀ k < 16, (match documented[k]? with
      | some (RowKind.prefixes ops) => ops.all (fun o => inputsS o == some ([], [none]))
      | _ => true) = true := by
    decide +kernel
  have := key k hk
  rw [h] at this
  simp only [List.all_eq_true, beq_iff_eq] at this
  exact this o ho

theorem phrase_appliesP {k : ℕ} {b e : Bool} {T : List (Tok V)} {v : V}
    (hp : PhraseFrom isUnit f 1 k b e T v) (hjk : 1 < k) :
    PhraseFrom isUnit f 2 k b e T v ∨ ∃ T', AppliesP f T T' ∧ LeavesPhrase isUnit f 1 k b e T' v := by
  induction hp with
  | atom v => omega
  | @up k b e t v ht ih =>
    by_cases hk : k = 1
    · obtain ⟨rfl, rfl, rfl⟩ := phrase_base ht hk
      subst hk
      exact .inl (.atom v)
    · have := phrase_le ht
      rcases ih (by omega) with h | ⟨T', h1, b', e', h2, h3⟩
      · exact .inl (.up h)
      · exact .inr ⟨T', h1, b', e', .up h2, h3⟩
  | @left k ops o t u v w x b e b' e' hd ho ht hu hx hdiv h6 iht ihu =>
    have hk := phrase_le hu
    obtain ⟨_, hk1, _, _, _⟩ := infixes_inputs hd ho
    rcases ihu (by omega) with h2 | ⟨u', h2, b2, e2, h3, h4⟩
    · rcases iht (by omega) with h1 | ⟨t', h1, b1, e1, h2', h3⟩
      · exact .inl (.left hd ho h1 h2 hx hdiv h6)
      · refine .inr ⟨t' ++ .op o :: u, appliesP_left h1 (noPrefix_cons ?_ (phrase_noPrefix (le_refl _) h2)), _, _,
          .left hd ho h2' hu hx ?_ h6, ?_⟩
        · rw [(infixes_has hd ho (i := 1) (by omega)).1]
          simp; omega
        · exact fun e => and_le (h3 (by omega)).2 id (hdiv e)
        · exact fun e => ⟨edge_le x (h3 e).1, id⟩
    · refine .inr ⟨t ++ .op o :: u', ?_, _, _, .left hd ho ht h3 hx ?_ h6, ?_⟩
      · have := appliesP_right (t ++ [.op o]) h2
        simpa using this
      · exact fun e => and_le id (h4 (by omega)).1 (hdiv e)
      · exact fun e => ⟨id, edge_le x (h4 e).2⟩
  | @pref k ops o u w x b e hk hd ho hu hx ih =>
    obtain ⟨h1, h2, h3⟩ := prefixes_has hd ho (i := 1) (by omega)
    have hk1 := prefixes_row hd
    subst hk1
    rcases ih (by omega) with g | ⟨u', g1, b1, e1, g2, g3⟩
    · obtain ⟨rfl, -, -⟩ := phrase_base g rfl
      refine .inr ⟨[.val x], .pref (A := []) (B := []) (by rw [h1]; rfl) h2 h3 (prefixes_inputs hd ho) hx
        (by intro o h; cases h), _, _, .up (.atom x), fun _ => ⟨id, id⟩⟩
    · exact .inr ⟨.op o :: u', appliesP_right [.op o] g1, _, _, .pref hk hd ho g2 hx, fun _ => ⟨id, id⟩⟩
  | @tern k o s t u r v w y x b e b' e' b'' e'' hd ht hu hr hx iht ihu ihr =>
    obtain ⟨rfl, rfl, rfl⟩ := ternary_row hd
    rcases ihr (by omega) with h5 | ⟨r', h5, b5, e5, h6, h7⟩
    · have hnr : NoPrefix (.op "else" :: r) := noPrefix_cons (by decide +kernel) (phrase_noPrefix (le_refl _) h5)
      rcases ihu (by omega) with h2 | ⟨u', h2, b2, e2, h3, h4⟩
      · rcases iht (by omega) with h1 | ⟨t', h1, b1, e1, h2', h3⟩
        · exact .inl (.tern hd h1 h2 h5 hx)
        · refine .inr ⟨t' ++ .op "then" :: (u ++ .op "else" :: r), appliesP_left h1 (noPrefix_cons (by decide +kernel)
            (noPrefix_append (phrase_noPrefix (le_refl _) h2) hnr)), _, _, .tern hd h2' hu hr hx,
            fun e => ⟨(h3 e).1, id⟩⟩
      · refine .inr ⟨t ++ .op "then" :: (u' ++ .op "else" :: r), ?_, _, _, .tern hd ht h3 hr hx,
          fun e => ⟨id, id⟩⟩
        have := appliesP_right (t ++ [.op "then"]) (appliesP_left h2 hnr)
        simpa using this
    · refine .inr ⟨t ++ .op "then" :: (u ++ .op "else" :: r'), ?_, _, _, .tern hd ht hu h6 hx,
          fun e => ⟨id, (h7 e).2⟩⟩
      have := appliesP_right (t ++ [.op "then"] ++ u ++ [.op "else"]) h5
      simpa using this
  | @times t u v w x b e b' e' ht hu hv hw hx iht ihu =>
    rcases ihu (by omega) with h2 | ⟨u', h2, b2, e2, h3, h4⟩
    · rcases iht (by omega) with h1 | ⟨t', h1, b1, e1, h2', h3⟩
      · exact .inl (.times h1 h2 hv hw hx)
      · exact .inr ⟨t' ++ u, appliesP_left h1 (phrase_noPrefix (le_refl _) h2), _, _,
          .times h2' hu hv hw hx, fun e => ⟨(h3 e).1, id⟩⟩
    · exact .inr ⟨t ++ u', appliesP_right _ h2, _, _, .times ht h3 hv hw hx, fun e => ⟨id, (h4 e).2⟩⟩
  | @per t u v w x b e b' e' ht hu hv hw hx iht ihu =>
    rcases ihu (by omega) with h2 | ⟨u', h2, b2, e2, h3, h4⟩
    · rcases iht (by omega) with h1 | ⟨t', h1, b1, e1, h2', h3⟩
      · exact .inl (.per h1 h2 hv hw hx)
      · exact .inr ⟨t' ++ .op "/" :: u, appliesP_left h1 (noPrefix_cons (by decide +kernel)
          (phrase_noPrefix (le_refl _) h2)), _, _, .per h2' hu hv hw hx, fun e => ⟨(h3 e).1, id⟩⟩
    · refine .inr ⟨t ++ .op "/" :: u', ?_, _, _, .per ht h3 hv hw hx, fun e => ⟨id, (h4 e).2⟩⟩
      have := appliesP_right (t ++ [.op "/"]) h2
      simpa using this
  | @of t u v w x b e b' e' ht hu hv hw hx hxu iht ihu =>
    rcases ihu (by omega) with h2 | ⟨u', h2, b2, e2, h3, h4⟩
    · rcases iht (by omega) with h1 | ⟨t', h1, b1, e1, h2', h3⟩
      · exact .inl (.of h1 h2 hv hw hx hxu)
      · exact .inr ⟨t' ++ u, appliesP_left h1 (phrase_noPrefix (le_refl _) h2), _, _,
          .of h2' hu hv hw hx hxu, fun e => ⟨(h3 e).1, id⟩⟩
    · exact .inr ⟨t ++ u', appliesP_right _ h2, _, _, .of ht h3 hv hw hx hxu, fun e => ⟨id, (h4 e).2⟩⟩
  | @next t u v w x b e e' ht hu hx hxu iht ihu =>
    rcases ihu (by omega) with h2 | ⟨u', h2, b2, e2, h3, h4⟩
    · rcases iht (by omega) with h1 | ⟨t', h1, b1, e1, h2', h3⟩
      · exact .inl (.next h1 h2 hx hxu)
      · exact .inr ⟨t' ++ u, appliesP_left h1 (phrase_noPrefix (le_refl _) h2), _, _,
          .next h2' hu hx hxu, fun e => ⟨(h3 e).1, id⟩⟩
    · have hb : b2 = false := by
        have := (h4 (by omega)).1
        cases b2 <;> simp_all
      subst hb
      exact .inr ⟨t ++ u', appliesP_right _ h2, _, _, .next ht h3 hx hxu, fun e => ⟨id, (h4 e).2⟩⟩

/-! ## Scanning -/

theorem scanL_still {cfg : Config V σ} {prec : Level V σ} : ∀ (items : List (Item V)) (prev : Option (Tok V)),
    Still cfg prec prev (items.map Item.tok) none → scanL cfg prec prev items = none
  | [], _, _ => rfl
  | it :: rest, prev, h => by
    obtain ⟨h1, h2⟩ := h
    rw [scanL]
    rw [Option.or_none, List.head?_map] at h1
    rw [h1, scanL_still rest _ h2]
    rfl

theorem scanL_at {cfg : Config V σ} {prec : Level V σ} {it : Item V} {I2 : List (Item V)} {r : String × ℕ} :
    ∀ (I1 : List (Item V)) (prev : Option (Tok V)), Still cfg prec prev (I1.map Item.tok) (some it.tok) →
    ruleAt cfg prec (lastOr prev (I1.map Item.tok)) it.tok (I2.head?.map Item.tok) = some r →
    scanL cfg prec prev (I1 ++ it :: I2) = some (I1.length, r)
  | [], prev, _, h => by
    rw [List.nil_append, scanL]
    rw [show lastOr prev (List.map Item.tok []) = prev by simp [lastOr]] at h
    rw [h]; rfl
  | x :: I1, prev, ⟨h1, h2⟩, h => by
    rw [List.cons_append, scanL]
    have : ((I1 ++ it :: I2).head?.map Item.tok) = (I1.map Item.tok).head?.or (some it.tok) := by
      cases I1 <;> simp
    rw [this, h1]
    rw [List.map_cons, lastOr_cons] at h
    rw [scanL_at I1 _ h2 h]
    rfl

theorem scanR_still {cfg : Config V σ} {prec : Level V σ} : ∀ (items : List (Item V)) (prev : Option (Tok V)),
    Still cfg prec prev (items.map Item.tok) none → scanR cfg prec prev items = none
  | [], _, _ => rfl
  | it :: rest, prev, h => by
    obtain ⟨h1, h2⟩ := h
    rw [scanR]
    rw [Option.or_none, List.head?_map] at h1
    rw [scanR_still rest _ h2]
    simp only [h1]
    rfl

theorem scanR_at {cfg : Config V σ} {prec : Level V σ} {it : Item V} {I2 : List (Item V)} {r : String × ℕ} 
    (h2 : Still cfg prec (some it.tok) (I2.map Item.tok) none) :
    ∀ (I1 : List (Item V)) (prev : Option (Tok V)), 
    ruleAt cfg prec (lastOr prev (I1.map Item.tok)) it.tok (I2.head?.map Item.tok) = some r →
    scanR cfg prec prev (I1 ++ it :: I2) = some (I1.length, r)
  | [], prev, h => by
    rw [List.nil_append, scanR, scanR_still _ _ h2]
    rw [show lastOr prev (List.map Item.tok []) = prev by simp [lastOr]] at h
    simp only [h]; rfl
  | x :: I1, prev, h => by
    rw [List.cons_append, scanR]
    rw [List.map_cons, lastOr_cons] at h
    rw [scanR_at h2 I1 _ h]
    rfl

theorem scanLevel_row {i : ℕ} {prec : Level V σ} (h : IsRow call isUnit mkErr getErr funcs i prec)
    (items : List (Item V)) : scanLevel (shipped call isUnit mkErr getErr funcs) prec items
      = if i = 1 then scanR (shipped call isUnit mkErr getErr funcs) prec none items
        else scanL (shipped call isUnit mkErr getErr funcs) prec none items := by
  obtain ⟨hi, h⟩ := h
  have e2 : (shipped call isUnit mkErr getErr funcs).ops = shippedRows.map (levelOf call) := rfl
  rw [e2, List.getElem?_map, Option.map_eq_some_iff] at h
  obtain ⟨r, hr, rfl⟩ := h
  have key : ∀ i < 17, (match shippedRows[i]? with
      | some r => (shippedAll.reverse.lookup r.1.1).map (·.rtl) == some (decide (i = 1))
      | none => true) = true := by decide +kernel
  have := key i hi
  rw [hr] at this
  simp only [beq_iff_eq] at this
  unfold scanLevel
  rw [show (levelOf call r).head.1 = r.1.1 from rfl, opsList_shipped]
  cases hl : shippedAll.reverse.lookup r.1.1 with
  | none => rw [hl] at this; cases this
  | some x =>
    rw [hl] at this
    simp only [Option.map_some, Option.some.injEq] at this
    simp only [Option.map_some, Fixity.toOp, this, decide_eq_true_eq]

/-! ## Applying -/

theorem execOp_ok {cfg : Config V σ} {sym : String} {op : OpDef V σ} (ho : opsList cfg sym = some op)
    {I1 L M R I2 : List (Item V)} (hL : L.length = op.linputs.length) (hR : R.length = op.rinputs.length)
    {item : Item V} {ins : List V}
    (hg : gather sym item.index (L ++ R) (op.linputs ++ op.rinputs) = .ok ins) {s s' : σ} {v : V}
    (hc : op.call ins s = (.ok v, s')) :
    execOp cfg sym (I1 ++ (L ++ (M ++ (R ++ I2)))) (I1.length + L.length) item M.length s
      = (.ok (I1 ++ ⟨.val v, item.index⟩ :: I2), s') := by
  unfold execOp
  rw [ho]
  simp only
  rw [if_neg (by omega), if_neg (by simp; omega)]
  rw [show I1.length + L.length - op.linputs.length = I1.length by omega, ← hL, ← hR]
  have e1 : (I1 ++ (L ++ (M ++ (R ++ I2)))).drop I1.length = L ++ (M ++ (R ++ I2)) := List.drop_left
  have e2 : (I1 ++ (L ++ (M ++ (R ++ I2)))).drop (I1.length + L.length + M.length) = R ++ I2 := by
    rw [← List.drop_drop, ← List.drop_drop, List.drop_left, List.drop_left, List.drop_left]
  have e3 : (I1 ++ (L ++ (M ++ (R ++ I2)))).drop (I1.length + L.length + R.length + M.length) = I2 := by
    rw [show I1.length + L.length + R.length + M.length = I1.length + L.length + M.length + R.length by omega,
      ← List.drop_drop, e2, List.drop_left]
  have e4 : (I1 ++ (L ++ (M ++ (R ++ I2)))).take I1.length = I1 := List.take_left
  rw [e1, e2, e3, e4, List.take_left, List.take_left, hg]
  simp only [hc]

/-- The operands an operator takes. -/
def takes (o : String) : Option (List (Option String) × List (Option String)) :=
  (shippedAll.reverse.lookup o).map (fun e => (e.linputs, e.rinputs))

theorem inputs_takes {o : String} {x : List (Option String) × List (Option String)} (h : inputsS o = some x) :
    takes o = some x := by
  unfold inputsS at h
  split at h
  · cases h
  · exact h

theorem execOp_takes {sym : String} {l r : List (Option String)} (ht : takes sym = some (l, r))
    {I1 L M R I2 : List (Item V)} (hL : L.length = l.length) (hR : R.length = r.length)
    {item : Item V} {ins : List V}
    (hg : gather sym item.index (L ++ R) (l ++ r) = .ok ins) {s s' : σ} {v : V}
    (hc : call sym ins s = (.ok v, s')) :
    execOp (shipped call isUnit mkErr getErr funcs) sym (I1 ++ (L ++ (M ++ (R ++ I2)))) (I1.length + L.length)
        item M.length s = (.ok (I1 ++ ⟨.val v, item.index⟩ :: I2), s') := by
  unfold takes at ht
  rw [Option.map_eq_some_iff] at ht
  obtain ⟨x, hx, h⟩ := ht
  cases h
  exact execOp_ok (op := x.toOp (call sym)) (by rw [opsList_shipped, hx]; rfl) hL hR hg hc

/-- Row `prec` applies something to the items, and what comes out is `T'`. -/
def Turn (cfg : Config V σ) (prec : Level V σ) (s : σ) (items : List (Item V)) (T' : List (Tok V)) : Prop :=
  ∃ i sym w item items', scanLevel cfg prec items = some (i, sym, w) ∧ items[i]? = some item ∧
    execOp cfg sym items i item w s = (.ok items', s) ∧ items'.length < items.length ∧ items'.map Item.tok = T'

theorem tok_eq {it : Item V} {t : Tok V} (h : it.tok = t) : it = ⟨t, it.index⟩ := by
  cases it; cases h; rfl

theorem applies_turn {j : ℕ} {prec : Level V σ} (h : IsRow call isUnit mkErr getErr funcs j prec) (hj : j ≠ 1)
    {s : σ} (hf : ∀ o ins v, f o ins = .ok v → call o ins s = (.ok v, s)) {items : List (Item V)}
    {T' : List (Tok V)}
    (ha : Applies (shipped call isUnit mkErr getErr funcs) f prec none (items.map Item.tok) T') :
    Turn (shipped call isUnit mkErr getErr funcs) prec s items T' := by
  generalize hT0 : items.map Item.tok = T at ha
  unfold Turn
  rw [scanLevel_row h, if_neg hj]
  cases ha with
  | @«infix» A B x y z o sym h1 h2 h3 h4 =>
    obtain ⟨I1, I2, rfl, rfl, hT⟩ := List.map_eq_append_iff.1 hT0
    obtain ⟨ix, I3, rfl, hx, hT⟩ := List.map_eq_cons_iff.1 hT
    obtain ⟨io, I4, rfl, ho, hT⟩ := List.map_eq_cons_iff.1 hT
    obtain ⟨iy, I5, rfl, hy, rfl⟩ := List.map_eq_cons_iff.1 hT
    have ht : takes sym = some ([none], [none]) := by
      rcases h4 with h4 | rfl
      · exact inputs_takes h4
      · decide +kernel
    refine ⟨(I1 ++ [ix]).length, sym, 1, io, I1 ++ ⟨.val z, io.index⟩ :: I5, ?_, ?_, ?_, by simp, by simp⟩
    · have := scanL_at (cfg := shipped call isUnit mkErr getErr funcs) (prec := prec) (it := io)
        (I2 := iy :: I5) (r := (sym, 1)) (I1 ++ [ix]) none (by simpa [hx, ho] using h1)
        (by simpa [hx, ho, hy, lastOr_append] using h2)
      simpa using this
    · simp
    · have := execOp_takes (call := call) (isUnit := isUnit) (mkErr := mkErr) (getErr := getErr) (funcs := funcs)
        ht (I1 := I1) (L := [ix]) (M := [io]) (R := [iy]) (I2 := I5) (item := io) rfl rfl (ins := [x, y])
        (by rw [tok_eq hx, tok_eq hy]; rfl) (hf _ _ _ h3)
      simpa using this
  | @next A B x y z sym h1 h2 h3 h4 =>
    obtain ⟨I1, I2, rfl, rfl, hT⟩ := List.map_eq_append_iff.1 hT0
    obtain ⟨ix, I3, rfl, hx, hT⟩ := List.map_eq_cons_iff.1 hT
    obtain ⟨iy, I5, rfl, hy, rfl⟩ := List.map_eq_cons_iff.1 hT
    have ht : takes sym = some ([none], [none]) := by
      simp only [List.mem_cons, List.not_mem_nil, or_false] at h4
      rcases h4 with rfl | rfl | rfl <;> decide +kernel
    refine ⟨(I1 ++ [ix]).length, sym, 0, iy, I1 ++ ⟨.val z, iy.index⟩ :: I5, ?_, ?_, ?_, by simp, by simp⟩
    · have := scanL_at (cfg := shipped call isUnit mkErr getErr funcs) (prec := prec) (it := iy)
        (I2 := I5) (r := (sym, 0)) (I1 ++ [ix]) none (by simpa [hx, hy] using h1)
        (by simpa [hx, hy, lastOr_append] using h2 _)
      simpa using this
    · simp
    · have := execOp_takes (call := call) (isUnit := isUnit) (mkErr := mkErr) (getErr := getErr) (funcs := funcs)
        ht (I1 := I1) (L := [ix]) (M := []) (R := [iy]) (I2 := I5) (item := iy) rfl rfl (ins := [x, y])
        (by rw [tok_eq hx, tok_eq hy]; rfl) (hf _ _ _ h3)
      simpa using this
  | @ternary A B x y w z h1 h2 h3 =>
    obtain ⟨I1, I2, rfl, rfl, hT⟩ := List.map_eq_append_iff.1 hT0
    obtain ⟨ix, I3, rfl, hx, hT⟩ := List.map_eq_cons_iff.1 hT
    obtain ⟨io, I4, rfl, ho, hT⟩ := List.map_eq_cons_iff.1 hT
    obtain ⟨iy, I5, rfl, hy, hT⟩ := List.map_eq_cons_iff.1 hT
    obtain ⟨ie, I6, rfl, he, hT⟩ := List.map_eq_cons_iff.1 hT
    obtain ⟨iw, I7, rfl, hw, rfl⟩ := List.map_eq_cons_iff.1 hT
    have ht : takes "then" = some ([none], [none, some "else", none]) := by decide +kernel
    refine ⟨(I1 ++ [ix]).length, "then", 1, io, I1 ++ ⟨.val z, io.index⟩ :: I7, ?_, ?_, ?_, by simp, by simp⟩
    · have := scanL_at (cfg := shipped call isUnit mkErr getErr funcs) (prec := prec) (it := io)
        (I2 := iy :: ie :: iw :: I7) (r := ("then", 1)) (I1 ++ [ix]) none (by simpa [hx, ho] using h1)
        (by simpa [hx, ho, hy, lastOr_append] using h2)
      simpa using this
    · simp
    · have := execOp_takes (call := call) (isUnit := isUnit) (mkErr := mkErr) (getErr := getErr) (funcs := funcs)
        ht (I1 := I1) (L := [ix]) (M := [io]) (R := [iy, ie, iw]) (I2 := I7) (item := io) rfl rfl
        (ins := [x, y, w]) (by rw [tok_eq hx, tok_eq hy, tok_eq he, tok_eq hw]; rfl) (hf _ _ _ h3)
      simpa using this

theorem noPrefix_still {prec : Level V σ} (h : IsRow call isUnit mkErr getErr funcs 1 prec) :
    ∀ {B : List (Tok V)} (_ : NoPrefix B) (prev : Option (Tok V)),
    Still (shipped call isUnit mkErr getErr funcs) prec prev B none
  | [], _, _ => trivial
  | t :: B, hB, prev => by
    refine ⟨?_, noPrefix_still h (fun o ho => hB o (by simp [ho])) _⟩
    cases t with
    | op o =>
      have h1 := hB o (by simp)
      have h2 : hasS 1 "UNIT_DIVIDE" = false := by decide +kernel
      have h3 : prec.has o = false := by rw [h.has]; exact h1
      have h4 : prec.has "UNIT_DIVIDE" = false := by rw [h.has]; exact h2
      simp [ruleAt, shipped, Tok.isUnit, Tok.isOp, Option.filter, h3, h4]
    | val x => exact rule_fresh h (Or.inr (fresh_small (by omega) _ (isUnit x))) _

theorem appliesP_turn {prec : Level V σ} (h : IsRow call isUnit mkErr getErr funcs 1 prec)
    {s : σ} (hf : ∀ o ins v, f o ins = .ok v → call o ins s = (.ok v, s)) {items : List (Item V)}
    {T' : List (Tok V)} (ha : AppliesP f (items.map Item.tok) T') :
    Turn (shipped call isUnit mkErr getErr funcs) prec s items T' := by
  generalize hT0 : items.map Item.tok = T at ha
  unfold Turn
  rw [scanLevel_row h, if_pos rfl]
  cases ha with
  | @pref A B x z o h1 h2 h3 h4 h5 h6 =>
    obtain ⟨I1, I2, rfl, rfl, hT⟩ := List.map_eq_append_iff.1 hT0
    obtain ⟨io, I4, rfl, ho, hT⟩ := List.map_eq_cons_iff.1 hT
    obtain ⟨ix, I5, rfl, hx, rfl⟩ := List.map_eq_cons_iff.1 hT
    refine ⟨I1.length, o, 1, io, I1 ++ ⟨.val z, io.index⟩ :: I5, ?_, ?_, ?_, by simp, by simp⟩
    · refine scanR_at (noPrefix_still h (noPrefix_append (A := [ix.tok]) (by rw [hx]; exact noPrefix_val x) h6) _) I1 none ?_
      rw [ho, rule_sign h h3 h2, h1]
      rfl
    · simp
    · have := execOp_takes (call := call) (isUnit := isUnit) (mkErr := mkErr) (getErr := getErr) (funcs := funcs)
        (inputs_takes h4) (I1 := I1) (L := []) (M := [io]) (R := [ix]) (I2 := I5) (item := io) rfl rfl (ins := [x])
        (by rw [tok_eq hx]; rfl) (hf _ _ _ h5)
      simpa using this

/-- In a phrase of the rows from `j` on, row `j` is not used, or it has a turn that leaves such a phrase. -/
theorem row_turn {j k : ℕ} {prec : Level V σ} (h : IsRow call isUnit mkErr getErr funcs j prec)
    {s : σ} (hf : ∀ o ins v, f o ins = .ok v → call o ins s = (.ok v, s)) {items : List (Item V)} {b e : Bool} {v : V}
    (hp : PhraseFrom isUnit f j k b e (items.map Item.tok) v) (hjk : j < k) :
    PhraseFrom isUnit f (j + 1) k b e (items.map Item.tok) v ∨
    ∃ T' b' e', Turn (shipped call isUnit mkErr getErr funcs) prec s items T' ∧ PhraseFrom isUnit f j k b' e' T' v := by
  by_cases hj : j = 1
  · subst hj
    rcases phrase_appliesP hp hjk with h1 | ⟨T', h1, b', e', h2, _⟩
    · exact .inl h1
    · exact .inr ⟨T', b', e', appliesP_turn h hf h1, h2⟩
  · rcases phrase_applies h hj hp hjk none (fresh_none _) with h1 | ⟨T', h1, b', e', h2, _⟩
    · exact .inl h1
    · exact .inr ⟨T', b', e', applies_turn h hj hf h1, h2⟩

theorem row_silent {i j k : ℕ} {prec : Level V σ} (h : IsRow call isUnit mkErr getErr funcs i prec)
    {items : List (Item V)} {b e : Bool} {v : V}
    (hp : PhraseFrom isUnit f j k b e (items.map Item.tok) v) (hij : i < j) :
    scanLevel (shipped call isUnit mkErr getErr funcs) prec items = none := by
  have := phrase_still h hp hij none none (fresh_none _)
  rw [scanLevel_row h]
  split
  · exact scanR_still _ _ this
  · exact scanL_still _ _ this

theorem findSome_at {α β : Type} {g : α → Option β} : ∀ {l : List α} {j : ℕ} {a : α}, l[j]? = some a →
    (∀ i < j, ∀ x, l[i]? = some x → g x = none) → (g a).isSome → l.findSome? g = g a
  | [], _, _, h, _, _ => by simp at h
  | x :: l, 0, a, h, _, hs => by
    simp only [List.getElem?_cons_zero, Option.some.injEq] at h
    subst h
    rw [List.findSome?_cons]
    cases hg : g x with
    | none => rw [hg] at hs; cases hs
    | some y => rfl
  | x :: l, j + 1, a, h, hn, hs => by
    rw [List.findSome?_cons, hn 0 (by omega) x rfl]
    exact findSome_at (by simpa using h) (fun i hi y hy => hn (i + 1) (by omega) y (by simpa using hy)) hs

theorem row_exists {j : ℕ} (hj : j < 17) : ∃ prec, IsRow call isUnit mkErr getErr funcs j prec := by
  have e : (shipped call isUnit mkErr getErr funcs).ops.length = 17 := by
    simp only [shipped, List.length_map]; rfl
  exact ⟨_, hj, List.getElem?_eq_getElem (by omega)⟩

/-- A phrase runs to its value. -/
theorem phrase_loop {s : σ} (hf : ∀ o ins v, f o ins = .ok v → call o ins s = (.ok v, s)) {k : ℕ} (hk : k ≤ 16)
    {v : V} : ∀ (fuel d j : ℕ) (items : List (Item V)) (b e : Bool), 17 - j ≤ d → items.length ≤ fuel →
    PhraseFrom isUnit f j k b e (items.map Item.tok) v →
    loop (shipped call isUnit mkErr getErr funcs) fuel items s = some (.ok v, s) := by
  intro fuel
  induction fuel with
  | zero =>
    intro d j items b e _ hl hp
    obtain ⟨R, x, h⟩ := phrase_last hp
    have := congrArg List.length h
    simp at this
    omega
  | succ fuel ihf =>
    intro d
    induction d with
    | zero =>
      intro j items b e hd _ hp
      have := phrase_le hp
      omega
    | succ d ihd =>
      intro j items b e hd hl hp
      have hjk := phrase_le hp
      by_cases hj : j = k
      · obtain ⟨h1, -, -⟩ := phrase_base hp hj.symm
        obtain ⟨it, I, rfl, h2, h3⟩ := List.map_eq_cons_iff.1 h1
        obtain rfl := List.map_eq_nil_iff.1 h3
        have hs : findRedex (shipped call isUnit mkErr getErr funcs) [it] = none := by
          unfold findRedex
          rw [List.findSome?_eq_none_iff]
          intro prec hm
          obtain ⟨i, hi⟩ := List.getElem?_of_mem hm
          have hlt : i < 17 := by
            have := (List.getElem?_eq_some_iff.1 hi).1
            have e : shippedRows.length = 17 := rfl
            simpa [shipped, e] using this
          have hstill : Still (shipped call isUnit mkErr getErr funcs) prec none ([it].map Item.tok) none := by
            refine ⟨?_, trivial⟩
            rw [h2]
            exact rule_first prec (by simp) _ _
          rw [scanLevel_row ⟨hlt, hi⟩]
          split
          · exact scanR_still _ _ hstill
          · exact scanL_still _ _ hstill
        rw [loop]
        simp only [step, hs, finish, h2]
      · obtain ⟨prec, hrow⟩ := row_exists (call := call) (isUnit := isUnit) (mkErr := mkErr) (getErr := getErr)
          (funcs := funcs) (j := j) (by omega)
        rcases row_turn hrow hf hp (by omega) with h1 | ⟨T', b', e', ⟨i, sym, w, item, items', g1, g2, g3, g4, g5⟩, h2⟩
        · exact ihd (j + 1) items b e (by omega) hl h1
        · have hr : findRedex (shipped call isUnit mkErr getErr funcs) items = some (i, sym, w) := by
            unfold findRedex
            rw [← g1]
            refine findSome_at hrow.2 ?_ (by rw [g1]; rfl)
            intro i' hi' x hx
            exact row_silent ⟨by omega, hx⟩ hp hi'
          rw [loop]
          simp only [step, hr, g2, g3]
          subst g5
          exact ihf 17 j items' b' e' (by omega) (by omega) h2

/-- An expression whose operands have values and whose operators do what the reading needs
evaluates to the value of the reading, with units. -/
theorem execute_phrase {s : σ} (hf : ∀ o ins v, f o ins = .ok v → call o ins s = (.ok v, s))
    {k : ℕ} (hk : k ≤ 16) {b e : Bool} {srcs : List (Src V σ)} {toks : List (Tok V)} {v : V}
    (hg : Gives s srcs toks) (h : Phrase isUnit f k b e toks v) :
    execute (shipped call isUnit mkErr getErr funcs) srcs s = (.ok v, s) := by
  obtain ⟨items, h1, h2, h3⟩ := hg.execOperands (cfg := shipped call isUnit mkErr getErr funcs) 0
  have hlen : srcs.length = items.length := by
    have : srcs.length = toks.length := by
      clear h1 h2 h3 h
      induction hg with
      | nil => rfl
      | op _ ih => simp [ih]
      | operand _ _ ih => simp [ih]
    rw [this, ← h2, List.length_map]
  subst h2
  have hl := phrase_loop (call := call) (mkErr := mkErr) (getErr := getErr) (funcs := funcs) hf hk items.length 17 0 items b e
    (by omega) (le_refl _) h
  rw [execute, executeF.eq_def]
  cases srcs with
  | nil =>
    obtain ⟨R, x, h⟩ := phrase_last h
    have := congrArg List.length h
    simp at this hlen
    rw [← hlen] at this
    omega
  | cons a as =>
    simp only [h1]
    rw [hlen, hl]
    rfl

end
end MC.Props
