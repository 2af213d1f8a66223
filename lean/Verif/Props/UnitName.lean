import Verif.Lemmas.UnitName
import Verif.Props.UnitRead

/-! # C81: what is written for a unit can be typed back -/

set_option linter.unusedSectionVars false

namespace MC.Props
open MC MC.Spec MC.Unit MC.Unit.Table MC.Parse.Spec
open MC.Parse (Text Cache shippedCfg)

/-- The power can be written in decimals: at most six decimals, and no more digits than the precision. -/
def ShortPower (p : ℕ) (q : ℚ) : Prop := ∃ z : ℤ, q = z / 10 ^ 6 ∧ |z| < 10 ^ p

theorem ShortPower.neg {p : ℕ} {q : ℚ} (h : ShortPower p q) : ShortPower p (-q) := by
  obtain ⟨z, rfl, hz⟩ := h
  exact ⟨-z, by push_cast; ring, by rwa [abs_neg]⟩

section
variable {U : Type} (x : Parse.Lex) (named : Text → Option U)

/-- The text is read as the unit. -/
structure SpeaksOf (u : U) (w : Text) : Prop where
  isUnit : IsUnit x w
  ends : ∀ c ∈ [' ', '/', ')', '^'], NoLonger x.unitNames (lowerText w) (some c) ∧ NoLonger x.unitSymbols w (some c)
  name : named w = some u

variable {x named} {p : ℕ}

/-- A unit with its power as it is written if the power is positive. -/
def plainPart (p : ℕ) (u : U) (q : ℚ) (w : Text) : Part U :=
  ⟨u, q, w, if rnd p q ≠ 1 then some (decText p q) else none⟩

/-- A unit with its power as it is written if there are negative powers only. -/
def negPart (p : ℕ) (u : U) (q : ℚ) (w : Text) : Part U := ⟨u, q, w, some (decText p q)⟩

theorem good_plain (hp : 6 < p) {u : U} {q : ℚ} {w : Text} (h : SpeaksOf x named u w) (hq : ShortPower p q)
    (h0 : q ≠ 0) : GoodPart x named p (plainPart p u q w) := by
  obtain ⟨z, hz, hs⟩ := hq
  obtain ⟨e1, e2, e3⟩ := decText_reads hp hz hs
  refine ⟨h.isUnit, h.ends, h.name, ?_, ?_, h0⟩
  · intro h
    unfold plainPart at h ⊢
    simp only [e1] at h
    by_contra hc
    simp [hc] at h
  · intro e h
    unfold plainPart at h ⊢
    simp only at h
    split at h
    · cases h
      exact ⟨e2, e3⟩
    · cases h

theorem good_neg (hp : 6 < p) {u : U} {q : ℚ} {w : Text} (h : SpeaksOf x named u w) (hq : ShortPower p q)
    (h0 : q ≠ 0) : GoodPart x named p (negPart p u q w) := by
  obtain ⟨z, hz, hs⟩ := hq
  obtain ⟨e1, e2, e3⟩ := decText_reads hp hz hs
  refine ⟨h.isUnit, h.ends, h.name, ?_, ?_, h0⟩
  · intro h
    cases h
  · intro e h
    cases h
    exact ⟨e2, e3⟩

variable (W : Words U)

/-- The word `name` takes for a unit (with the plural, or without). -/
def wordFor (plural symbol : Bool) (u : U) : Text :=
  if symbol then W.symbol u else if plural then W.plural u else W.singular u

/-- The parts of the units with positive powers. -/
def plainParts (p : ℕ) (plural symbol : Bool) : PL U → List (Part U)
  | [] => []
  | [o] => [plainPart p o.1 o.2 (wordFor W plural symbol o.1)]
  | o :: b :: os => plainPart p o.1 o.2 (wordFor W false symbol o.1) :: plainParts p plural symbol (b :: os)

theorem multPart_eq (plural symbol : Bool) (o : U × ℚ) :
    multPart p W plural symbol o = (plainPart p o.1 o.2 (wordFor W plural symbol o.1)).pieces := by
  unfold multPart plainPart Part.pieces wordFor
  by_cases h : rnd p o.2 = 1 <;> simp [h]

theorem multParts_eq (plural symbol : Bool) (l : PL U) :
    multParts p W plural symbol l = (plainParts W p plural symbol l).map Part.pieces := by
  induction l with
  | nil => rfl
  | cons o l ih =>
    cases l with
    | nil => simp [multParts, plainParts, multPart_eq]
    | cons b l => simp [multParts, plainParts, multPart_eq, ih]

theorem divPart_false (hp : 6 < p) (symbol : Bool) (o : U × ℚ) :
    divPart p W symbol false o = (plainPart p o.1 (-o.2) (wordFor W false symbol o.1)).pieces := by
  have h1 : rnd p (-1 : ℚ) = -1 := by
    have := rnd_int (p := p) (n := -1) (by
      rw [abs_neg, abs_one]
      exact one_lt_pow₀ (by norm_num) (by omega))
    push_cast at this
    exact this
  unfold divPart plainPart Part.pieces wordFor
  rw [h1, rnd_neg]
  by_cases h : rnd p o.2 = -1
  · simp [h]
  · have h' : ¬ -rnd p o.2 = 1 := fun e => h (by linarith)
    simp [h, h']

theorem divPart_true (symbol : Bool) (o : U × ℚ) :
    divPart p W symbol true o = (negPart p o.1 o.2 (wordFor W true symbol o.1)).pieces := by
  unfold divPart negPart Part.pieces wordFor
  simp

theorem plainParts_list (plural symbol : Bool) (l : PL U) : partsList (plainParts W p plural symbol l) = l := by
  induction l with
  | nil => rfl
  | cons o l ih =>
    cases l with
    | nil => simp [plainParts, partsList, plainPart]
    | cons b l =>
      simp only [plainParts, partsList, List.map_cons] at ih ⊢
      rw [ih]
      rfl

theorem plainParts_good (hp : 6 < p) {plural symbol : Bool} {l : PL U}
    (hW : ∀ o ∈ l, ∀ b, SpeaksOf x named o.1 (wordFor W b symbol o.1))
    (hs : ∀ o ∈ l, ShortPower p o.2) (h0 : ∀ o ∈ l, o.2 ≠ 0) :
    ∀ a ∈ plainParts W p plural symbol l, GoodPart x named p a := by
  induction l with
  | nil => intro a ha; cases ha
  | cons o l ih =>
    cases l with
    | nil =>
      intro a ha
      simp only [plainParts, List.mem_singleton] at ha
      subst ha
      exact good_plain hp (hW o (by simp) _) (hs o (by simp)) (h0 o (by simp))
    | cons b l =>
      intro a ha
      simp only [plainParts, List.mem_cons] at ha
      rcases ha with rfl | ha
      · exact good_plain hp (hW o (by simp) _) (hs o (by simp)) (h0 o (by simp))
      · exact ih (fun o ho => hW o (List.mem_cons_of_mem _ ho)) (fun o ho => hs o (List.mem_cons_of_mem _ ho))
          (fun o ho => h0 o (List.mem_cons_of_mem _ ho)) a (by simpa [plainParts] using ha)

end

section
variable {U D K σ : Type} [DecidableEq U] [DecidableEq D] [Field K] [LinearOrder K] [IsStrictOrderedRing K]
variable {pw : K → ℚ → K} {N : Unit.Norm U D K} {asRat : K → Option ℚ} {fuel : ℕ}
variable {x : Parse.Lex} {named : Text → Option U} {p : ℕ} {W : Words U} {funcs : List Text}

/-- The text of a unit list is written as the specification of expressions says, and means the list. -/
theorem name_written (hp : 6 < p) (hk : KnowsOps x) (hQ : ∀ q : ℚ, asRat (q : K) = some q) {l : PL U} (hl : l ≠ [])
    (hd : (l.map (·.1)).Nodup) (h0 : ∀ o ∈ l, o.2 ≠ 0) (hs : ∀ o ∈ l, ShortPower p o.2) (plural symbol : Bool)
    (hW : ∀ o ∈ l, ∀ b, SpeaksOf x named o.1 (wordFor W b symbol o.1)) (nl first : Bool) :
    ∃ its toks l', Line (Reading x funcs 1 nl) first (nameText p W plural symbol false l) its none ∧
      StandsU QVal.isUnit (Word p named) (opQ pw N asRat fuel) (fun _ _ => .error "no function") its toks ∧
      Phrase (V := QVal U K) QVal.isUnit (opQ pw N asRat fuel) 4 true true toks (.arg (.unit l')) ∧ l'.Perm l := by
  have hrnd : ∀ o ∈ l, rnd p o.2 = o.2 := by
    intro o ho
    obtain ⟨z, hz, hs⟩ := hs o ho
    exact (decText_reads hp hz hs).1
  set M := l.filter (fun o => decide (¬ rnd p o.2 < 0)) with hM
  set Dv := l.filter (fun o => decide (rnd p o.2 < 0)) with hD
  have hMl : ∀ o ∈ M, o ∈ l := fun o ho => List.mem_of_mem_filter ho
  have hDl : ∀ o ∈ Dv, o ∈ l := fun o ho => List.mem_of_mem_filter ho
  have hperm : (M ++ Dv).Perm l := by
    have := List.filter_append_perm (fun o : U × ℚ => decide (¬ rnd p o.2 < 0)) l
    rw [hM, hD]
    convert this using 3
    funext o
    by_cases h : rnd p o.2 < 0 <;> simp [h]
  have hdn : ((M ++ Dv).map (·.1)).Nodup := (hperm.map _).nodup_iff.2 hd
  have hdM : (M.map (·.1)).Nodup := hd.sublist (List.filter_sublist.map _)
  have hdD : (Dv.map (·.1)).Nodup := hd.sublist (List.filter_sublist.map _)
  set ms := plainParts W p plural symbol M with hms
  have hgm : ∀ a ∈ ms, GoodPart x named p a := plainParts_good W hp (fun o ho => hW o (hMl o ho))
    (fun o ho => hs o (hMl o ho)) (fun o ho => h0 o (hMl o ho))
  have hlm : partsList ms = M := plainParts_list W plural symbol M
  have hmne : M ≠ [] → ms ≠ [] := by
    intro h e
    rw [e] at hlm
    exact h hlm.symm
  have hend : PartEnds (([] : Text).head?.or none) := by simp [PartEnds]
  by_cases hM0 : M = []
  · -- negative powers only
    have hDne : Dv ≠ [] := by
      intro e
      rw [hM0, e] at hperm
      exact hl hperm.nil_eq.symm
    set ns := Dv.map (fun o => negPart p o.1 o.2 (wordFor W true symbol o.1)) with hns
    have hgn : ∀ a ∈ ns, GoodPart x named p a := by
      intro a ha
      obtain ⟨o, ho, rfl⟩ := List.mem_map.1 ha
      exact good_neg hp (hW o (hDl o ho) true) (hs o (hDl o ho)) (h0 o (hDl o ho))
    have hln : partsList ns = Dv := by
      rw [hns, partsList, List.map_map]
      exact List.map_id _
    have hnne : ns ≠ [] := by
      rw [hns]
      simpa using hDne
    have htext : nameText p W plural symbol false l = partsText ns := by
      have e : Dv.map (divPart p W symbol true) = ns.map Part.pieces := by
        rw [hns, List.map_map]
        exact List.map_congr_left (fun o _ => divPart_true W symbol o)
      have hlen : 0 < Dv.length := List.length_pos_of_ne_nil hDne
      unfold nameText nameParts
      simp only [← hM, ← hD, hM0, List.length_nil, lt_irrefl, false_and, if_false, hlen, if_true, Bool.false_or,
        beq_self_eq_true, e, spaced_text]
    refine ⟨partsItems ns ++ [], ns.flatMap Part.toks ++ [], Dv, ?_, stands_parts hgn .nil, ?_, ?_⟩
    · rw [htext, ← List.append_nil (partsText ns)]
      exact line_parts hk hnne hgn hend .nil
    · rw [List.append_nil, ← hln]
      exact phrase_parts hQ hnne hgn (by rw [hln]; exact hdD)
    · rwa [hM0, List.nil_append] at hperm
  · have hMlen : 0 < M.length := List.length_pos_of_ne_nil hM0
    have hphm := phrase_parts (pw := pw) (N := N) (fuel := fuel) hQ (hmne hM0) hgm (by rw [hlm]; exact hdM)
    rw [hlm] at hphm
    have hneg : (M.length == 0) = false := by simpa using hM0
    by_cases hD0 : Dv = []
    · have htext : nameText p W plural symbol false l = partsText ms := by
        unfold nameText nameParts
        simp only [← hM, ← hD, hD0, List.length_nil, lt_irrefl, and_false, if_false, hMlen, if_true,
          multParts_eq, ← hms, spaced_text]
      refine ⟨partsItems ms ++ [], ms.flatMap Part.toks ++ [], M, ?_, stands_parts hgm .nil, ?_, ?_⟩
      · rw [htext, ← List.append_nil (partsText ms)]
        exact line_parts hk (hmne hM0) hgm hend .nil
      · rw [List.append_nil]
        exact hphm
      · rwa [hD0, List.append_nil] at hperm
    · have hDlen : 0 < Dv.length := List.length_pos_of_ne_nil hD0
      set ds := Dv.map (fun o => plainPart p o.1 (-o.2) (wordFor W false symbol o.1)) with hds
      have hgd : ∀ a ∈ ds, GoodPart x named p a := by
        intro a ha
        obtain ⟨o, ho, rfl⟩ := List.mem_map.1 ha
        exact good_plain hp (hW o (hDl o ho) false) (hs o (hDl o ho)).neg (neg_ne_zero.2 (h0 o (hDl o ho)))
      have hld : partsList ds = Dv.map (fun o => (o.1, -o.2)) := by
        rw [hds, partsList, List.map_map]
        rfl
      have hdne : ds ≠ [] := by
        rw [hds]
        simpa using hD0
      have hkeys : (partsList ds).map (·.1) = Dv.map (·.1) := by
        rw [hld, List.map_map]
        rfl
      have e : Dv.map (divPart p W symbol false) = ds.map Part.pieces := by
        rw [hds, List.map_map]
        exact List.map_congr_left (fun o _ => divPart_false W hp symbol o)
      have hnew : newList [(M, 1), (partsList ds, -1)] = some (M ++ Dv) := by
        rw [newList_two (-1) hM0 (by rw [List.map_append, hkeys, ← List.map_append]; exact hdn), hld, List.map_map]
        congr 2
        exact (List.map_congr_left (fun o _ => by simp)).trans (List.map_id _)
      have hslash : ∀ {c : Char} {next : Option Char}, next = some c →
          (c = '(' ∨ (c.toNat < 128 → Parse.asciiWord c = true)) →
          Leaf x nl false ['/'] .op next := by
        rintro c next rfl hc
        refine .op hk.slash ?_ ?_ ?_
        · intro d hd
          cases hd
          exact hk.slashOnly c hc
        · intro b hb hl
          cases hb
          exact absurd hl (by decide)
        · intro h
          cases h
      by_cases h1 : 1 < Dv.length
      · have htext : nameText p W plural symbol false l = partsText ms ++ (['/'] ++ (('(' :: partsText ds ++ [')']) ++ [])) := by
          unfold nameText nameParts
          simp only [← hM, ← hD, hMlen, hDlen, h1, hneg, Bool.or_self, and_self, if_true, multParts_eq, ← hms,
            e, List.map_append, List.flatten_append, spaced_text]
          simp
        refine ⟨partsItems ms ++ .leaf .op ['/'] :: .nest .inner ('(' :: partsText ds ++ [')'])
          (.leaf .innerStart ['('] :: (partsItems ds ++ []) ++ [.leaf .innerEnd [')']]) :: [],
          ms.flatMap Part.toks ++ .op "/" :: [.val (.arg (.unit (partsList ds)))], M ++ Dv, ?_, ?_, ?_, hperm⟩
        · rw [htext]
          refine line_parts hk (hmne hM0) hgm (by simp [PartEnds]) ?_
          refine .cons (t := ['/']) (reading_leaf (hslash (c := '(') rfl (.inl rfl))) ?_
          refine .cons (.inr (.inl ⟨partsText ds ++ [], _, ?_, by simp, rfl⟩)) .nil
          exact line_parts hk hdne hgd (by simp [PartEnds]) .nil
        · refine stands_parts hgm (.op (.bracket ?_ .nil))
          refine .phrase (b := true) (e := true) (stands_parts hgd .nil) ?_
          rw [List.append_nil]
          exact phrase_up 12 (phrase_parts hQ hdne hgd (by rw [hkeys]; exact hdD))
        · exact .per hphm (phrase_word 3 _ rfl) rfl rfl (opQ_per hnew)
      · have htext : nameText p W plural symbol false l = partsText ms ++ (['/'] ++ (partsText ds ++ [])) := by
          unfold nameText nameParts
          simp only [← hM, ← hD, hMlen, hDlen, h1, hneg, Bool.or_self, and_self, if_true, multParts_eq, ← hms,
            e, List.map_append, List.flatten_append, spaced_text, false_and, and_false, if_false]
          simp
        obtain ⟨o, ho⟩ : ∃ o, Dv = [o] := List.length_eq_one_iff.1 (by omega)
        obtain ⟨a, hads⟩ : ∃ a, ds = [a] := by
          rw [hds, ho]
          exact ⟨_, rfl⟩
        refine ⟨partsItems ms ++ .leaf .op ['/'] :: (partsItems ds ++ []),
          ms.flatMap Part.toks ++ .op "/" :: (ds.flatMap Part.toks ++ []), M ++ Dv, ?_, ?_, ?_, hperm⟩
        · rw [htext]
          refine line_parts hk (hmne hM0) hgm (by simp [PartEnds]) ?_
          obtain ⟨c, hc, hc'⟩ := parts_first hdne hgd [] none
          refine .cons (t := ['/']) (reading_leaf (hslash hc (.inr hc'))) ?_
          exact line_parts hk hdne hgd hend .nil
        · exact stands_parts hgm (.op (stands_parts hgd .nil))
        · have hpa := phrase_part (pw := pw) (N := N) (fuel := fuel) hQ (hgd a (by rw [hads]; simp))
          have hla : partsList ds = [(a.unit, a.pow)] := by rw [hads]; rfl
          rw [hla] at hnew
          have hft : ds.flatMap (Part.toks (K := K)) ++ [] = a.toks := by rw [hads]; simp
          rw [hft]
          exact .per hphm hpa rfl rfl (opQ_per hnew)


variable {rest : String → List (QVal U K) → Act σ (QVal U K)} {others : Parse.Item → Act σ (QVal U K)}
  {fns : String → Option (FuncDef (QVal U K) σ)}
variable (powF : ℚ → ℚ → Except Err ℚ) (word alpha : Char → Bool)
  (hw : ∀ c, c.toNat < 128 → word c = Parse.asciiWord c) (ha : ∀ c, c.toNat < 128 → alpha c = Parse.isLetter c)
include hw ha

/-- Typing a written unit after a number. -/
theorem answer_typed (hp : 6 < p) (hk : KnowsOps (fullLex p powF word alpha)) (hQ : ∀ q : ℚ, asRat (q : K) = some q)
    {l : PL U} (hl : l ≠ [])
    (hd : (l.map (·.1)).Nodup) (h0 : ∀ o ∈ l, o.2 ≠ 0) (hs : ∀ o ∈ l, ShortPower p o.2) (plural symbol : Bool)
    (hW : ∀ o ∈ l, ∀ b, SpeaksOf (fullLex p powF word alpha) named o.1 (wordFor W b symbol o.1)) {t : Text} (ht : IsLiteral t)
    {a : Number} (hr : parseDecimal p t = some (.ok a)) (inc : List Parse.Item → Bool) (m : Cache) (extra : ℕ) (s : σ) :
    ∃ l', l'.Perm l ∧ ∀ finalize w s', finalize (.arg (.num (a.num / a.den : K) (some l'))) s = (.ok w, s') →
      calculateText (shippedCfg (fullLex p powF word alpha) funcs inc)
        (shipped (callQ pw N asRat fuel rest) QVal.isUnit QVal.mkErr QVal.getErr fns) (wordQ p named others)
        finalize (extra + 2) (t ++ ' ' :: nameText p W plural symbol false l) m s
        = some (.ran [⟨some w, s'⟩] .done, m, s') := by
  obtain ⟨its, toks, l', h1, h2, h3, h4⟩ := name_written (pw := pw) (N := N) (fuel := fuel) (funcs := funcs)
    hp hk hQ hl hd h0 hs plural symbol hW false false
  refine ⟨l', h4, fun finalize w s' hfin => ?_⟩
  have hx : Parse.Spec.Expression (fullLex p powF word alpha) funcs 1
      (t ++ ([' '] ++ nameText p W plural symbol false l)) (.leaf .num t :: .leaf .space [' '] :: its) := by
    refine .cons (reading_leaf (.num ht ?_)) (.cons (reading_leaf (.space (by decide) (by decide))) h1)
    intro c hc
    cases hc
    decide
  have := C79_expression (mkErr := QVal.mkErr) (isUnit := QVal.isUnit) p powF word alpha hw ha
    (does_words pw N asRat fuel p named (rest := rest) (others := others) (funcs := fns) s) funcs inc finalize hx
    (.phrase (.word (by decide) (.num hr) (.skip (by decide) h2))
      (phrase_up 11 (i := 5) (.of (t := [_]) (phrase_word 4 _ rfl) h3 rfl rfl opQ_of rfl))) hfin m extra
  rw [show 1 + extra + 1 = extra + 2 by omega] at this
  exact this

/-- Typing a written unit alone. -/
theorem unit_typed (hp : 6 < p) (hk : KnowsOps (fullLex p powF word alpha)) (hQ : ∀ q : ℚ, asRat (q : K) = some q)
    {l : PL U} (hl : l ≠ [])
    (hd : (l.map (·.1)).Nodup) (h0 : ∀ o ∈ l, o.2 ≠ 0) (hs : ∀ o ∈ l, ShortPower p o.2) (plural symbol : Bool)
    (hW : ∀ o ∈ l, ∀ b, SpeaksOf (fullLex p powF word alpha) named o.1 (wordFor W b symbol o.1))
    (inc : List Parse.Item → Bool) (m : Cache) (extra : ℕ) (s : σ) :
    ∃ l', l'.Perm l ∧ ∀ finalize w s', finalize (.arg (.unit l')) s = (.ok w, s') →
      calculateText (shippedCfg (fullLex p powF word alpha) funcs inc)
        (shipped (callQ pw N asRat fuel rest) QVal.isUnit QVal.mkErr QVal.getErr fns) (wordQ p named others)
        finalize (extra + 2) (nameText p W plural symbol false l) m s
        = some (.ran [⟨some w, s'⟩] .done, m, s') := by
  obtain ⟨its, toks, l', h1, h2, h3, h4⟩ := name_written (pw := pw) (N := N) (fuel := fuel) (funcs := funcs)
    hp hk hQ hl hd h0 hs plural symbol hW false true
  refine ⟨l', h4, fun finalize w s' hfin => ?_⟩
  have := C79_expression (mkErr := QVal.mkErr) (isUnit := QVal.isUnit) p powF word alpha hw ha
    (does_words pw N asRat fuel p named (rest := rest) (others := others) (funcs := fns) s) funcs inc finalize h1
    (.phrase h2 (phrase_up 12 (i := 4) h3)) hfin m extra
  rw [show 1 + extra + 1 = extra + 2 by omega] at this
  exact this

end

/-! ## The shipped units -/

theorem ops_carets : (Parse.opsSymbols Parse.shippedOps).all (fun o =>
    match o with
    | '^' :: c :: _ => !(c == '-' || c.isDigit)
    | '/' :: c :: _ => decide (c.toNat < 128) && !Parse.asciiWord c && c != '('
    | _ => true) = true := by decide +kernel

theorem ops_have : ['^'] ∈ Parse.opsSymbols Parse.shippedOps ∧ ['/'] ∈ Parse.opsSymbols Parse.shippedOps := by
  decide +kernel

theorem knowsOps (p : ℕ) (powF : ℚ → ℚ → Except Err ℚ) (word alpha : Char → Bool) :
    KnowsOps (fullLex p powF word alpha) where
  caret := ops_have.1
  slash := ops_have.2
  caretOnly := by
    rintro c hc o ho ⟨r, rfl⟩
    have := List.all_eq_true.1 ops_carets _ ho
    rcases hc with rfl | hc
    · simp at this
    · simp [hc] at this
  slashOnly := by
    rintro c hc o ho ⟨r, rfl⟩
    have := List.all_eq_true.1 ops_carets _ ho
    simp only [List.cons_append, List.nil_append, Bool.and_eq_true, decide_eq_true_eq, Bool.not_eq_true', bne_iff_ne,
      ne_eq] at this
    rcases hc with rfl | hc
    · exact this.2 rfl
    · rw [hc this.1.1] at this
      exact absurd this.1.2 (by decide)

/-- `get_unit` (`unitnormaliser.py:90-98`) as a word for a unit is looked up. -/
def lookUp (r : Registry.Reg Made) (t : Text) : Option Made :=
  match Registry.getUnit lower r (String.ofList t) with
  | .ok (some (.unit u)) => some u
  | _ => none

set_option maxRecDepth 100000 in
theorem units_words : units.all (fun u => decide (2 ≤ u.names.length) &&
    u.names.all (fun n => n != "as".toList && n != "GΩ".toList && n != "deg".toList) &&
    (u.symbols.headD [] != "deg".toList)) = true := by decide +kernel

/-- The meter. -/
def uMeter : Made := meter.make "distance" (some ⟨none, none, 1⟩) none
/-- The kilogram. -/
def uKilogram : Made := gram.make "mass" (some ⟨some "kilo", some "k", 1000⟩) none
/-- The second. -/
def uSecond : Made := second.make "time" (some ⟨none, none, 1⟩) none
/-- The gigaohm. -/
def uGigaohm : Made := ohm.make "resistance" (some ⟨some "giga", some "G", 10 ^ 9⟩) none
/-- The attosecond. -/
def uAttosecond : Made := second.make "time" (some ⟨some "atto", some "a", 1 / 10 ^ 18⟩) none

theorem units_there : uMeter ∈ units ∧ uKilogram ∈ units ∧ uSecond ∈ units ∧ uGigaohm ∈ units ∧
    uAttosecond ∈ units := by decide +kernel

attribute [local irreducible] ops units unitNames unitSymbols maxLength

section
variable {p : ℕ} (powF : ℚ → ℚ → Except Err ℚ) (word alpha : Char → Bool)
  (hw : ∀ c, c.toNat < 128 → word c = Parse.asciiWord c) (ha : ∀ c, c.toNat < 128 → alpha c = Parse.isLetter c)
include hw ha

theorem speaks {prefs : List String} {r : Registry.Reg Made} (hb : Registry.build lower info prefs ops = .ok r) {u : Made}
    (hu : u ∈ units) {w : Text} (h : w ∈ u.names ∨ w ∈ u.symbols) (h1 : w ≠ "as".toList) (h2 : w ≠ "GΩ".toList)
    (h3 : w ≠ "deg".toList) : SpeaksOf (fullLex p powF word alpha) (lookUp r) u w := by
  have hwr : WritesUnit w := .inl ⟨u, hu, h.imp (fun h => ⟨w, h, rfl⟩) id⟩
  refine ⟨isUnit_writes hw ha hwr h1 h2, ?_, ?_⟩
  · intro c hc
    have hsep : sep c = true := by
      simp only [List.mem_cons, List.not_mem_nil, or_false] at hc
      rcases hc with rfl | rfl | rfl | rfl <;> decide
    obtain ⟨q1, q2⟩ := not_longer (writes_table hwr) hsep (fun e => h3 e.1)
    constructor
    · intro d hd
      cases hd
      exact q1
    · intro d hd
      cases hd
      exact q2
  · unfold lookUp
    rcases h with h | h
    · rw [C68_names hb hu (n := String.ofList w) ⟨w, h, by simp⟩]
    · rw [C68_symbols hb hu (n := String.ofList w) (by simpa using h)]

/-- The names of the shipped units are read as these units. -/
theorem speaks_names {prefs : List String} {r : Registry.Reg Made} (hb : Registry.build lower info prefs ops = .ok r)
    {u : Made} (hu : u ∈ units) (b : Bool) :
    SpeaksOf (fullLex p powF word alpha) (lookUp r) u (wordFor shippedWords b false u) := by
  have := List.all_eq_true.1 units_words u hu
  simp only [Bool.and_eq_true, decide_eq_true_eq, List.all_eq_true, bne_iff_ne, ne_eq] at this
  obtain ⟨⟨hlen, hn⟩, -⟩ := this
  have hmem : wordFor shippedWords b false u ∈ u.names := by
    unfold wordFor shippedWords
    match hns : u.names, hlen with
    | n0 :: n1 :: ns, _ => cases b <;> simp [hns]
  obtain ⟨⟨h1, h2⟩, h3⟩ := hn _ hmem
  exact speaks powF word alpha hw ha hb hu (.inl hmem) h1 h2 h3

/-- So are their symbols, but for two. -/
theorem speaks_symbol {prefs : List String} {r : Registry.Reg Made} (hb : Registry.build lower info prefs ops = .ok r)
    {u : Made} (hu : u ∈ units) (hs : u.symbols ≠ []) (h1 : shippedWords.symbol u ≠ "as".toList)
    (h2 : shippedWords.symbol u ≠ "GΩ".toList) (b : Bool) :
    SpeaksOf (fullLex p powF word alpha) (lookUp r) u (wordFor shippedWords b true u) := by
  have := List.all_eq_true.1 units_words u hu
  simp only [Bool.and_eq_true, bne_iff_ne, ne_eq] at this
  refine speaks powF word alpha hw ha hb hu (.inr ?_) h1 h2 this.2
  unfold wordFor shippedWords
  cases h : u.symbols with
  | nil => exact absurd h hs
  | cons a t => simp [h]

variable {D K σ : Type} [DecidableEq D] [Field K] [LinearOrder K] [IsStrictOrderedRing K]
variable {pw : K → ℚ → K} {N : Unit.Norm Made D K} {asRat : K → Option ℚ} {fuel : ℕ}
variable {rest : String → List (QVal Made K) → Act σ (QVal Made K)} {others : Parse.Item → Act σ (QVal Made K)}
  {fns : String → Option (FuncDef (QVal Made K) σ)} {funcs : List Text}

/-- **C81**, answers: a number with at most `n` decimals and the name of its unit, as the calculator writes
them (singular for 1, plural for others), are read back as that number of that unit: the same units with
the same powers, at most in another order.
Missing: powers with more decimals, for which it is false. -/
theorem C81_answer_partial (hp : 6 < p) (hQ : ∀ q : ℚ, asRat (q : K) = some q) {prefs : List String}
    {r : Registry.Reg Made} (hb : Registry.build lower info prefs ops = .ok r) {l : PL Made} (hl : l ≠ [])
    (hu : ∀ o ∈ l, o.1 ∈ units) (hd : (l.map (·.1)).Nodup) (h0 : ∀ o ∈ l, o.2 ≠ 0) (hs : ∀ o ∈ l, ShortPower p o.2)
    {n : ℕ} (hn : n < p) {a : Number} (hc : a.Canonical) (hf : 10 ^ (n + 1) * |a.num| < 10 ^ p)
    (hk : ∃ k : ℤ, a.val = k / 10 ^ n) (inc : List Parse.Item → Bool) (m : Cache) (extra : ℕ) (s : σ) :
    ∃ t l', Number.toText p n a = .ok t ∧ l'.Perm l ∧
      ∀ finalize w s', finalize (.arg (.num (a.num / a.den : K) (some l'))) s = (.ok w, s') →
        calculateText (shippedCfg (fullLex p powF word alpha) funcs inc)
          (shipped (callQ pw N asRat fuel rest) QVal.isUnit QVal.mkErr QVal.getErr fns) (wordQ p (lookUp r) others)
          finalize (extra + 2) (t ++ ' ' :: getName p shippedWords a.val l) m s
          = some (.ran [⟨some w, s'⟩] .done, m, s') := by
  obtain ⟨t, a', h1, h2, -, -, h3⟩ := C10_read_back p n hn a hc hf
  obtain rfl := h3 hk
  have hlit : IsLiteral t := by
    obtain ⟨neg, ip, fp, rfl, q1, q2, q3, -⟩ := toText_ok h1
    refine ⟨if neg then ['-'] else [], ip, if fp = [] then [] else '.' :: fp, rfl, ?_, q2, q1, ?_⟩
    · split <;> simp
    · split
      · exact .inl rfl
      · rename_i hf
        exact .inr ⟨fp, rfl, hf, q3⟩
  unfold getName
  by_cases hone : rnd p a'.val = 1
  · obtain ⟨l', q1, q2⟩ := answer_typed (pw := pw) (N := N) (fuel := fuel) (rest := rest) (others := others) (fns := fns)
      (funcs := funcs) powF word alpha hw ha hp (knowsOps p powF word alpha) hQ hl hd h0 hs false false
      (fun o ho b => speaks_names powF word alpha hw ha hb (hu o ho) b) hlit h2 inc m extra s
    rw [if_pos hone]
    exact ⟨t, l', h1, q1, q2⟩
  · obtain ⟨l', q1, q2⟩ := answer_typed (pw := pw) (N := N) (fuel := fuel) (rest := rest) (others := others) (fns := fns)
      (funcs := funcs) powF word alpha hw ha hp (knowsOps p powF word alpha) hQ hl hd h0 hs true false
      (fun o ho b => speaks_names powF word alpha hw ha hb (hu o ho) b) hlit h2 inc m extra s
    rw [if_neg hone]
    exact ⟨t, l', h1, q1, q2⟩

/-- **C81**, units: the singular, the plural and the symbols of a unit, as the calculator writes them, are
read back as that unit.
Missing: powers with more decimals, the symbols `as` and `GΩ`, and names with negative powers. -/
theorem C81_unit_partial (hp : 6 < p) (hQ : ∀ q : ℚ, asRat (q : K) = some q) {prefs : List String}
    {r : Registry.Reg Made} (hb : Registry.build lower info prefs ops = .ok r) {l : PL Made} (hl : l ≠ [])
    (hu : ∀ o ∈ l, o.1 ∈ units) (hd : (l.map (·.1)).Nodup) (h0 : ∀ o ∈ l, o.2 ≠ 0) (hs : ∀ o ∈ l, ShortPower p o.2)
    (plural symbol : Bool) (hy : symbol = true → ∀ o ∈ l, o.1.symbols ≠ [] ∧
      shippedWords.symbol o.1 ≠ "as".toList ∧ shippedWords.symbol o.1 ≠ "GΩ".toList)
    (inc : List Parse.Item → Bool) (m : Cache) (extra : ℕ) (s : σ) :
    ∃ l', l'.Perm l ∧ ∀ finalize w s', finalize (.arg (.unit l')) s = (.ok w, s') →
      calculateText (shippedCfg (fullLex p powF word alpha) funcs inc)
        (shipped (callQ pw N asRat fuel rest) QVal.isUnit QVal.mkErr QVal.getErr fns) (wordQ p (lookUp r) others)
        finalize (extra + 2) (nameText p shippedWords plural symbol false l) m s
        = some (.ran [⟨some w, s'⟩] .done, m, s') := by
  refine unit_typed (pw := pw) (N := N) (fuel := fuel) (rest := rest) (others := others) (fns := fns)
    (funcs := funcs) powF word alpha hw ha hp (knowsOps p powF word alpha) hQ hl hd h0 hs plural symbol ?_ inc m extra s
  intro o ho b
  cases symbol with
  | false => exact speaks_names powF word alpha hw ha hb (hu o ho) b
  | true =>
    obtain ⟨q1, q2, q3⟩ := hy rfl o ho
    exact speaks_symbol powF word alpha hw ha hb (hu o ho) q1 q2 q3 b

/-- **C81**, symbols: a number and the symbols of its unit, where they have some. -/
theorem C81_symbol_partial (hp : 6 < p) (hQ : ∀ q : ℚ, asRat (q : K) = some q) {prefs : List String}
    {r : Registry.Reg Made} (hb : Registry.build lower info prefs ops = .ok r) {l : PL Made} (hl : l ≠ [])
    (hu : ∀ o ∈ l, o.1 ∈ units) (hd : (l.map (·.1)).Nodup) (h0 : ∀ o ∈ l, o.2 ≠ 0) (hs : ∀ o ∈ l, ShortPower p o.2)
    (hy : ∀ o ∈ l, o.1.symbols ≠ [] ∧ shippedWords.symbol o.1 ≠ "as".toList ∧ shippedWords.symbol o.1 ≠ "GΩ".toList)
    {t : Text} (ht : IsLiteral t) {a : Number} (hr : parseDecimal p t = some (.ok a))
    (inc : List Parse.Item → Bool) (m : Cache) (extra : ℕ) (s : σ) :
    ∃ l', l'.Perm l ∧ ∀ finalize w s', finalize (.arg (.num (a.num / a.den : K) (some l'))) s = (.ok w, s') →
      calculateText (shippedCfg (fullLex p powF word alpha) funcs inc)
        (shipped (callQ pw N asRat fuel rest) QVal.isUnit QVal.mkErr QVal.getErr fns) (wordQ p (lookUp r) others)
        finalize (extra + 2) (t ++ ' ' :: nameText p shippedWords false true false l) m s
        = some (.ran [⟨some w, s'⟩] .done, m, s') :=
  answer_typed (pw := pw) (N := N) (fuel := fuel) (rest := rest) (others := others) (fns := fns)
    (funcs := funcs) powF word alpha hw ha hp (knowsOps p powF word alpha) hQ hl hd h0 hs false true
    (fun o ho b => speaks_symbol powF word alpha hw ha hb (hu o ho) (hy o ho).1 (hy o ho).2.1 (hy o ho).2.2 b)
    ht hr inc m extra s

/-- **C81**, what is missing: with negative powers asked for, metres per second and the like are written as
`meter/seconds^-1`, which means the first unit times the second. -/
theorem C81_negative_powers_violation (hp : 6 < p) (hQ : ∀ q : ℚ, asRat (q : K) = some q) {prefs : List String}
    {r : Registry.Reg Made} (hb : Registry.build lower info prefs ops = .ok r) {u v : Made} (hu : u ∈ units)
    (hv : v ∈ units) (huv : u ≠ v) (finalize : QVal Made K → Act σ (QVal Made K)) (w : QVal Made K) (s s' : σ)
    (hfin : finalize (.arg (.unit [(u, 1), (v, 1)])) s = (.ok w, s'))
    (inc : List Parse.Item → Bool) (m : Cache) (extra : ℕ) :
    calculateText (shippedCfg (fullLex p powF word alpha) funcs inc)
        (shipped (callQ pw N asRat fuel rest) QVal.isUnit QVal.mkErr QVal.getErr fns) (wordQ p (lookUp r) others)
        finalize (extra + 2) (nameText p shippedWords true false true [(u, 1), (v, -1)]) m s
        = some (.ran [⟨some w, s'⟩] .done, m, s') := by
  have hk := knowsOps p powF word alpha
  have hone : |(1000000 : ℤ)| < 10 ^ p := by
    rw [abs_of_pos (by norm_num)]
    calc (1000000 : ℤ) = 10 ^ 6 := by norm_num
      _ < 10 ^ p := pow_lt_pow_right₀ (by norm_num) hp
  have s1 : ShortPower p 1 := ⟨1000000, by norm_num, hone⟩
  have r1 : rnd p (1 : ℚ) = 1 := by
    obtain ⟨z, hz, hs⟩ := s1
    exact (decText_reads hp hz hs).1
  set A := plainPart p u 1 (wordFor shippedWords true false u) with hA
  set B := negPart p v (-1) (wordFor shippedWords true false v) with hB
  have gA : GoodPart (fullLex p powF word alpha) (lookUp r) p A :=
    good_plain hp (speaks_names powF word alpha hw ha hb hu _) s1 (by norm_num)
  have gB : GoodPart (fullLex p powF word alpha) (lookUp r) p B :=
    good_neg hp (speaks_names powF word alpha hw ha hb hv _) s1.neg (by norm_num)
  have gBs : ∀ a ∈ [B], GoodPart (fullLex p powF word alpha) (lookUp r) p a := by
    intro a h
    rw [List.mem_singleton.1 h]
    exact gB
  have htext : nameText p shippedWords true false true [(u, 1), (v, -1)]
      = A.text ++ (['/'] ++ (partsText [B] ++ [])) := by
    have e1 := multPart_eq (p := p) shippedWords true false (u, 1)
    have e2 := divPart_true (p := p) shippedWords false (v, -1)
    have t1 := spaced_text [A]
    have t2 := spaced_text [B]
    simp only [List.map_cons, List.map_nil] at t1 t2
    have r2 : ¬ rnd p (1 : ℚ) < 0 := by rw [r1]; norm_num
    have r3 : rnd p (-1 : ℚ) < 0 := by rw [rnd_neg, r1]; norm_num
    have f1 : ([(u, (1 : ℚ)), (v, -1)] : PL Made).filter (fun o => decide (¬ rnd p o.2 < 0)) = [(u, 1)] := by
      simp only [List.filter_cons, List.filter_nil, r2, r3, not_true, not_false_eq_true, decide_true, decide_false,
        if_true, Bool.false_eq_true, if_false]
    have f2 : ([(u, (1 : ℚ)), (v, -1)] : PL Made).filter (fun o => decide (rnd p o.2 < 0)) = [(v, -1)] := by
      simp only [List.filter_cons, List.filter_nil, r2, r3, decide_true, decide_false,
        if_true, Bool.false_eq_true, if_false]
    unfold nameText nameParts
    simp only [f1, f2, multParts, List.map_cons, List.map_nil, List.length_cons, List.length_nil, Bool.true_or,
      e1, e2, ← hA, ← hB]
    simp only [zero_add, lt_irrefl, zero_lt_one, and_self, if_true, false_and, and_false, if_false, List.map_append,
      List.flatten_append, t1, t2]
    simp [partsText]
  have hx : Parse.Spec.Expression (fullLex p powF word alpha) funcs 1
      (A.text ++ (['/'] ++ (partsText [B] ++ []))) (A.items ++ .leaf .op ['/'] :: (partsItems [B] ++ [])) := by
    refine line_part hk gA (by simp [PartEnds]) ?_
    obtain ⟨c, hc, hc'⟩ := parts_first (by simp) gBs [] none
    refine .cons (t := ['/']) (reading_leaf ?_) (line_parts hk (by simp) gBs (by simp [PartEnds]) .nil)
    refine .op hk.slash ?_ ?_ ?_
    · intro d hd
      rw [hc] at hd
      cases hd
      exact hk.slashOnly c (.inr hc')
    · intro b hb hl
      cases hb
      exact absurd hl (by decide)
    · intro h
      cases h
  have hnew : newList [([(u, (1 : ℚ))], 1), ([(v, -1)], -1)] = some [(u, 1), (v, 1)] := by
    rw [newList_two (-1) (by simp) (by simpa using huv)]
    simp
  have := C79_expression (mkErr := QVal.mkErr) (isUnit := QVal.isUnit) p powF word alpha hw ha
    (does_words pw N asRat fuel p (lookUp r) (rest := rest) (others := others) (funcs := fns) s) funcs inc finalize hx
    (.phrase (b := true) (e := true) (stands_part gA (.op (stands_parts gBs .nil))) (phrase_up 12 (i := 4) (by
      have := PhraseFrom.per (phrase_up 1 (phrase_part (pw := pw) (N := N) (fuel := fuel) hQ gA))
        (phrase_part (pw := pw) (N := N) (fuel := fuel) hQ gB) rfl rfl (opQ_per hnew)
      simpa using this))) hfin m extra
  rw [show 1 + extra + 1 = extra + 2 by omega] at this
  rw [htext]
  exact this

end

/-! ## Witnesses and non-vacuity -/

/-- Kilogram metres per second squared. -/
def forceUnit : PL Made := [(uKilogram, 1), (uMeter, 1), (uSecond, -2)]

theorem force_names : getName 30 shippedWords (5 / 2) forceUnit = "kilogram meters/second^2".toList ∧
    getName 30 shippedWords 1 forceUnit = "kilogram meter/second^2".toList ∧
    nameText 30 shippedWords false true false forceUnit = "kg m/s^2".toList ∧
    nameText 30 shippedWords true false false [(uKilogram, 1), (uMeter, -1), (uSecond, -2)]
      = "kilograms/(meter second^2)".toList ∧
    nameText 30 shippedWords true false false [(uSecond, -1)] = "seconds^-1".toList ∧
    nameText 30 shippedWords true false true [(uMeter, 1), (uSecond, -1)] = "meters/seconds^-1".toList ∧
    nameText 30 shippedWords true false false [(uMeter, 1 / 2)] = "meters^0.5".toList := by
  decide +kernel

/-- Non-vacuity: `2.5 kilogram meters/second^2`, typed, is 2.5 of that unit. -/
example {prefs : List String} {r : Registry.Reg Made} (hb : Registry.build lower info prefs ops = .ok r) (m : Cache)
    (rest : String → List (QVal Made ℚ) → Act ℕ (QVal Made ℚ)) (others : Parse.Item → Act ℕ (QVal Made ℚ))
    (fns : String → Option (FuncDef (QVal Made ℚ) ℕ)) (pw : ℚ → ℚ → ℚ) (N : Unit.Norm Made String ℚ) :
    ∃ l', l'.Perm forceUnit ∧ calculateText (shippedCfg asciiFull [] (fun _ => false))
      (shipped (callQ pw N some 20 rest) QVal.isUnit QVal.mkErr QVal.getErr fns) (wordQ 30 (lookUp r) others)
      (fun v n => (.ok v, n + 1)) 2 "2.5 kilogram meters/second^2".toList m 7
      = some (.ran [⟨some (.arg (.num (5 / 2) (some l'))), 8⟩] .done, m, 8) := by
  obtain ⟨h1, h2, h3, -, -⟩ := units_there
  obtain ⟨t, l', e1, e2, e3⟩ := C81_answer_partial (p := 30) (n := 10) (K := ℚ) (asRat := some) (a := ⟨5, 2⟩)
    (l := forceUnit) (pw := pw) (N := N) (fuel := 20) (rest := rest) (others := others) (fns := fns) (funcs := [])
    (fun _ _ => .ok 0) Parse.asciiWord Parse.isLetter (fun _ _ => rfl) (fun _ _ => rfl) (by decide) (fun q => by simp) hb
    (by decide) (by
      intro o ho
      simp only [forceUnit, List.mem_cons, List.not_mem_nil, or_false] at ho
      rcases ho with rfl | rfl | rfl <;> assumption)
    (by decide +kernel) (by decide +kernel) (by
      intro o ho
      simp only [forceUnit, List.mem_cons, List.not_mem_nil, or_false] at ho
      rcases ho with rfl | rfl | rfl
      · exact ⟨1000000, by norm_num, by norm_num⟩
      · exact ⟨1000000, by norm_num, by norm_num⟩
      · exact ⟨-2000000, by norm_num, by norm_num⟩)
    (by decide) ⟨by decide, by decide⟩ (by norm_num) ⟨25000000000, by norm_num [Number.val]⟩ (fun _ => false) m 0 7
  refine ⟨l', e2, ?_⟩
  have ht : t = "2.5".toList := by
    have : Number.toText 30 10 ⟨5, 2⟩ = .ok "2.5".toList := by decide +kernel
    rw [this] at e1
    exact (Except.ok.inj e1).symm
  subst ht
  have hv : (⟨5, 2⟩ : Number).val = 5 / 2 := by norm_num [Number.val]
  have := e3 (fun v n => (.ok v, n + 1)) _ _ rfl
  rw [hv, force_names.1] at this
  unfold asciiFull
  simpa using this

/-- Non-vacuity: there is such a registry. -/
example : ∃ r, Registry.build lower info preference ops = .ok r := (C68_accepted preference).imp (fun _ h => h.1)

/-- **C81**, what is missing: the symbols of the attosecond and the gigaohm are not read back. -/
theorem C81_symbol_violation :
    nameText 30 shippedWords false true false [(uAttosecond, 1)] = "as".toList ∧
    leaves (Parse.parse (shippedCfg asciiLex [] (fun _ => false)) 1 {} "as".toList none) =
      some [[(some .op, "as".toList)]] ∧
    nameText 30 shippedWords false true false [(uGigaohm, 1)] = "GΩ".toList ∧
    leaves (Parse.parse (shippedCfg asciiLex [] (fun _ => false)) 1 {} "GΩ".toList none) =
      some [[(some .constant, "G".toList), (some .unit, "Ω".toList)]] :=
  ⟨by decide +kernel, C68_read_violation_as.2, by decide +kernel, C68_read_violation_gigaohm.2⟩

/-- **C81**, what is missing: a third as a power is written with as many decimals as the precision has, which
is not a third when it is read. -/
theorem C81_third_violation :
    nameText 30 shippedWords true false false [(uMeter, 1 / 3)]
      = "meters^0.333333333333333333333333333333".toList ∧
    ∃ r, parseDecimal 30 "0.333333333333333333333333333333".toList = some (.ok r) ∧ r.val ≠ 1 / 3 := by
  refine ⟨by decide +kernel, ⟨333333333333333333333333333333, 10 ^ 30⟩, by decide +kernel, ?_⟩
  norm_num [Number.val]

end MC.Props
