import Verif.Props.Lists

/-! # C84: variables as elements of arrays -/

namespace MC.Props
open MC.Parse MC.Parse.Spec

section
variable {p : ℕ} {powF : ℚ → ℚ → Except Err ℚ} {word alpha : Char → Bool}
  (hw : ∀ c, c.toNat < 128 → word c = asciiWord c) (ha : ∀ c, c.toNat < 128 → alpha c = isLetter c)
  (names : List Text) (inc : List Parse.Item → Bool)
include hw ha

/-- At a name that starts with `step`, reading an element ends, as if it was the word `step`. -/
theorem step_stops {w : Text} (hs : "step".toList <+: w) {nl b : Bool} {rest : Text}
    (hv : Leaf (fullLex p powF word alpha) nl b w .var rest.head?) (bound : ℕ) (m : Cache) :
    parse (shippedCfg (fullLex p powF word alpha) names inc) (bound + 1) { array := true, ignoreTerm := true } (w ++ rest) m
      = some (.ok ([[]], 0, some .arrStep), m) := by
  have hx := symbolsOk (p := p) (powF := powF) hw ha
  obtain ⟨v, rfl⟩ := hs
  obtain ⟨h1, h2⟩ := varHere_of hx hv
  have ht : ∀ rec, tryParsers (shippedCfg (fullLex p powF word alpha) names inc) rec ("step".toList ++ v ++ rest)
      { array := true, ignoreTerm := true } (shippedParsers (fullLex p powF word alpha)) [] [] m
      = some (.ok (.ret [[]] 0 .arrStep), m) := by
    intro rec
    rw [skip_word hx names inc rec _ [] [] m h1.word h2, skip_names hx names inc rec _ [] [] m h1 h2]
    simp [shippedParsers, tryParsers, runParser, runArray, starts, shippedCfg, List.isPrefixOf, stopIf, nothing]
  rw [parse]
  have hcons : "step".toList ++ v ++ rest = 's' :: ("tep".toList ++ v ++ rest) := rfl
  have hp : (shippedCfg (fullLex p powF word alpha) names inc).parsers = shippedParsers (fullLex p powF word alpha) := rfl
  have h := ht (parse (shippedCfg (fullLex p powF word alpha) names inc) bound)
  rw [hcons] at h ⊢
  beta_reduce
  rw [parseLoop]
  dsimp only
  rw [hp, h]

/-- **C84** for names that do not start with `step`: `[name]` is read as an array with this variable.
Missing: names that start with `step`, see `C84_violation`. -/
theorem C84_variable_partial {w : Text} (hs : ¬ "step".toList <+: w)
    (hv : Leaf (fullLex p powF word alpha) true true w .var (some ']')) (bound : ℕ) (m : Cache) :
    parse (shippedCfg (fullLex p powF word alpha) names inc) (bound + 2) {} ('[' :: w ++ [']']) m
      = some (.ok ([[.nest .array ('[' :: w ++ [']'])
          [.leaf .arrStart ['['], .leaf .var w, .leaf .arrEnd [']']]]], w.length + 2, none), m) := by
  have hl : Line (ReadingC (fullLex p powF word alpha) names (fun _ => False) 0 true) true (w ++ []) [.leaf .var w]
      (some ']') := .cons ⟨_, rfl, hv⟩ .nil
  rw [List.append_nil] at hl
  have hf : stepFreeAll [.leaf .var w] = true := by
    rw [stepFreeAll, stepFreeAll, stepFree, Bool.and_true, Bool.not_eq_true', ← Bool.not_eq_true,
      List.isPrefixOf_iff_prefix]
    exact hs
  have := C69_read hw ha names inc (n := 1) (t := ('[' :: w ++ [']']) ++ [])
    (its := [.nest .array ('[' :: w ++ [']']) (.leaf .arrStart ['['] :: [.leaf .var w] ++ [.leaf .arrEnd [']']])])
    (.cons (.inr (.inr (.inr (.inr (.inr ⟨w, _, .last (.one ⟨hl, hf⟩ (by simp)), rfl, rfl⟩))))) .nil) bound {} rfl m
  rw [List.append_nil] at this
  rw [show bound + 2 = 1 + bound + 1 by omega, this]
  simp

/-- **C84**, violated: a variable whose name starts with `step` cannot be written as an element of an
array.  The name on its own is read as a variable, but `[name]` is rejected: inside arrays, `step` is
looked for at the start of words, not as a word of its own (`arrays.py:126-134`). -/
theorem C84_violation {w : Text} (hs : "step".toList <+: w)
    (hv : Leaf (fullLex p powF word alpha) true true w .var (some ']'))
    (hv' : Leaf (fullLex p powF word alpha) false true w .var none) (bound : ℕ) (m : Cache) :
    parse (shippedCfg (fullLex p powF word alpha) names inc) (bound + 2) {} w m
      = some (.ok ([[.leaf .var w]], w.length, none), m) ∧
    ∃ st nx, parse (shippedCfg (fullLex p powF word alpha) names inc) (bound + 2) {} ('[' :: w ++ [']']) m
      = some (.error (.parsing "Parsing error in array" st nx), m) := by
  have hx := symbolsOk (p := p) (powF := powF) hw ha
  constructor
  · have := C69_read hw ha names inc (n := 0) (t := w ++ []) (its := [.leaf .var w])
      (.cons ⟨_, rfl, hv'⟩ .nil) (bound + 1) {} rfl m
    rw [List.append_nil] at this
    rw [show bound + 2 = 0 + (bound + 1) + 1 by omega]
    exact this
  · set cfg := shippedCfg (fullLex p powF word alpha) names inc with hcfg
    have hstop := step_stops hw ha names inc hs (rest := [']']) hv bound m
    have harr : ∃ st nx, runArray cfg (parse cfg (bound + 1)) ('[' :: (w ++ [']'])) m
        = some (.error (.parse "Parsing error in array" st nx), m) := by
      have hturn : arrTurn cfg (parse cfg (bound + 1)) ('[' :: (w ++ [']'])) 1 [.leaf .arrStart ['[']] m
          = some (arrError ('[' :: (w ++ [']'])) 1 [.leaf .arrStart ['[']], m) := by
        unfold arrTurn
        rw [arrParse_here _ m (t := w ++ [']']) rfl hstop]
        simp
      have hlen : (1 : ℕ) < ('[' :: (w ++ [']'])).length := by simp
      have hstart : starts cfg.arrOpen ('[' :: (w ++ [']'])) = true := rfl
      unfold runArray
      rw [if_pos hstart, show cfg.arrOpen.length = 1 from rfl, show cfg.arrOpen = ['['] from rfl, arrLoop]
      dsimp only
      rw [if_pos hlen, hturn, arrError, reraise, List.drop_one, List.tail_cons, truncate,
        findPos_covers (t := ['[']) (nx := w ++ [']']) (text := '[' :: (w ++ [']'])) rfl rfl]
      exact ⟨_, _, rfl⟩
    obtain ⟨st, nx, harr⟩ := harr
    have ht : tryParsers cfg (parse cfg (bound + 1)) ('[' :: (w ++ [']'])) {} (shippedParsers (fullLex p powF word alpha))
        [] [] m = some (.error (.parsing "Parsing error in array" [st] nx), m) := by
      rw [hcfg, skip_array hx names inc _ {} [] [] m (by decide) (by simp)]
      unfold shippedParsers
      simp only [List.drop_succ_cons, List.drop_zero]
      rw [tryParsers]
      simp only [runParser, ← hcfg, harr, List.nil_append]
    refine ⟨[st], nx, ?_⟩
    rw [parse, List.cons_append]
    beta_reduce
    rw [parseLoop]
    have hp : cfg.parsers = shippedParsers (fullLex p powF word alpha) := rfl
    dsimp only
    rw [hp, ht]

end

/-! ## Non-vacuity -/

theorem isVar_stepsize : IsVar asciiFull "stepsize".toList where
  free := ⟨⟨'s', "tepsize".toList, rfl, by decide, by decide⟩, by decide +kernel, by decide +kernel⟩
  noConst := by decide +kernel
  noUnit := by
    intro u v e hu hv
    have hlen : u.length ≤ 8 := by
      have := congrArg List.length e
      simp at this
      omega
    have hu' : u = ("stepsize".toList).take u.length := by rw [e]; simp
    have hv' : v = ("stepsize".toList).drop u.length := by rw [e]; simp
    have hpos : 0 < u.length := List.length_pos_iff.2 hu
    have : u.length = 8 := by
      by_contra hne
      have : u.length = 1 ∨ u.length = 2 ∨ u.length = 3 ∨ u.length = 4 ∨ u.length = 5 ∨ u.length = 6 ∨ u.length = 7 := by omega
      rcases this with h | h | h | h | h | h | h <;> rw [h] at hv' <;> rw [hv'] at hv <;>
        exact absurd (hv _ rfl).1 (by decide)
    rw [this] at hu'
    rw [hu']
    decide +kernel
  noWord := by
    intro y hy v e
    have hcheck : (asciiFull.systems ++ asciiFull.numTypes).all
        (fun y => !(y.isPrefixOf "stepsize".toList)) = true := by decide +kernel
    have := List.all_eq_true.1 hcheck y hy
    rw [Bool.not_eq_true', ← Bool.not_eq_true, List.isPrefixOf_iff_prefix] at this
    exact absurd ⟨v, e.symm⟩ this

/-- Non-vacuity: `stepsize` is a variable, `[stepsize]` is an error. -/
example : parse (shippedCfg asciiFull [] (fun _ => false)) 2 {} "stepsize".toList none
      = some (.ok ([[.leaf .var "stepsize".toList]], 8, none), none) ∧
    ∃ st nx, parse (shippedCfg asciiFull [] (fun _ => false)) 2 {} "[stepsize]".toList none
      = some (.error (.parsing "Parsing error in array" st nx), none) :=
  C84_violation (fun _ _ => rfl) (fun _ _ => rfl) [] _ (List.prefix_append _ _)
    (.var isVar_stepsize (demo_ends ']' (by decide) (by decide)) (by decide)
      (demo_longer _ _ _ (by decide +kernel)) (demo_longer _ _ _ (by decide +kernel)))
    (.var isVar_stepsize (fun c hc => by cases hc) (by decide) (fun c hc => by cases hc) (fun c hc => by cases hc)) 0 none

/-- Non-vacuity: `[width]`. -/
example : parse (shippedCfg asciiFull [] (fun _ => false)) 2 {} "[width]".toList none
    = some (.ok ([[.nest .array "[width]".toList [.leaf .arrStart ['['], .leaf .var "width".toList, .leaf .arrEnd [']']]]],
      7, none), none) :=
  C84_variable_partial (fun _ _ => rfl) (fun _ _ => rfl) [] _ (by decide)
    (.var isVar_width (demo_ends ']' (by decide) (by decide)) (by decide)
      (demo_longer _ _ _ (by decide +kernel)) (demo_longer _ _ _ (by decide +kernel))) 0 none

/-- Non-vacuity of `C69_read` for arrays: `[1..3]`. -/
example : parse (shippedCfg asciiFull ["sum".toList] (fun _ => false)) 2 {} "[1..3]".toList none
    = some (.ok ([[oneToThree]], 6, none), none) := by
  have : Parse.Spec.Expression asciiFull ["sum".toList] 1 "[1..3]".toList [oneToThree] := by
    refine Parse.Spec.Line.cons (t := "[1..3]".toList) (rest := []) ?_ .nil
    refine .inr (.inr (.inr (.inr (.inr ⟨"1..3".toList, _, .last (.range (a := "1".toList) (b := "3".toList)
      (as := [.leaf .num ['1']]) (bs := [.leaf .num ['3']])
      ⟨by simp, .inr ⟨[], [], ['1'], ⟨.nil, rfl⟩, demo_digit '1' (by decide), rfl, rfl, rfl⟩⟩ ⟨?_, rfl⟩ (by simp)),
      rfl, rfl⟩))))
    refine Parse.Spec.Line.cons (t := ['3']) (rest := []) ⟨_, rfl, .num (demo_digit '3' (by decide)) ?_⟩ .nil
    intro e he
    cases he
    decide
  exact C69_read (fun _ _ => rfl) (fun _ _ => rfl) ["sum".toList] (fun _ => false) this 0 {} rfl none

end MC.Props
