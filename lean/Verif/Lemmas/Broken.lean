import Verif.Lemmas.Written
import Verif.Spec.Broken

/-! # Statements over several lines are read -/

namespace MC.Parse
open MC.Props MC.Unit.Table MC.Parse.Spec

theorem expects_eq (its : List Item) : numberAllowed its = expects its := by
  induction its using List.reverseRecOn with
  | nil => rfl
  | append_singleton its it ih => rw [numberAllowed_append, ih, expects, expects, List.foldl_append]; rfl

section
variable {x : Lex} (funcs : List Text) (inc : List Item → Bool) (rec : ParseFn)
  (fl : Flags) (done : List (List Item)) (cur : List Item) (m : Cache)

/-- A turn at a newline inside a statement. -/
theorem turn_break (t : Text) (h1 : fl.ignoreTerm = false) (h2 : inc (functionalItems cur) = true) :
    tryParsers (shippedCfg x funcs inc) rec ('\n' :: t) fl (shippedParsers x) done cur m
      = some (.ok (.go done (cur ++ [.leaf .space ['\n']]) 1), some (itemsText (functionalItems cur))) := by
  have ht : runTerminator (shippedCfg x funcs inc) cur ('\n' :: t) fl m
      = some (.ok nothing, some (itemsText (functionalItems cur))) := by
    unfold runTerminator
    have e : starts (shippedCfg x funcs inc).termSym ('\n' :: t) = true := by
      simp [starts, shippedCfg, List.isPrefixOf]
    have e2 : (shippedCfg x funcs inc).incomplete = inc := rfl
    simp only [h1, e, e2, h2, Bool.false_eq_true, if_false, if_true]
    split
    · rename_i h
      rw [h]
    · rfl
  have hs : parseSpace cur ('\n' :: t) = .ok (some (.leaf .space ['\n'], 1)) := by
    have h : isSpaceChar '\n' = true := by decide
    simp [parseSpace, h, leafOf]
  simp [shippedParsers, tryParsers, runParser, ht, hs, nothing]

end

section
variable {x : Lex} (hx : SymbolsOk x) (funcs : List Text) (inc : List Item → Bool)
include hx

theorem broken_length {n : ℕ} {before : List Item} {t : Text} {its : List Item} {bs : List (List Item)}
    {tail : Option Char} (h : Broken x funcs n before t its bs tail) : its.length ≤ t.length := by
  induction h with
  | line hl => exact line_length (R := Reading x funcs n false) (fun _ _ _ _ h => reading_ne hx funcs h) hl
  | brk hl _ _ ih =>
    have := line_length (R := Reading x funcs n false) (fun _ _ _ _ h => reading_ne hx funcs h) hl
    simp only [List.length_append, List.length_cons]
    omega

/-- The loop at a statement over several lines. -/
theorem loop_broken (extra : ℕ) (fl : Flags) {n : ℕ} (hfl : fl.array = false) (hterm : fl.ignoreTerm = false)
    {before : List Item} {t : Text} {its : List Item} {bs : List (List Item)} {tail : Option Char}
    (h : Broken x funcs n before t its bs tail) :
    (∀ b ∈ bs, inc b = true) → ∀ (rest : Text) (N pos : ℕ) (done : List (List Item)) (m : Cache),
      rest.head? = tail → ∃ m', (m' = m ∨ ∃ b ∈ bs, m' = some (joined b)) ∧
      parseLoop (shippedCfg x funcs inc) (parse (shippedCfg x funcs inc) (n + extra)) fl (its.length + N) pos
          (t ++ rest) done before m
        = parseLoop (shippedCfg x funcs inc) (parse (shippedCfg x funcs inc) (n + extra)) fl N (pos + t.length)
          rest done (before ++ its) m' := by
  have hrec := fun m => readsInner_at hx funcs inc m (complete := fun _ => False) (fun _ h => h.elim) extra (n := n)
  induction h with
  | @line before t its tail hl =>
    intro _ rest N pos done m hr
    exact ⟨m, .inl rfl, loop_line hx funcs inc _ m fl (by simp) (fun _ _ => hterm) (hrec m) hl
      (fun h => by rw [hfl] at h; cases h) rest N pos done before hr
      (expects_eq before)⟩
  | @brk before t its ts rest' bs tail hl hb _ ih =>
    intro hbs rest N pos done m hr
    have hinc : inc (functionalItems (before ++ its)) = true := hbs (words (before ++ its)) (by simp)
    obtain ⟨m', hm', e2⟩ := ih (fun b hb => hbs b (by simp [hb])) rest N (pos + t.length + 1) done
      (some (itemsText (functionalItems (before ++ its)))) hr
    refine ⟨m', .inr ?_, ?_⟩
    · rcases hm' with rfl | ⟨b, hb, rfl⟩
      · exact ⟨words (before ++ its), by simp, rfl⟩
      · exact ⟨b, by simp [hb], rfl⟩
    have e1 := loop_line hx funcs inc (parse (shippedCfg x funcs inc) (n + extra)) m fl (by simp) (fun _ _ => hterm) (hrec m) hl
      (fun h => by rw [hfl] at h; cases h) ('\n' :: (ts ++ rest)) (rest'.length + N + 1) pos done before rfl (expects_eq before)
    have el : (its ++ Item.leaf Kind.space ['\n'] :: rest').length + N = its.length + (rest'.length + N + 1) := by
      simp only [List.length_append, List.length_cons]
      omega
    rw [el, List.append_assoc, List.cons_append, e1, parseLoop]
    have ht := turn_break (x := x) funcs inc (parse (shippedCfg x funcs inc) (n + extra)) fl done (before ++ its) m
      (ts ++ rest) hterm hinc
    have hp : (shippedCfg x funcs inc).parsers = shippedParsers x := rfl
    dsimp only
    rw [hp, ht]
    dsimp only
    rw [if_neg (by decide), List.drop_one, List.tail_cons, e2]
    simp only [List.append_assoc, List.length_append, List.length_cons, List.singleton_append]
    congr 1
    omega

/-- The loop at statements over several lines. -/
theorem loop_statements (extra : ℕ) (fl : Flags) {n : ℕ} (hfl : fl.array = false) (hterm : fl.ignoreTerm = false)
    {t : Text} {st bs es : List (List Item)} (h : Statements x funcs n t st bs es) :
    (∀ b ∈ bs, inc b = true) → (∀ e ∈ es, inc e = false) → (∀ b ∈ bs, ∀ e ∈ es, joined b ≠ joined e) →
    ∀ (N pos : ℕ) (done : List (List Item)) (m : Cache), t.length < N → (∀ e ∈ es, m ≠ some (joined e)) →
      ∃ m', (m' = m ∨ ∃ b ∈ bs, m' = some (joined b)) ∧
      parseLoop (shippedCfg x funcs inc) (parse (shippedCfg x funcs inc) (n + extra)) fl N pos t done [] m
        = some (.ok (done ++ st, pos + t.length, none), m') := by
  induction h with
  | @last t its bs hl =>
    intro hb _ _ N pos done m hN _
    have hle := broken_length hx funcs hl
    obtain ⟨m', hm', e⟩ := loop_broken hx funcs inc extra fl hfl hterm hl hb [] (N - its.length) pos done m rfl
    refine ⟨m', hm', ?_⟩
    rw [show its.length + (N - its.length) = N by omega, List.append_nil, List.nil_append] at e
    rw [e]
    obtain ⟨k, hk⟩ : ∃ k, N - its.length = k + 1 := ⟨N - its.length - 1, by omega⟩
    rw [hk, parseLoop]
  | @more t its ts st bs bs' es hl _ ih =>
    intro hb he hbe N pos done m hN hme
    simp only [List.length_append, List.length_cons] at hN
    have hle := broken_length hx funcs hl
    obtain ⟨m1, hm1, e⟩ := loop_broken hx funcs inc extra fl hfl hterm hl (fun b h => hb b (by simp [h])) ('\n' :: ts)
      (N - its.length) pos done m rfl
    rw [show its.length + (N - its.length) = N by omega, List.nil_append] at e
    have hm1' : ∀ e ∈ words its :: es, m1 ≠ some (joined e) := by
      intro y hy
      rcases hm1 with rfl | ⟨b, hbb, rfl⟩
      · exact hme y hy
      · intro h
        exact hbe b (by simp [hbb]) y hy (by simpa using h)
    obtain ⟨k, hk⟩ : ∃ k, N - its.length = k + 1 := ⟨N - its.length - 1, by omega⟩
    obtain ⟨m2, hm2, e2⟩ := ih (fun b h => hb b (by simp [h])) (fun e h => he e (by simp [h]))
      (fun b h e h' => hbe b (by simp [h]) e (by simp [h'])) k (pos + t.length + 1)
      (done ++ [its ++ [.leaf .terminator ['\n']]]) m1 (by omega) (fun e h => hm1' e (by simp [h]))
    refine ⟨m2, ?_, ?_⟩
    · rcases hm2 with rfl | ⟨b, hbb, rfl⟩
      · rcases hm1 with rfl | ⟨b, hbb, rfl⟩
        · exact .inl rfl
        · exact .inr ⟨b, by simp [hbb], rfl⟩
      · exact .inr ⟨b, by simp [hbb], rfl⟩
    have ht := turn_term (x := x) funcs inc (parse (shippedCfg x funcs inc) (n + extra)) fl done its m1 ts
      hterm (he (words its) (by simp) : inc (words its) = false) (hm1' (words its) (by simp))
    have hpar : (shippedCfg x funcs inc).parsers = shippedParsers x := rfl
    rw [e, hk, parseLoop]
    dsimp only
    rw [hpar, ht]
    dsimp only
    rw [if_neg (by decide), List.drop_one, List.tail_cons, e2]
    simp [Nat.add_assoc, Nat.add_comm 1]

omit hx in
/-- What stands before a line break. -/
theorem breaks_of {n : ℕ} {before : List Item} {t : Text} {its : List Item} {bs : List (List Item)}
    {tail : Option Char} (h : Broken x funcs n before t its bs tail) :
    ∀ b ∈ bs, ∃ post, words (before ++ its) = b ++ post ∧ MayBreak b post := by
  induction h with
  | line _ => intro b hb; cases hb
  | @brk before t its ts rest bs tail _ hm _ ih =>
    intro b hb
    rw [List.mem_cons] at hb
    rcases hb with rfl | hb
    · refine ⟨words rest, ?_, hm⟩
      unfold words
      rw [← List.append_assoc, List.filter_append, List.filter_cons]
      simp [Item.functional]
    · obtain ⟨post, h2, h1⟩ := ih b hb
      refine ⟨post, ?_, h1⟩
      rw [← h2]
      simp

end
end MC.Parse
