import Verif.Props.Escape2
import Verif.Props.Parse2
import Verif.Lemmas.Reading
import Verif.Lemmas.ParseCalls

/-! # C58: which exceptions leave the reading of a text, and the calculation of one -/

namespace MC.Props
open MC.Parse MC.Parse.Spec MC.Spec

/-! ## Reading -/

/-- **C58** (part: reading).  A text without `10z` and without `z`, digits and `z` is read, or it is
rejected with a `ParsingException` that names a position in the text. No other exception leaves the
parser: not from nested brackets, calls, functions and arrays, and not from a literal. -/
theorem C58_reading_partial (x : Lex) (hp : 1 ≤ x.p) (funcs : List Text) (inc : List Parse.Item → Bool)
    (h1 : ([] : Text) ∉ x.ops) (h2 : ([] : Text) ∉ x.systems) (h3 : ([] : Text) ∉ x.numTypes)
    (text : Text) (ht : ¬ OddBase text) (s : Cache) :
    ∃ s', (∃ st, parse (shippedCfg x funcs inc) (text.length + 1) {} text s
          = some (.ok (st, text.length, none), s')) ∨
      (∃ m st nx pos, parse (shippedCfg x funcs inc) (text.length + 1) {} text s
          = some (.error (.parsing m st nx), s') ∧
        findPos text st.flatten (some nx) = some pos ∧ pos ≤ text.length) := by
  obtain ⟨s', h | h | ⟨m, h, hr⟩⟩ := C20_outcome (shipped_ok x funcs inc h1 h2 h3) false text s
  · exact ⟨s', Or.inl h⟩
  · exact ⟨s', Or.inr h⟩
  · obtain ⟨f, hf, items, rest, hs, _, he⟩ := hr
    exact absurd (oddBase_mono (leaf_raises x hp hf he) hs.isInfix) ht

/-- A text with a `z` at most once, and no `10z`, is such a text. -/
theorem oddBase_count {text : Text} (h : OddBase text) :
    ['1', '0', 'z'] <:+: lowerText text ∨ 2 ≤ (lowerText text).count 'z' := by
  rcases h with h | ⟨ds, _, _, h⟩
  · exact Or.inl h
  · right
    have := h.sublist.count_le 'z'
    refine le_trans ?_ this
    rw [List.count_append, List.count_cons]
    simp

/-- `0x1F + (36zab * 2%)` is such a text. -/
example : ¬ OddBase "0x1F + (36zab * 2%)".toList := by
  intro h
  rcases oddBase_count h with h | h
  · revert h; decide +kernel
  · revert h; decide +kernel

/-- The exception of Python that the parser raises on this text, with the names of the examples. -/
def rawOf (text : String) : Option String :=
  match parse demoCfg (text.toList.length + 1) {} text.toList none with
  | some (.error (.py m), _) => some m
  | _ => none

/-- **C58 is violated** when a text is read: `1 + 10zab` raises `decimal.InvalidOperation` and
`max(36z36z, 2)` raises an `IndexError`. -/
theorem C58_reading_violation :
    rawOf "1 + 10zab" = some "InvalidOperation" ∧ rawOf "max(36z36z, 2)" = some "IndexError" := by
  constructor <;> decide +kernel

/-- In another base a wrong digit ends the number. -/
example : rawOf "1 + 9zab" = none ∧ shownParse "1 + 9zab" none = some (.inl [["1", " ", "+", " ", "9", "zab"]]) := by
  constructor <;> decide +kernel

/-! ## Calculating a text -/

theorem leafOf_leaf {k : Kind} {next : Text} {n m : ℕ} {it : Parse.Item}
    (h : leafOf k next n = some (it, m)) : ∃ k t, it = .leaf k t := by
  unfold leafOf at h
  split at h
  · cases h
  · cases h; exact ⟨_, _, rfl⟩

theorem unitLoop_leaf (x : Lex) {next : Text} {it : Parse.Item} {m : ℕ} : ∀ n,
    unitLoop x next n = some (it, m) → ∃ k t, it = .leaf k t
  | 0, h => by cases h
  | n + 1, h => by
    unfold unitLoop at h
    split at h
    · exact leafOf_leaf h
    · split at h
      · exact leafOf_leaf h
      · exact unitLoop_leaf x n h

theorem literal_leaf {len : Text → ℕ} {conv : Text → Except Err Bool} {cur : List Parse.Item} {next : Text}
    {it : Parse.Item} {n : ℕ} (h : literal len conv cur next = .ok (some (it, n))) : ∃ k t, it = .leaf k t := by
  unfold literal at h
  split at h
  · split at h
    · cases h
    · split at h
      · exact leafOf_leaf (Except.ok.inj h)
      all_goals cases h
  · cases h

/-- The parsers that make one item make one without items inside. -/
theorem shipped_leaves (x : Lex) {f : LeafParser} (hf : Parser.leaf f ∈ shippedParsers x)
    (cur : List Parse.Item) (next : Text) (it : Parse.Item) (n : ℕ) (h : f cur next = .ok (some (it, n))) :
    ∃ k t, it = .leaf k t := by
  simp only [shippedParsers, List.mem_cons, Parser.leaf.injEq, reduceCtorEq, false_or, or_false,
    List.not_mem_nil] at hf
  rcases hf with rfl | rfl | rfl | rfl | rfl | rfl | rfl | rfl | rfl | rfl | rfl | rfl | rfl | rfl | rfl | rfl |
    rfl
  · unfold parseSpace at h; split at h
    · exact leafOf_leaf (Except.ok.inj h)
    · cases h
  · unfold parseComment at h; split at h
    · split at h
      · exact leafOf_leaf (Except.ok.inj h)
      · cases h
    · cases h
  · unfold parseBoolean at h; split at h
    · exact leafOf_leaf (Except.ok.inj h)
    · split at h
      · exact leafOf_leaf (Except.ok.inj h)
      · cases h
  · exact literal_leaf h
  · exact literal_leaf h
  · exact literal_leaf h
  · exact literal_leaf h
  · exact literal_leaf h
  · exact literal_leaf h
  · exact literal_leaf h
  · unfold parseOperator at h; split at h
    · cases h; exact ⟨_, _, rfl⟩
    · cases h
  · unfold parseString at h; split at h
    · cases h
    · cases h
    · cases h; exact ⟨_, _, rfl⟩
  · unfold parseConstant at h; dsimp only at h; split at h
    · exact leafOf_leaf (Except.ok.inj h)
    · cases h
  · exact unitLoop_leaf x _ (Except.ok.inj h)
  · unfold parseWord at h; split at h
    · cases h; exact ⟨_, _, rfl⟩
    · cases h
  · unfold parseWord at h; split at h
    · cases h; exact ⟨_, _, rfl⟩
    · cases h
  · exact leafOf_leaf (Except.ok.inj h)

section
variable {V σ : Type} {cfg : Config V σ} {K : Text → Prop}

theorem known_filter : ∀ {as : List (List (Node Parse.Item))} (q : List (Node Parse.Item) → Bool),
    KnownArgs cfg as → KnownArgs cfg (as.filter q)
  | [], _, _ => trivial
  | a :: as, q, h => by
    rw [List.filter_cons]
    split
    · exact ⟨h.1, known_filter q h.2⟩
    · exact known_filter q h.2

variable (hK : ∀ name, K name → (cfg.funcs (String.ofList name)).isSome)
include hK

mutual
theorem toNode_known : ∀ it : Parse.Item, CallsOf K it → Known cfg (toNode it)
  | .leaf k t, _ => by
    unfold toNode
    split
    · trivial
    · simp_all
    · simp_all
    · split <;> trivial
  | .nest .inner t its, h => by
    cases h with
    | nest _ _ _ h1 _ => rw [toNode]; exact toNodes_known its h1
  | .nest .func t its, h => by
    cases h with
    | nest _ _ _ h1 h2 =>
      obtain ⟨name, rest, e, hn⟩ := h2 rfl
      rw [toNode, parsedFunc]
      refine ⟨?_, known_filter _ (toArgs_known its h1)⟩
      rw [e]
      exact hK name hn
  | .nest .pointer t its, _ => by rw [toNode]; split <;> trivial; all_goals (intros; simp_all)
  | .nest .inline t its, _ => by rw [toNode]; split <;> trivial; all_goals (intros; simp_all)
  | .nest .array t its, _ => by rw [toNode]; split <;> trivial; all_goals (intros; simp_all)
theorem toNodes_known : ∀ its : List Parse.Item, (∀ it ∈ its, CallsOf K it) → KnownAll cfg (toNodes its)
  | [], _ => trivial
  | it :: its, h => ⟨toNode_known it (h it (by simp)), toNodes_known its (fun i hi => h i (by simp [hi]))⟩
theorem toArgs_known : ∀ its : List Parse.Item, (∀ it ∈ its, CallsOf K it) → KnownArgs cfg (toArgs its)
  | [], _ => ⟨trivial, trivial⟩
  | it :: its, h => by
    have h1 := toNode_known it (h it (by simp))
    have h2 := toArgs_known its (fun i hi => h i (by simp [hi]))
    rw [toArgs]
    split
    · exact ⟨trivial, h2⟩
    · split
      · exact h2
      · split
        · exact ⟨⟨h1, trivial⟩, trivial⟩
        · rename_i a as e
          rw [e] at h2
          exact ⟨⟨h1, h2.1⟩, h2.2⟩
end
end

section
variable {V σ : Type} (call : String → List V → Act σ V) (isUnit : V → Bool) (mkErr : ExecErr → V)
  (getErr : V → Option Raise) (funcs : String → Option (FuncDef V σ)) (atomVal : Parse.Item → Act σ V)
  (finalize : V → Act σ V)

/-- **C58** (part: from the text).  If operators, functions, operands and the final formatting raise only
errors of the calculator, then calculating a text without `10z` and without `z`, digits and `z` ends with
all its statements done, with the error of a statement, or with a `ParsingException`; the one exception of
Python that can leave it is the `AttributeError` of a function argument that is an exception other than an
`ExecuteException`. -/
theorem C58_text_partial (x : Lex) (hp : 1 ≤ x.p) (names : List Text) (inc : List Parse.Item → Bool)
    (h1 : ([] : Text) ∉ x.ops) (h2 : ([] : Text) ∉ x.systems) (h3 : ([] : Text) ∉ x.numTypes)
    (hn : ∀ name ∈ names, (funcs (String.ofList name)).isSome)
    (hops : ∀ o ins, Quiet (call o ins)) (hatoms : ∀ a, Quiet (atomVal a))
    (hfuncs : ∀ n f, funcs n = some f → ∀ ins, Quiet (f.call ins))
    (hfin : ∀ v, Quiet (finalize v)) (hvals : ∀ v m, getErr v ≠ some (.py m))
    (text : Text) (ht : ¬ OddBase text) (m : Cache) (s : σ) :
    ∃ run m' s', calculateText (shippedCfg x names inc) (shipped call isUnit mkErr getErr funcs) atomVal
        finalize (text.length + 1) text m s = some (run, m', s') ∧
      ((∃ msg st nx, run = .unread (.parsing msg st nx)) ∨ (∃ rs, run = .ran rs .done) ∨
        (∃ rs i e, run = .ran rs (.failed i e)) ∨ ∃ rs, run = .ran rs (.escaped "AttributeError: items")) := by
  unfold calculateText
  split
  · exact ⟨_, _, _, rfl, Or.inr (Or.inl ⟨_, rfl⟩)⟩
  · obtain ⟨m', ⟨st, h⟩ | ⟨msg, st, nx, pos, h, _⟩⟩ := C58_reading_partial x hp names inc h1 h2 h3 text ht m
    · rw [h]
      refine ⟨_, _, _, rfl, ?_⟩
      have hcalls : ∀ it ∈ st.flatten, CallsOf (· ∈ names) it :=
        parse_calls (c := shippedCfg x names inc) (K := (· ∈ names)) (fun f hf => shipped_leaves x hf) (by
          intro next name hname
          obtain ⟨_, hmem⟩ := Option.filter_eq_some_iff.1 hname
          simpa using hmem) _ _ _ _ _ _ _ _ h
      have hk : ∀ st' ∈ st.map toNodes, KnownAll (shipped call isUnit mkErr getErr funcs) st' := by
        intro st' hst'
        obtain ⟨u, hu, rfl⟩ := List.mem_map.1 hst'
        exact toNodes_known (K := (· ∈ names)) hn u
          (fun it hit => hcalls it (List.mem_flatten.2 ⟨u, hu, hit⟩))
      cases ho : (calculate (shipped call isUnit mkErr getErr funcs) atomVal finalize 0 (st.map toNodes) s).2.1 with
      | done => exact Or.inr (Or.inl ⟨_, rfl⟩)
      | failed i e => exact Or.inr (Or.inr (Or.inl ⟨_, _, _, rfl⟩))
      | escaped w =>
        rw [C58_engine_partial call isUnit mkErr getErr funcs atomVal finalize hops hatoms hfuncs hfin hvals
          _ hk s ho]
        exact Or.inr (Or.inr (Or.inr ⟨_, rfl⟩))
    · rw [h]
      exact ⟨_, _, _, rfl, Or.inl ⟨_, _, _, rfl⟩⟩

/-- The exceptions of the calculator among values. -/
def calcOf (v : Opd AS Bool Unit) : Option Raise :=
  match excOf v with
  | some (.py _) => none
  | e => e

/-- The hypotheses of `C58_text_partial` are met by the calculator of the examples. -/
example (text : Text) (ht : ¬ OddBase text) (m : Cache) (s : ℕ) :=
  C58_text_partial faultCall (fun _ => false) (fun e => ⟨.exc (.exec e), none, none, none⟩) calcOf faultFuncs
    (fun _ s => (.ok (numV 1), s)) (fun v s => (.ok v, s)) demoLex (by decide) ["abs".toList, "element".toList]
    (incomplete shippedOps) shippedOps_ne (by decide +kernel) (by decide +kernel) (by decide +kernel)
    fault_ops (fun _ _ _ h => by cases h) fault_funcs (fun _ _ _ h => by cases h) (fun v m h => by unfold calcOf at h; split at h <;> simp_all) text ht m s
end

end MC.Props
