import Verif.Lemmas.Lexer
import Verif.Model.Text

/-!
# The calls the parser makes are of functions in the table
-/

namespace MC.Parse

/-- In the item, and in all items inside it, a call starts with a name that satisfies `K`. -/
inductive CallsOf (K : Text → Prop) : Item → Prop
  | leaf (k : Kind) (t : Text) : CallsOf K (.leaf k t)
  | nest (k : Nest) (t : Text) (items : List Item) : (∀ it ∈ items, CallsOf K it) →
      (k = .func → ∃ name rest, items = .leaf .funcName name :: rest ∧ K name) → CallsOf K (.nest k t items)

section
variable {c : Cfg} {K : Text → Prop}

/-- The items of a list. -/
def AllCalls (K : Text → Prop) (items : List Item) : Prop := ∀ it ∈ items, CallsOf K it

theorem AllCalls.append {a b : List Item} (ha : AllCalls K a) (hb : AllCalls K b) : AllCalls K (a ++ b) := by
  intro it h
  rcases List.mem_append.1 h with h | h
  · exact ha it h
  · exact hb it h

theorem allCalls_leaf (k : Kind) (t : Text) : AllCalls K [.leaf k t] := by
  intro it h
  rw [List.mem_singleton] at h
  subst h
  exact .leaf k t

theorem allCalls_nil : AllCalls K [] := by intro it h; cases h

/-- What a parser returns. -/
def FoundCalls (K : Text → Prop) : Except PErr Found → Prop
  | .ok f => AllCalls K (f.items.getD [])
  | .error _ => True

/-- What `parse` returns. -/
def RecCalls (K : Text → Prop) (rec : ParseFn) : Prop :=
  ∀ fl text s st n w s', rec fl text s = some (.ok (st, n, w), s') → AllCalls K st.flatten

theorem allCalls_headD {st : List (List Item)} (h : AllCalls K st.flatten) : AllCalls K (st.headD []) := by
  cases st with
  | nil => exact allCalls_nil
  | cons a as => intro it hit; exact h it (by rw [List.flatten_cons]; exact List.mem_append_left _ hit)

theorem reraise_calls (k : Nest) (next : Text) (msg : String) (items : List Item) (nx : Text) :
    FoundCalls K (reraise k next msg items nx) := by
  unfold reraise
  split <;> trivial

theorem nothing_calls : FoundCalls K (.ok nothing) := allCalls_nil

theorem argLoop_calls {rec : ParseFn} (hr : RecCalls K rec) {k : Nest} {next : Text} :
    ∀ (n i : ℕ) (items : List Item) (s : Cache) (r : Except PErr Found) (s' : Cache), AllCalls K items →
      (k = .func → ∃ name rest, items = .leaf .funcName name :: rest ∧ K name) →
      argLoop rec k next n i items s = some (r, s') → FoundCalls K r := by
  intro n
  induction n with
  | zero => intro i items s r s' _ _ h; simp [argLoop] at h
  | succ n ih =>
    intro i items s r s' hi hk h
    unfold argLoop at h
    split at h
    · split at h
      · cases h
      · cases h; trivial
      · cases h; exact reraise_calls _ _ _ _ _
      · rename_i st len w s1 hrec
        have hst := allCalls_headD (hr _ _ _ _ _ _ _ hrec)
        have hk' : ∀ more, k = .func → ∃ name rest,
            items ++ st.headD [] ++ more = .leaf .funcName name :: rest ∧ K name := by
          intro more e
          obtain ⟨name, rest, h1, h2⟩ := hk e
          exact ⟨name, _, by rw [h1]; rfl, h2⟩
        dsimp only at h
        split at h
        · cases h
          show AllCalls K [_]
          intro it hit
          rw [List.mem_singleton] at hit
          subst hit
          exact .nest _ _ _ ((hi.append hst).append (allCalls_leaf _ _)) (hk' _)
        · exact ih _ _ _ _ _ ((hi.append hst).append (allCalls_leaf _ _)) (hk' _) h
    · cases h; trivial

theorem runFunc_calls {rec : ParseFn} (hr : RecCalls K rec) {k : Nest} {name : Option Text} {next : Text}
    (hn : k = .func → ∀ nm, name = some nm → K nm) {s s' : Cache} {r : Except PErr Found}
    (h : runFunc rec k name next s = some (r, s')) : FoundCalls K r := by
  unfold runFunc at h
  split at h
  · cases h; exact nothing_calls
  · rename_i nm
    refine argLoop_calls hr _ _ _ _ _ _ ((allCalls_leaf _ _).append (allCalls_leaf _ _)) ?_ h
    intro e
    exact ⟨nm, _, rfl, hn e nm rfl⟩

theorem runInner_calls {rec : ParseFn} (hr : RecCalls K rec) {next : Text} {fl : Flags} {s s' : Cache}
    {r : Except PErr Found} (h : runInner rec next fl s = some (r, s')) : FoundCalls K r := by
  unfold runInner at h
  split at h
  · split at h
    · cases h
    · cases h; trivial
    · cases h; exact reraise_calls _ _ _ _ _
    · rename_i st len w s1 hrec
      have hst := allCalls_headD (hr _ _ _ _ _ _ _ hrec)
      split at h
      · cases h
        show AllCalls K [_]
        intro it hit
        rw [List.mem_singleton] at hit
        subst hit
        exact .nest _ _ _ ((allCalls_leaf .innerStart ['(']).append hst) (fun e => by cases e)
      · cases h; trivial
  · cases h; exact nothing_calls

theorem runInline_calls {rec : ParseFn} (hr : RecCalls K rec) {next : Text} {fl : Flags} {s s' : Cache}
    {r : Except PErr Found} (h : runInline rec next fl s = some (r, s')) : FoundCalls K r := by
  unfold runInline at h
  split at h
  · split at h
    · cases h
    · cases h; trivial
    · cases h; exact reraise_calls _ _ _ _ _
    · rename_i st len w s1 hrec
      have hst := hr _ _ _ _ _ _ _ hrec
      split at h
      · cases h
        show AllCalls K [_]
        intro it hit
        rw [List.mem_singleton] at hit
        subst hit
        exact .nest _ _ _ ((allCalls_leaf .inlineStart ['{']).append hst) (fun e => by cases e)
      · cases h; trivial
  · cases h; exact nothing_calls

theorem arrParse_calls {rec : ParseFn} (hr : RecCalls K rec) {next : Text} {i : ℕ} {items : List Item}
    {s s' : Cache} {r} (h : arrParse rec next i items s = some (r, s')) :
    (∀ e, r = .error e → FoundCalls K e) ∧ ∀ its len w, r = .ok (its, len, w) → AllCalls K its := by
  unfold arrParse at h
  split at h
  · cases h
  · cases h; exact ⟨fun e he => by cases he; trivial, fun _ _ _ he => by cases he⟩
  · cases h; exact ⟨fun e he => by cases he; exact reraise_calls _ _ _ _ _, fun _ _ _ he => by cases he⟩
  · rename_i st len w s1 hrec
    cases h
    refine ⟨fun e he => (by cases he), fun _ _ _ he => ?_⟩
    cases he
    exact allCalls_headD (hr _ _ _ _ _ _ _ hrec)

/-- A turn of the loop over the elements. -/
def TurnCalls (K : Text → Prop) : ArrTurn → Prop
  | .error e => FoundCalls K e
  | .ok (_, items, _) => AllCalls K items

theorem arrError_calls (next : Text) (i : ℕ) (items : List Item) : TurnCalls K (arrError next i items) :=
  reraise_calls (K := K) _ _ _ _ _

theorem arrStepPart_calls {rec : ParseFn} (hr : RecCalls K rec) {next : Text} {i : ℕ} {items : List Item}
    (hi : AllCalls K items) {s s' : Cache} {r} (h : arrStepPart rec next i items s = some (r, s')) :
    TurnCalls K r := by
  unfold arrStepPart at h
  split at h
  · cases h
  · rename_i e s1 hp
    cases h
    exact (arrParse_calls hr hp).1 e rfl
  · rename_i its len w s1 hp
    cases h
    exact hi.append ((arrParse_calls hr hp).2 _ _ _ rfl)

theorem arrRangePart_calls {rec : ParseFn} (hr : RecCalls K rec) {next : Text} {i : ℕ} {items : List Item}
    (hi : AllCalls K items) {s s' : Cache} {r} (h : arrRangePart c rec next i items s = some (r, s')) :
    TurnCalls K r := by
  unfold arrRangePart at h
  split at h
  · cases h
  · rename_i e s1 hp
    cases h
    exact (arrParse_calls hr hp).1 e rfl
  · rename_i its len w s1 hp
    have hall := hi.append ((arrParse_calls hr hp).2 _ _ _ rfl)
    split at h
    · split at h
      · cases h; exact arrError_calls _ _ _
      · cases h; exact hall
    · split at h
      · exact arrStepPart_calls hr (hall.append (allCalls_leaf _ _)) h
      · cases h; exact hall

theorem arrTurn_calls {rec : ParseFn} (hr : RecCalls K rec) {next : Text} {i : ℕ} {items : List Item}
    (hi : AllCalls K items) {s s' : Cache} {r} (h : arrTurn c rec next i items s = some (r, s')) :
    TurnCalls K r := by
  unfold arrTurn at h
  split at h
  · cases h
  · rename_i e s1 hp
    cases h
    exact (arrParse_calls hr hp).1 e rfl
  · rename_i its len w s1 hp
    have hall := hi.append ((arrParse_calls hr hp).2 _ _ _ rfl)
    split at h
    · split at h
      · cases h; exact arrError_calls _ _ _
      · cases h; exact hall
    · split at h
      · exact arrRangePart_calls hr (hall.append (allCalls_leaf _ _)) h
      · cases h; exact hall

theorem arrLoop_calls {rec : ParseFn} (hr : RecCalls K rec) {next : Text} :
    ∀ (n i : ℕ) (items : List Item) (s : Cache) (r : Except PErr Found) (s' : Cache), AllCalls K items →
      arrLoop c rec next n i items s = some (r, s') → FoundCalls K r := by
  intro n
  induction n with
  | zero => intro i items s r s' _ h; simp [arrLoop] at h
  | succ n ih =>
    intro i items s r s' hi h
    unfold arrLoop at h
    split at h
    · split at h
      · cases h
      · rename_i e s1 ht
        cases h
        exact arrTurn_calls hr hi ht
      · rename_i i1 items1 w s1 ht
        have hall : AllCalls K items1 := arrTurn_calls hr hi ht
        split at h
        · cases h
          show AllCalls K [_]
          intro it hit
          rw [List.mem_singleton] at hit
          subst hit
          exact .nest _ _ _ (hall.append (allCalls_leaf _ _)) (fun e => by cases e)
        · split at h
          · exact ih _ _ _ _ _ (hall.append (allCalls_leaf _ _)) h
          · exact ih _ _ _ _ _ hall h
    · cases h; trivial

theorem stopIf_calls (b : Bool) (w : Stop) : FoundCalls K (.ok (stopIf b w)) := by
  unfold stopIf
  split <;> exact allCalls_nil

theorem runEnd_calls (sym : Char) (inside : Bool) (k : Kind) (w : Stop) (msg : String) (next : Text) :
    FoundCalls K (runEnd sym inside k w msg next) := by
  unfold runEnd
  split
  · split
    · exact allCalls_leaf _ _
    · trivial
  · exact nothing_calls

theorem runParser_calls {rec : ParseFn} (hr : RecCalls K rec) {p : Parser}
    (hl : ∀ f, p = .leaf f → ∀ cur next it n, f cur next = .ok (some (it, n)) → ∃ k t, it = .leaf k t)
    (hK : ∀ next name, c.funcName next = some name → K name)
    {cur : List Item} {fl : Flags} {next : Text} {s s' : Cache} {r : Except PErr Found}
    (h : runParser c rec p cur next fl s = some (r, s')) : FoundCalls K r := by
  cases p with
  | leaf f =>
    simp only [runParser] at h
    split at h
    · cases h; trivial
    · cases h; exact nothing_calls
    · rename_i it n hf
      cases h
      obtain ⟨k, t, rfl⟩ := hl f rfl _ _ _ _ hf
      exact allCalls_leaf _ _
  | terminator =>
    simp only [runParser, runTerminator] at h
    split at h
    · cases h; exact nothing_calls
    · split at h
      · split at h
        · cases h; exact nothing_calls
        · split at h
          · cases h; exact nothing_calls
          · cases h; exact allCalls_leaf _ _
      · cases h; exact nothing_calls
  | pointer => exact runFunc_calls hr (fun e => by cases e) h
  | func => exact runFunc_calls hr (fun _ nm e => hK _ nm e) h
  | funcParam => cases h; exact stopIf_calls _ _
  | funcEnd => cases h; exact stopIf_calls _ _
  | inner => exact runInner_calls hr h
  | innerEnd => cases h; exact runEnd_calls _ _ _ _ _ _
  | inline => exact runInline_calls hr h
  | inlineEnd => cases h; exact runEnd_calls _ _ _ _ _ _
  | array =>
    simp only [runParser, runArray] at h
    split at h
    · exact arrLoop_calls hr _ _ _ _ _ _ (allCalls_leaf _ _) h
    · cases h; exact nothing_calls
  | arrRange => cases h; exact stopIf_calls _ _
  | arrStep => cases h; exact stopIf_calls _ _
  | arrParam => cases h; exact stopIf_calls _ _
  | arrEnd => cases h; exact stopIf_calls _ _

section
variable (hl : ∀ f, Parser.leaf f ∈ c.parsers → ∀ cur next it n, f cur next = .ok (some (it, n)) →
    ∃ k t, it = .leaf k t)
  (hK : ∀ next name, c.funcName next = some name → K name)
include hl hK

theorem tryParsers_calls {rec : ParseFn} (hr : RecCalls K rec) {fl : Flags} {next : Text} :
    ∀ (ps : List Parser) (_ : ∀ p ∈ ps, p ∈ c.parsers) (done : List (List Item)) (cur : List Item)
      (s s' : Cache) (r : Except Fail Turn), AllCalls K done.flatten → AllCalls K cur →
      tryParsers c rec next fl ps done cur s = some (r, s') →
      (∀ d u k, r = .ok (.go d u k) → AllCalls K d.flatten ∧ AllCalls K u) ∧
        ∀ st k w, r = .ok (.ret st k w) → AllCalls K st.flatten := by
  intro ps
  induction ps with
  | nil =>
    intro _ done cur s s' r hd hu h
    simp only [tryParsers, Option.some.injEq, Prod.mk.injEq] at h
    rw [← h.1]
    exact ⟨fun d u k e => (by cases e; exact ⟨hd, hu⟩), fun _ _ _ e => by cases e⟩
  | cons p ps ih =>
    intro hps done cur s s' r hd hu h
    have ih := ih (fun p hp => hps p (by simp [hp]))
    simp only [tryParsers] at h
    split at h
    · cases h
    · cases h; exact ⟨fun _ _ _ e => (by cases e), fun _ _ _ e => by cases e⟩
    · cases h; exact ⟨fun _ _ _ e => (by cases e), fun _ _ _ e => by cases e⟩
    · rename_i f s1 hrun
      have hf : AllCalls K (f.items.getD []) := runParser_calls hr
        (fun g hg => hl g (hg ▸ hps p (by simp))) hK hrun
      have hu' := hu.append hf
      have hd' : AllCalls K (done ++ [cur ++ f.items.getD []]).flatten := by
        rw [List.flatten_append]
        exact hd.append (by simpa using hu')
      split at h
      · cases h
        exact ⟨fun _ _ _ e => (by cases e), fun _ _ _ e => by cases e; exact hd'⟩
      · split at h
        · cases h
          exact ⟨fun _ _ _ e => (by cases e; exact ⟨hd', allCalls_nil⟩), fun _ _ _ e => by cases e⟩
        · exact ih _ _ _ _ _ hd' allCalls_nil h
      · split at h
        · cases h
          exact ⟨fun _ _ _ e => (by cases e; exact ⟨hd, hu'⟩), fun _ _ _ e => by cases e⟩
        · exact ih _ _ _ _ _ hd hu' h

theorem parseLoop_calls {rec : ParseFn} (hr : RecCalls K rec) {fl : Flags} :
    ∀ (n pos : ℕ) (next : Text) (done : List (List Item)) (cur : List Item) (s s' : Cache) (st) (k) (w),
      AllCalls K done.flatten → AllCalls K cur →
      parseLoop c rec fl n pos next done cur s = some (.ok (st, k, w), s') → AllCalls K st.flatten := by
  intro n
  induction n with
  | zero => intro pos next done cur s s' st k w _ _ h; simp [parseLoop] at h
  | succ n ih =>
    intro pos next done cur s s' st k w hd hu h
    unfold parseLoop at h
    split at h
    · cases h
      rw [List.flatten_append]
      exact hd.append (by simpa using hu)
    · split at h
      · cases h
      · cases h
      · rename_i ht
        have := (tryParsers_calls hl hK hr c.parsers (fun _ h => h) done cur _ _ _ hd hu ht).2 _ _ _ rfl
        cases h
        exact this
      · rename_i ht
        have := (tryParsers_calls hl hK hr c.parsers (fun _ h => h) done cur _ _ _ hd hu ht).1 _ _ _ rfl
        split at h
        · cases h
        · exact ih _ _ _ _ _ _ _ _ _ this.1 this.2 h

theorem parse_calls : ∀ n, RecCalls K (parse c n) := by
  intro n
  induction n with
  | zero => intro fl text s st k w s' h; simp [parse] at h
  | succ n ih =>
    intro fl text s st k w s' h
    exact parseLoop_calls hl hK ih _ _ _ [] [] _ _ _ _ _ allCalls_nil allCalls_nil h
end

end
end MC.Parse
