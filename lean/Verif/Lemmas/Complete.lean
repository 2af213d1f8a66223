import Verif.Lemmas.EngineAssign
import Verif.Lemmas.MeansMap
import Verif.Model.Terminator
import Verif.Props.Meaning
import Verif.Spec.Program

/-!
# A line that means something is complete

The fake execution of `Model/Terminator.lean` succeeds on an expression of the grammar, whatever its
operands are.
-/

namespace MC.Props
open MC MC.Spec
open MC.Parse (Kind Text fakeCfg fakeSrc incomplete)

/-- An operator of the fake execution. -/
def fakeCall : String → List Unit → Act Unit Unit := fun _ xs s => match xs with
  | [] => (.error (.py "list index out of range"), s)
  | v :: _ => (.ok v, s)

/-- As a function. -/
def fakeF : String → List Unit → Except String Unit := fun _ xs => match xs with
  | [] => .error "none"
  | v :: _ => .ok v

/-- The engine of the fake execution has the shipped table. -/
theorem fakeCfg_shipped {V σ : Type} (call : String → List V → Act σ V) (isUnit : V → Bool)
    (mkErr : ExecErr → V) (getErr : V → Option Raise) (funcs : String → Option (FuncDef V σ)) :
    fakeCfg (shipped call isUnit mkErr getErr funcs)
      = shipped fakeCall (fun _ => false) (fun _ => ()) (fun _ => none) (fun _ => none) := rfl

/-- A token of the fake execution. -/
def fakeTok {V : Type} : Tok V → Tok Unit
  | .op o => .op o
  | .val _ => .val ()

theorem fake_reads {V : Type} {f : String → List V → Except String V} {k : ℕ} {toks : List (Tok V)} {v : V}
    (h : Reads documented f k toks v) (ht : toks ≠ [] := by trivial) :
    Reads documented fakeF k (toks.map fakeTok) () := by
  clear ht
  induction h with
  | atom v => exact .atom ()
  | up _ ih => exact .up ih
  | left hr ho _ _ _ iht ihu =>
    rw [List.map_append, List.map_cons]
    exact .left hr ho iht ihu rfl
  | pref hr ho _ _ ih => exact .pref hr ho ih rfl
  | tern hr _ _ _ _ iht ihu ihr =>
    rw [List.map_append, List.map_cons, List.map_append, List.map_cons]
    exact .tern hr iht ihu ihr rfl
  | next hr _ _ _ iht ihu =>
    rw [List.map_append]
    exact .next hr iht ihu rfl

/-- The operands of the fake execution. -/
def fakeSrcs (its : List Parse.Item) : List (Src Unit Unit) := (its.filter Parse.Item.functional).map fakeSrc

theorem fakeSrcs_append (a b : List Parse.Item) : fakeSrcs (a ++ b) = fakeSrcs a ++ fakeSrcs b := by
  simp [fakeSrcs]

theorem fakeSrcs_blank {its : List Parse.Item} (h : Blank its) : fakeSrcs its = [] := by
  unfold fakeSrcs
  rw [List.filter_eq_nil_iff.2]
  · rfl
  · intro it hit
    obtain ⟨k, hk, t, rfl⟩ := h it hit
    simp only [emptyKinds, List.mem_cons, List.not_mem_nil, or_false] at hk
    rcases hk with rfl | rfl | rfl <;> simp [Parse.Item.functional]

theorem stands_fake {V : Type} {lit : Parse.Item → V → Prop} {f g : String → List V → Except String V}
    {its : List Parse.Item} {toks : List (Tok V)} (h : Stands lit f g its toks) :
    Gives () (fakeSrcs its) (toks.map fakeTok) := by
  refine Stands.rec (motive_1 := fun its toks _ => Gives () (fakeSrcs its) (toks.map fakeTok))
    (motive_2 := fun _ _ _ => True)
    (motive_3 := fun _ _ _ => True) ?_ ?_ ?_ ?_ ?_ ?_ ?_ ?_ ?_ ?_ h
  · exact .nil
  · intro k t its toks hk _ ih
    rw [← List.singleton_append, fakeSrcs_append, fakeSrcs_blank (its := [.leaf k t])]
    · exact ih
    · intro it hit
      rw [List.mem_singleton] at hit
      exact ⟨k, hk, t, hit⟩
  · intro o its toks _ ih
    rw [← List.singleton_append, fakeSrcs_append]
    exact .op ih
  · intro it v its toks hk _ _ ih
    rw [← List.singleton_append, fakeSrcs_append]
    have : fakeSrcs [it] = [.operand fun s => (.ok (), s)] := by
      cases it with
      | leaf k t =>
        simp only [isOperand, valueKinds, List.mem_cons, List.not_mem_nil, or_false, decide_eq_true_eq] at hk
        rcases hk with rfl | rfl | rfl | rfl | rfl | rfl | rfl <;> rfl
      | nest => rfl
    rw [this]
    exact .operand (act := fun s => (.ok (), s)) rfl ih
  · intro t inner v its toks _ _ _ ih
    rw [← List.singleton_append, fakeSrcs_append]
    exact .operand (act := fun s => (.ok (), s)) rfl ih
  · intro t w args vs v its toks _ _ _ _ ih
    rw [← List.singleton_append, fakeSrcs_append]
    exact .operand (act := fun s => (.ok (), s)) rfl ih
  all_goals intros; trivial

theorem fake_does : ∀ (o : String) ins v, fakeF o ins = .ok v → fakeCall o ins () = (.ok v, ()) := by
  intro o ins v h
  cases ins with
  | nil => cases h
  | cons a as => rfl

section
variable {V σ : Type} (call : String → List V → Act σ V) (isUnit : V → Bool)
    (mkErr : ExecErr → V) (getErr : V → Option Raise) (funcs : String → Option (FuncDef V σ))

theorem complete_of {its : List Parse.Item} {r : Except Raise Unit × Unit}
    (h : execute (shipped fakeCall (fun _ => false) (fun _ => ()) (fun _ => none) (fun _ => none))
      (fakeSrcs its) () = r) (hr : r.1 = .ok ()) :
    incomplete (shipped call isUnit mkErr getErr funcs) (its.filter Parse.Item.functional) = false := by
  unfold incomplete
  rw [fakeCfg_shipped]
  unfold fakeSrcs at h
  rw [h]
  rw [hr]

/-- A line that means something is complete. -/
theorem line_complete {W : Type} {lit : Store W → Parse.Item → W → Prop} {f g f' : String → List W → Except String W}
    {one : W} {env env' : Store W} {its : List Parse.Item} {a : Option W}
    (h : LineOf (fun env => Means (lit env) f g) f' one env its a env') :
    incomplete (shipped call isUnit mkErr getErr funcs) (its.filter Parse.Item.functional) = false := by
  have change : ∀ {its : List Parse.Item} {x o : String} {rest : List Parse.Item}, Change its x o rest →
      fakeSrcs its = .operand (fun s => (.ok (), s)) :: .op o :: fakeSrcs rest := by
    rintro its x o rest ⟨ha, hb⟩
    rw [fakeSrcs_append, fakeSrcs_blank ha, ← List.singleton_append, fakeSrcs_append, fakeSrcs_append,
      fakeSrcs_blank hb, ← List.singleton_append (x := Parse.Item.leaf .op _), fakeSrcs_append]
    rfl
  have assigned : ∀ {its : List Parse.Item} {x o : String} {rest : List Parse.Item} {v : W}, Change its x o rest →
      o ∈ assigning → Means (lit env) f g rest v →
      incomplete (shipped call isUnit mkErr getErr funcs) (its.filter Parse.Item.functional) = false := by
    rintro its x o rest v hc ho ⟨hs, hr⟩
    refine complete_of call isUnit mkErr getErr funcs (r := (.ok (), ())) ?_ rfl
    rw [change hc]
    exact execute_assign (f := fakeF) (s := ()) (x := ()) fake_does (fun _ _ _ _ _ => rfl) (fun _ _ => rfl) rfl ho
      (stands_fake hs) (fake_reads hr (reads_ne hr)) rfl
  cases h with
  | blank hb =>
    have : (its.filter Parse.Item.functional).map fakeSrc = [] := fakeSrcs_blank hb
    unfold incomplete
    rw [this]
    rfl
  | value hm =>
    obtain ⟨hs, hr⟩ := hm
    refine complete_of call isUnit mkErr getErr funcs (r := (.ok (), ())) ?_ rfl
    exact execute_reads (f := fakeF) fake_does (fun _ _ _ _ _ => rfl) (fun _ _ => rfl) (stands_fake hs)
      (fake_reads hr (reads_ne hr))
  | assign hc hm => exact assigned hc (by decide) hm
  | keep hc hm _ => exact assigned hc (by decide) hm
  | update ho hc hm _ _ =>
    refine assigned hc ?_ hm
    simp only [List.mem_cons, List.not_mem_nil, or_false] at ho
    rcases ho with rfl | rfl | rfl | rfl | rfl | rfl | rfl <;> decide
  | step ho hc hb _ _ =>
    refine complete_of call isUnit mkErr getErr funcs (r := (.ok (), ())) ?_ rfl
    rw [change hc, fakeSrcs_blank hb]
    refine execute_postfix (x := ()) rfl ?_ rfl
    clear hc
    simp only [List.mem_cons, List.not_mem_nil, or_false] at ho
    rcases ho with rfl | rfl <;> decide

end
end MC.Props
