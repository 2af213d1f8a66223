import Verif.Lemmas.RegistryBuild
import Verif.Lemmas.NameTree
import Verif.Model.UnitLex

/-!
# Checks of the shipped unit table
-/

namespace MC.Unit.Table
open MC.Parse (Text)
open MC.Unit.Registry MC.Unit.Registry.Spec MC.NameTree

theorem lower_eq_iff {a b : String} : lower a = lower b ↔ lowerText a.toList = lowerText b.toList := by
  unfold lower
  constructor
  · intro h
    have := congrArg String.toList h
    simpa using this
  · intro h; rw [h]

/-- The unit has this name. -/
def Made.hasName (u : Made) (n : String) : Bool :=
  (u.names.map lowerText).contains (lowerText n.toList)

theorem hasName_iff {u : Made} {n : String} : u.hasName n = true ↔ named lower info n u := by
  unfold Made.hasName named info
  simp only [List.contains_iff_mem, List.mem_map, lower_eq_iff]
  constructor
  · rintro ⟨m, h1, h2⟩
    exact ⟨String.ofList m, ⟨m, h1, rfl⟩, by simpa using h2⟩
  · rintro ⟨m, ⟨t, h1, rfl⟩, h2⟩
    exact ⟨t, h1, by simpa using h2⟩

/-- Does the ambiguous unit go by this name? -/
def ambHas (n : String) (a : Amb Made) : Bool :=
  (a.names.map (fun m => lowerText m.toList)).contains (lowerText n.toList) || a.symbols.contains n

theorem ambHas_iff {n : String} {a : Amb Made} : ambHas n a = true ↔ goesBy lower n a := by
  unfold ambHas goesBy
  simp only [Bool.or_eq_true, List.contains_iff_mem, List.mem_map, lower_eq_iff]

/-- The unit an ambiguous unit's member name stands for. -/
def member (regs : List Made) (ambs : List (Amb Made)) (n : String) : Option Made :=
  match regs.filter (fun u => u.hasName n) with
  | [u] => if ambs.any (ambHas n) then none else some u
  | _ => none

def members (regs : List Made) (ambs : List (Amb Made)) : List String → Option (List Made)
  | [] => some []
  | n :: ns =>
    match member regs ambs n, members regs ambs ns with
    | some u, some us => some (u :: us)
    | _, _ => none

/-- Check that registrations are accepted, and compute the ambiguous units. -/
def accept : List (Op Made) → List (Op Made) → List String → List (Amb Made) →
    Option (List (Amb Made))
  | [], _, _, ambs => some ambs
  | .dim d :: todo, done, dims, ambs => accept todo (.dim d :: done) (d :: dims) ambs
  | .unit d u :: todo, done, dims, ambs =>
    if dims.contains d then accept todo (.unit d u :: done) dims ambs else none
  | .amb names symbols units :: todo, done, dims, ambs =>
    match members (registered done.reverse) ambs units with
    | some us =>
      if (us.flatMap (fun u => u.systems)).Nodup then
        accept todo (.amb names symbols units :: done) dims (ambs ++ [ambOf info names symbols us])
      else none
    | none => none

theorem member_spec {regs : List Made} {ambs : List (Amb Made)} {n : String} {u : Made}
    (h : member regs ambs n = some u) :
    u ∈ regs ∧ named lower info n u ∧ (∀ v ∈ regs, named lower info n v → v = u) ∧
      ∀ a ∈ ambs, ¬ goesBy lower n a := by
  unfold member at h
  split at h
  · rename_i w hw
    split at h
    · simp at h
    · rename_i ha
      cases h
      have hm : u ∈ regs.filter (fun u => u.hasName n) := by rw [hw]; simp
      obtain ⟨h1, h2⟩ := List.mem_filter.1 hm
      refine ⟨h1, hasName_iff.1 h2, ?_, ?_⟩
      · intro v hv hn
        have : v ∈ regs.filter (fun u => u.hasName n) := List.mem_filter.2 ⟨hv, hasName_iff.2 hn⟩
        rw [hw] at this
        simpa using this
      · intro a hm hg
        exact ha (List.any_eq_true.2 ⟨a, hm, ambHas_iff.2 hg⟩)
  · simp at h

theorem members_spec {regs : List Made} {ambs : List (Amb Made)} : ∀ {ns : List String} {us : List Made},
    members regs ambs ns = some us →
    List.Forall₂ (fun n u => u ∈ regs ∧ named lower info n u ∧
      (∀ v ∈ regs, named lower info n v → v = u) ∧ ∀ a ∈ ambs, ¬ goesBy lower n a) ns us
  | [], us, h => by
    simp only [members, Option.some.injEq] at h
    subst h
    exact .nil
  | n :: ns, us, h => by
    simp only [members] at h
    split at h
    · rename_i u us' h1 h2
      cases h
      exact .cons (member_spec h1) (members_spec h2)
    · simp at h

theorem accept_spec : ∀ {todo done : List (Op Made)} {dims : List String} {ambs ambs' : List (Amb Made)},
    accept todo done dims ambs = some ambs' → Fine lower info done.reverse ambs →
    (∀ d ∈ dims, Op.dim d ∈ done) → Fine lower info (done.reverse ++ todo) ambs'
  | [], done, dims, ambs, ambs', h, hf, _ => by
    simp only [accept, Option.some.injEq] at h
    subst h
    simpa using hf
  | .dim d :: todo, done, dims, ambs, ambs', h, hf, hd => by
    simp only [accept] at h
    have := accept_spec h (by simpa using hf.dim d) (by
      intro d' hd'
      rcases List.mem_cons.1 hd' with e | hd'
      · subst e; exact List.mem_cons_self
      · exact List.mem_cons_of_mem _ (hd _ hd'))
    simpa using this
  | .unit d u :: todo, done, dims, ambs, ambs', h, hf, hd => by
    simp only [accept] at h
    split at h
    · rename_i hc
      have := accept_spec h (by
          simpa using hf.unit d u (List.mem_reverse.2 (hd d (List.contains_iff_mem.1 hc))))
        (fun d' hd' => List.mem_cons_of_mem _ (hd _ hd'))
      simpa using this
    · simp at h
  | .amb names symbols units :: todo, done, dims, ambs, ambs', h, hf, hd => by
    simp only [accept] at h
    split at h
    · rename_i us hus
      split at h
      · rename_i hn
        have := accept_spec h (by
            simpa using hf.amb names symbols units us (members_spec hus) (by simpa [info] using hn))
          (fun d' hd' => List.mem_cons_of_mem _ (hd _ hd'))
        simpa using this
      · simp at h
    · simp at h

/-- The shipped ambiguous units. -/
def shippedAmbs : List (Amb Made) := (accept ops [] [] []).getD []

set_option maxRecDepth 100000 in
theorem accept_isSome : (accept ops [] [] []).isSome = true := by decide +kernel

theorem fine_shipped : Fine lower info ops shippedAmbs := by
  cases h : accept ops [] [] [] with
  | none => have := accept_isSome; rw [h] at this; simp at this
  | some a =>
    have := accept_spec h (by simpa using Fine.nil) (by simp)
    simpa [shippedAmbs, h] using this

/-- All entries of a kind, coded, with the number of the registration. -/
def entries (f : Op Made → List Text) (l : List (Op Made × ℕ)) : List (ℕ × ℕ) :=
  l.flatMap (fun p => (f p.1).map (fun n => (code n, p.2)))

def lowNames (o : Op Made) : List Text := (opNames o).map lowerText
def lowSymbols (o : Op Made) : List Text := (opSymbols o).map lowerText

/-- No two registrations share a name, none share a symbol, and none has a symbol that is a name of
another. -/
def distinct (l : List (Op Made × ℕ)) : Bool :=
  match Tree.ofList (entries lowNames l) .leaf, Tree.ofList (entries opSymbols l) .leaf with
  | some t, some _ => (entries lowSymbols l).all (fun p =>
      match t.find p.1 with
      | none => true
      | some v => v.beq p.2)
  | _, _ => false

theorem mem_entries {f : Op Made → List Text} {l : List (Op Made × ℕ)} {o : Op Made} {i : ℕ}
    (h : (o, i) ∈ l) {n : Text} (hn : n ∈ f o) : (code n, i) ∈ entries f l := by
  unfold entries
  exact List.mem_flatMap.2 ⟨(o, i), h, List.mem_map.2 ⟨n, hn, rfl⟩⟩

theorem distinct_spec {l : List (Op Made × ℕ)} (h : distinct l = true) {o₁ o₂ : Op Made} {i j : ℕ}
    (h₁ : (o₁, i) ∈ l) (h₂ : (o₂, j) ∈ l) :
    (∀ n ∈ opNames o₁, ∀ m ∈ opNames o₂, lowerText n = lowerText m → i = j) ∧
    (∀ n ∈ opSymbols o₁, n ∈ opSymbols o₂ → i = j) ∧
    (∀ n ∈ opSymbols o₁, ∀ m ∈ opNames o₂, lowerText n = lowerText m → i = j) := by
  unfold distinct at h
  split at h
  · rename_i t t' ht ht'
    have f1 := (Tree.ofList_find ht).2
    have f2 := (Tree.ofList_find ht').2
    have low : ∀ {o : Op Made} {k : ℕ}, (o, k) ∈ l → ∀ n ∈ opNames o,
        t.find (code (lowerText n)) = some k := by
      intro o k ho n hn
      exact f1 _ (mem_entries ho (f := lowNames) (List.mem_map.2 ⟨n, hn, rfl⟩))
    refine ⟨?_, ?_, ?_⟩
    · intro n hn m hm e
      have a := low h₁ n hn
      have b := low h₂ m hm
      rw [e, b] at a
      cases a; rfl
    · intro n hn hm
      have a := f2 _ (mem_entries h₁ (f := opSymbols) hn)
      have b := f2 _ (mem_entries h₂ (f := opSymbols) hm)
      rw [a] at b
      simpa using b
    · intro n hn m hm e
      have a := List.all_eq_true.1 h _ (mem_entries h₁ (f := lowSymbols) (List.mem_map.2 ⟨n, hn, rfl⟩))
      rw [show (code (lowerText n), i).1 = code (lowerText m) by rw [← e], low h₂ m hm] at a
      exact (Nat.eq_of_beq_eq_true a).symm
  · simp at h

set_option maxRecDepth 100000 in
theorem distinct_shipped : distinct ops.zipIdx = true := by decide +kernel

/-- Two registrations that enter a common name are the same. -/
theorem ops_distinct {o₁ o₂ : Op Made} (h₁ : o₁ ∈ ops) (h₂ : o₂ ∈ ops)
    (h : (∃ n ∈ opNames o₁, ∃ m ∈ opNames o₂, lowerText n = lowerText m) ∨
      (∃ n ∈ opSymbols o₁, n ∈ opSymbols o₂) ∨
      ∃ n ∈ opSymbols o₁, ∃ m ∈ opNames o₂, lowerText n = lowerText m) : o₁ = o₂ := by
  obtain ⟨i, hi, rfl⟩ := List.mem_iff_getElem.1 h₁
  obtain ⟨j, hj, rfl⟩ := List.mem_iff_getElem.1 h₂
  have m₁ : (ops[i], i) ∈ ops.zipIdx := by
    rw [List.mem_zipIdx_iff_getElem?]; simp [hi]
  have m₂ : (ops[j], j) ∈ ops.zipIdx := by
    rw [List.mem_zipIdx_iff_getElem?]; simp [hj]
  have ⟨a, b, c⟩ := distinct_spec distinct_shipped m₁ m₂
  have e : i = j := by
    rcases h with ⟨n, hn, m, hm, e⟩ | ⟨n, hn, hm⟩ | ⟨n, hn, m, hm, e⟩
    · exact a n hn m hm e
    · exact b n hn hm
    · exact c n hn m hm e
  subst e
  rfl

end MC.Unit.Table
