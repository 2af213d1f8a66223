import Verif.Model.Install

/-!
# Specification of installation
-/

namespace MC.Spec
open MC.Install

/-- The features a request asks for: those named, what they depend on and the members of
groups, and so on. -/
inductive Needed (T : Table) (names : List String) : String → Prop
  | named {n} : n ∈ names → Needed T names n
  | dep {n f m} : Needed T names n → T n = some f → m ∈ f.deps → Needed T names m
  | sub {n f subs m} : Needed T names n → T n = some f → f.subs = some subs → m ∈ subs →
      Needed T names m

/-- The features a request asks for without going into groups. -/
inductive NeededDirectly (T : Table) (names : List String) : String → Prop
  | named {n} : n ∈ names → NeededDirectly T names n
  | dep {n f m} : NeededDirectly T names n → T n = some f → m ∈ f.deps →
      NeededDirectly T names m

/-- `a` was completely installed before the installation of `n` began, if it began. -/
def Before (log : List Event) (a n : String) : Prop :=
  ∀ pre post, log = pre ++ .start n :: post → .done a ∈ pre

/-- A feature table without cycles: there is a rank that falls along dependencies, hints and
group membership. -/
structure Acyclic (T : Table) (rank : String → ℕ) : Prop where
  dep : ∀ n f, T n = some f → ∀ m ∈ f.deps, rank m < rank n
  after : ∀ n f, T n = some f → ∀ m ∈ f.after, rank m < rank n
  sub : ∀ n f subs, T n = some f → f.subs = some subs → ∀ m ∈ subs, rank m < rank n

/-- All features that are mentioned exist. -/
structure Closed (T : Table) : Prop where
  dep : ∀ n f, T n = some f → ∀ m ∈ f.deps, T m ≠ none
  sub : ∀ n f subs, T n = some f → f.subs = some subs → ∀ m ∈ subs, T m ≠ none

end MC.Spec
