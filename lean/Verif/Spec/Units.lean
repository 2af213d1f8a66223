import Verif.Model.Units

/-!
# What unit arithmetic should mean
-/

namespace MC.Unit.Spec

/-- The exponent of a key in a list of keys with powers: the sum over all its entries. -/
def total {A : Type} [DecidableEq A] (l : PL A) (k : A) : ℚ :=
  ((l.filter (fun o => o.1 = k)).map (·.2)).sum

/-- No key twice, no zero power. -/
def Proper {A : Type} (l : PL A) : Prop :=
  (l.map (·.1)).Nodup ∧ ∀ o ∈ l, o.2 ≠ 0

/-- The exponents of a unit that may be missing. -/
def totalO {A : Type} [DecidableEq A] (l : Option (PL A)) (k : A) : ℚ := total (l.getD []) k

/-- `pw s` behaves as powers of a non-zero number do. -/
def PowLaw {K : Type} [Field K] (pw : K → ℚ → K) (s : K) : Prop :=
  pw s 0 = 1 ∧ ∀ p q, pw s (p + q) = pw s p * pw s q

section
variable {U D K : Type} [DecidableEq U] [DecidableEq D] [Field K]

/-- The power of a base dimension in one unit. -/
def unitDim (N : Norm U D K) (u : U) (d : D) : ℚ :=
  match N.rel (N.info u).dim with
  | some l => total l d
  | none => if (N.info u).dim = d then 1 else 0

/-- The dimension of a product of powers of units: the power of each base dimension. -/
def dimOf (N : Norm U D K) (l : PL U) (d : D) : ℚ :=
  (l.map (fun o => o.2 * unitDim N o.1 d)).sum

/-- The dimension of a unit that may be missing: zero in every base dimension. -/
def dimOfO (N : Norm U D K) (l : Option (PL U)) (d : D) : ℚ := dimOf N (l.getD []) d

/-- The size of a step of one unit, in base units. -/
def stepSize (i : Info D K) : K :=
  match i.kind with
  | .scale => i.scale
  | .celsius => 1
  | .fahrenheit => 5 / 9

/-- The size of a product of powers of units, in base units. -/
def size (pw : K → ℚ → K) (N : Norm U D K) (l : PL U) : K :=
  (l.map (fun o => pw (stepSize (N.info o.1)) o.2)).prod

/-- A value with a unit that may be missing, in base units. -/
def quantity (pw : K → ℚ → K) (N : Norm U D K) (x : K × Option (PL U)) : K :=
  x.1 * size pw N (x.2.getD [])

/-- Powers of the sizes of all units, and of one, are as they should be. -/
def Lawful (pw : K → ℚ → K) (N : Norm U D K) : Prop :=
  (∀ p, pw 1 p = 1) ∧ ∀ u, PowLaw pw (stepSize (N.info u))

/-- All units of the list are proportional to the base unit (everything but Celsius and
Fahrenheit), or differences are converted. -/
def Proportional (N : Norm U D K) (relative : Bool) (l : PL U) : Prop :=
  ∀ o ∈ l, relative = true ∨ (N.info o.1).kind = .scale

end

/-- Going through the list, the exponent summed up so far is never zero when a key comes up
again. -/
def Steady {A : Type} [DecidableEq A] (l : PL A) : Prop :=
  ∀ pre o post, l = pre ++ o :: post → (∃ o' ∈ pre, o'.1 = o.1) → total pre o.1 ≠ 0

/-- The contributions of all units to the base dimensions, in the order of the list. -/
def contributions {U D K : Type} (N : Norm U D K) (l : PL U) : PL D :=
  l.flatMap (fun o =>
    match N.rel (N.info o.1).dim with
    | some r => r.map (fun d => (d.1, d.2 * o.2))
    | none => [((N.info o.1).dim, o.2)])

end MC.Unit.Spec

namespace MC.Unit.Spec

/-- An integer from zero up to `p`, or from zero down to `p`. -/
def Between (p n : ℚ) : Prop := (∃ z : ℤ, n = z) ∧ (0 ≤ n ∧ n ≤ p ∨ p ≤ n ∧ n ≤ 0)

/-- `r` is a part of `l`: the units of `r` are units of `l` in the order of `l`, none twice and
none with power zero, and every power is an integer between zero and the power in `l`. -/
def Part {U : Type} [DecidableEq U] (r l : PL U) : Prop :=
  Proper r ∧ (r.map (·.1)).Sublist (l.map (·.1)) ∧ ∀ u, Between (total l u) (total r u)

end MC.Unit.Spec

namespace MC.Unit.Spec

variable {U D K : Type} [DecidableEq U] [DecidableEq D] [Field K]

/-- A coherent registry: a relationship lists distinct base dimensions with non-zero powers, units
are registered under their own dimension, and the multi-units of a dimension have that
dimension. -/
structure Coherent (N : Norm U D K) : Prop where
  rel : ∀ d l, N.rel d = some l → Proper l ∧ l ≠ []
  units : ∀ e ∈ N.units, ∀ u ∈ e.2, (N.info u).dim = e.1
  multi : ∀ e ∈ N.units, ∀ m ∈ N.multiunits e.1, Proper m ∧
    ∀ d, dimOf N m d = match N.rel e.1 with
      | some l => total l d
      | none => if e.1 = d then 1 else 0

/-- `t` is the dimension of the units that are not proportional (temperature): a base dimension
which is not part of any other. -/
structure Thermal (N : Norm U D K) (t : D) : Prop where
  kind : ∀ u, (N.info u).dim ≠ t → (N.info u).kind = .scale
  base : N.rel t = none
  apart : ∀ u, (N.info u).dim ≠ t → unitDim N u t = 0
  multi : ∀ d, d ≠ t → ∀ m ∈ N.multiunits d, ∀ o ∈ m, (N.info o.1).dim ≠ t

/-- No unit of dimension `t` in the list. -/
def Without (N : Norm U D K) (t : D) (l : PL U) : Prop := ∀ o ∈ l, (N.info o.1).dim ≠ t

/-- At most one dimension has several units in the list; either their powers cancel, or there are
two and one of them is the first unit of the list. -/
def DedupeSafe (N : Norm U D K) (l : PL U) : Prop :=
  ∃ d, (∀ d', d' ≠ d → (l.map (fun o => (N.info o.1).dim)).count d' ≤ 1) ∧
    ((l.map (fun o => (N.info o.1).dim)).count d ≤ 1 ∨
     ((l.filter (fun o => (N.info o.1).dim = d)).map (·.2)).sum = 0 ∨
     ((l.map (fun o => (N.info o.1).dim)).count d = 2 ∧
        (l.map (fun o => (N.info o.1).dim)).head? = some d))

end MC.Unit.Spec
