import Verif.Spec.Grammar

/-!
# The grammar of expressions with units

The grammar of `Verif/Spec/Grammar.lean` with the three rows it leaves out or restricts: units next
to units and units divided by units, a unit after a value, and a value next to anything.
Values may be units or not (`isUnit`); which of these rows applies depends on that.
-/

namespace MC.Spec
open MC

variable {V : Type}

/-- Whether the outermost operand at an end of a phrase made with row `k` is a unit: operators of
the first three rows, which bind tighter than units do, make one operand of theirs. -/
def edge (isUnit : V → Bool) (k : ℕ) (b : Bool) (x : V) : Bool := if k < 3 then isUnit x else b

/-- `PhraseFrom isUnit f j k b e toks v`: `toks` is a phrase of level `k`, made with the rows from `j`
on and before `k`, of value `v`; `b` and `e` say whether its first and its last operand are units.
As written, `j` is 0. -/
inductive PhraseFrom (isUnit : V → Bool) (f : String → List V → Except String V) (j : ℕ) :
    ℕ → Bool → Bool → List (Tok V) → V → Prop
  | atom (v : V) : PhraseFrom isUnit f j j (isUnit v) (isUnit v) [.val v] v
  | up {k b e t v} : PhraseFrom isUnit f j k b e t v → PhraseFrom isUnit f j (k + 1) b e t v
  /-- `a op b`; `/` between units is `per`; a product or quotient is a unit only if both
  operands are -/
  | left {k ops o t u v w x b e b' e'} : documented[k]? = some (.infixes ops) → o ∈ ops →
      PhraseFrom isUnit f j (k + 1) b e t v → PhraseFrom isUnit f j k b' e' u w → f o [v, w] = .ok x →
      (o = "/" → (e && b') = false) → (k = 6 → isUnit x = true → isUnit v = true ∧ isUnit w = true) →
      PhraseFrom isUnit f j (k + 1) (edge isUnit k b x) (edge isUnit k e' x) (t ++ .op o :: u) x
  /-- `op a` -/
  | pref {k ops o u w x b e} : j ≤ k → documented[k]? = some (.prefixes ops) → o ∈ ops →
      PhraseFrom isUnit f j (k + 1) b e u w → f o [w] = .ok x →
      PhraseFrom isUnit f j (k + 1) (isUnit x) (isUnit x) (.op o :: u) x
  /-- `a op b sym c` -/
  | tern {k o s t u r v w y x b e b' e' b'' e''} : documented[k]? = some (.ternary o s) →
      PhraseFrom isUnit f j (k + 1) b e t v → PhraseFrom isUnit f j k b' e' u w →
      PhraseFrom isUnit f j k b'' e'' r y → f o [v, w, y] = .ok x →
      PhraseFrom isUnit f j (k + 1) b e'' (t ++ .op o :: (u ++ .op s :: r)) x
  /-- unit next to unit: `metre second` -/
  | times {t u v w x b e b' e'} : PhraseFrom isUnit f j 4 b e t v → PhraseFrom isUnit f j 3 b' e' u w →
      isUnit v = true → isUnit w = true → f "UNIT_MULTIPLY" [v, w] = .ok x →
      PhraseFrom isUnit f j 4 b e' (t ++ u) x
  /-- unit divided by unit: `metre/second` -/
  | per {t u v w x b e b' e'} : PhraseFrom isUnit f j 4 b e t v → PhraseFrom isUnit f j 3 b' e' u w →
      isUnit v = true → isUnit w = true → f "UNIT_DIVIDE" [v, w] = .ok x →
      PhraseFrom isUnit f j 4 b e' (t ++ .op "/" :: u) x
  /-- unit after value: `5 metres` -/
  | of {t u v w x b e b' e'} : PhraseFrom isUnit f j 4 b e t v → PhraseFrom isUnit f j 4 b' e' u w →
      isUnit v = false → isUnit w = true → f "UNIT_ASSIGNMENT" [v, w] = .ok x → isUnit x = false →
      PhraseFrom isUnit f j 5 b e' (t ++ u) x
  /-- value next to anything: `2 x` -/
  | next {t u v w x b e e'} : PhraseFrom isUnit f j 6 b e t v → PhraseFrom isUnit f j 5 false e' u w →
      f "IMPLICIT_MULTIPLY" [v, w] = .ok x → isUnit x = false →
      PhraseFrom isUnit f j 6 b e' (t ++ u) x

/-- A phrase as written. -/
abbrev Phrase (isUnit : V → Bool) (f : String → List V → Except String V) := PhraseFrom isUnit f 0

end MC.Spec
