import Verif.Model.Engine

/-!
# The grammar of expressions

The table of operators as a user knows it, from the tightest row to the loosest, and the usual
stratified grammar it stands for, with the value of each phrase.
-/

namespace MC.Spec
open MC

/-- A row of the table. -/
inductive RowKind where
  /-- `a op b`, from left to right -/
  | infixes (ops : List String)
  /-- `op a` -/
  | prefixes (ops : List String)
  /-- `a op b sym c` -/
  | ternary (op sym : String)
  /-- `a b` -/
  | nextTo (op : String)
  /-- a row that this grammar leaves out -/
  | other

/-- The rows; those that work on unit names, and assignments, are left out. -/
def documented : List RowKind :=
  [ .infixes ["^"],
    .prefixes ["not", "~"],
    .infixes ["=~", "!~"],
    .other,
    .other,
    .nextTo "IMPLICIT_MULTIPLY",
    .infixes ["*", "/", "%", "*$", "\\"],
    .infixes ["+", "-", "+$", "+%", "-%"],
    .infixes ["<<", ">>"],
    .infixes ["<", ">", "<=", ">=", "<$", ">$", "<=$", ">=$", "<~", ">~", "<=~", ">=~"],
    .infixes ["==", "!=", "==$", "!=$", "==~", "!=~"],
    .infixes ["&"],
    .infixes ["|", "^^"],
    .infixes ["and", "or", "xor"],
    .ternary "then" "else",
    .infixes ["to", "as"] ]

variable {V : Type}

/-- `Reads rows f k toks v`: `toks` is a phrase of level `k`, made with the first `k` rows, of
value `v`.  `f` is what the operators do. -/
inductive Reads (rows : List RowKind) (f : String → List V → Except String V) :
    ℕ → List (Tok V) → V → Prop
  | atom (v : V) : Reads rows f 0 [.val v] v
  | up {k : ℕ} {t : List (Tok V)} {v : V} : Reads rows f k t v → Reads rows f (k + 1) t v
  | left {k : ℕ} {ops : List String} {o : String} {t u : List (Tok V)} {v w x : V} :
      rows[k]? = some (.infixes ops) → o ∈ ops → Reads rows f (k + 1) t v → Reads rows f k u w →
      f o [v, w] = .ok x → Reads rows f (k + 1) (t ++ .op o :: u) x
  | pref {k : ℕ} {ops : List String} {o : String} {u : List (Tok V)} {w x : V} :
      rows[k]? = some (.prefixes ops) → o ∈ ops → Reads rows f (k + 1) u w →
      f o [w] = .ok x → Reads rows f (k + 1) (.op o :: u) x
  | tern {k : ℕ} {o s : String} {t u r : List (Tok V)} {v w y x : V} :
      rows[k]? = some (.ternary o s) → Reads rows f (k + 1) t v → Reads rows f k u w →
      Reads rows f k r y → f o [v, w, y] = .ok x →
      Reads rows f (k + 1) (t ++ .op o :: (u ++ .op s :: r)) x
  | next {k : ℕ} {o : String} {t u : List (Tok V)} {v w x : V} :
      rows[k]? = some (.nextTo o) → Reads rows f (k + 1) t v → Reads rows f k u w →
      f o [v, w] = .ok x → Reads rows f (k + 1) (t ++ u) x

end MC.Spec
