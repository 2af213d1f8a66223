import Verif.Model.Engine

/-!
# The shipped operator table

The rows of `op_map` (`features/layout.py:38-56`) with the inputs each operator is registered
with.  What the operators do is a parameter here.
-/

namespace MC

/-- `linputs`, `rinputs` and `rtl` of an operator. -/
structure Fixity where
  linputs : List (Option String)
  rinputs : List (Option String)
  rtl : Bool

/-- Operators registered with `1, 1`. -/
def infixOp : Fixity := ⟨[none], [none], false⟩
/-- `not` (`booleans.py:33-41`) and `~` (`bitwiseoperators.py:59-68`): `0, 1` and `rtl`. -/
def prefixOp : Fixity := ⟨[], [none], true⟩
/-- `++` and `--` (`assignmentoperators.py:30-45`): `1, 0`. -/
def postfixOp : Fixity := ⟨[none], [], false⟩
/-- `then` (`booleans.py:127-137`): `1, [1, 'else', 1]`. -/
def thenOp : Fixity := ⟨[none], [none, some "else", none], false⟩

/-- `op_map` (`layout.py:38-56`) with all features installed.  The order inside a row is that
of installation in the code; it is not significant (all operators of a row have the same
`rtl`, `modularcalculator.py:161-162`). -/
def shippedRows : List ((String × Fixity) × List (String × Fixity)) :=
  [ (("^", infixOp), []),
    (("not", prefixOp), [("~", prefixOp)]),
    (("=~", infixOp), [("!~", infixOp)]),
    (("UNIT_MULTIPLY", infixOp), [("UNIT_DIVIDE", infixOp)]),
    (("UNIT_ASSIGNMENT", infixOp), []),
    (("IMPLICIT_MULTIPLY", infixOp), []),
    (("*", infixOp), [("/", infixOp), ("%", infixOp), ("*$", infixOp), ("\\", infixOp)]),
    (("+", infixOp), [("-", infixOp), ("+$", infixOp), ("+%", infixOp), ("-%", infixOp)]),
    (("<<", infixOp), [(">>", infixOp)]),
    (("<", infixOp), [(">", infixOp), ("<=", infixOp), (">=", infixOp), ("<$", infixOp),
      (">$", infixOp), ("<=$", infixOp), (">=$", infixOp), ("<~", infixOp), (">~", infixOp),
      ("<=~", infixOp), (">=~", infixOp)]),
    (("==", infixOp), [("!=", infixOp), ("==$", infixOp), ("!=$", infixOp), ("==~", infixOp),
      ("!=~", infixOp)]),
    (("&", infixOp), []),
    (("|", infixOp), [("^^", infixOp)]),
    (("and", infixOp), [("or", infixOp), ("xor", infixOp)]),
    (("then", thenOp), []),
    (("to", infixOp), [("as", infixOp)]),
    (("=", infixOp), [("++", postfixOp), ("--", postfixOp), ("+=", infixOp), ("-=", infixOp),
      ("*=", infixOp), ("/=", infixOp), ("^=", infixOp), ("%=", infixOp), ("\\=", infixOp),
      ("||=", infixOp)]) ]

variable {V σ : Type}

/-- An operator definition from its inputs and what it does. -/
def Fixity.toOp (x : Fixity) (call : List V → Act σ V) : OpDef V σ :=
  ⟨x.linputs, x.rinputs, x.rtl, call⟩

/-- The engine with the shipped table (`units.py:39-41`, `basicarithmetic.py:88-90`). -/
def shipped (call : String → List V → Act σ V) (isUnit : V → Bool) (mkErr : ExecErr → V)
    (getErr : V → Option Raise) (funcs : String → Option (FuncDef V σ)) : Config V σ where
  ops := shippedRows.map (fun r =>
    ⟨(r.1.1, r.1.2.toOp (call r.1.1)), r.2.map (fun e => (e.1, e.2.toOp (call e.1)))⟩)
  divideOp := some "/"
  implicitMul := some "IMPLICIT_MULTIPLY"
  unitAssign := some "UNIT_ASSIGNMENT"
  unitMul := some "UNIT_MULTIPLY"
  unitDiv := some "UNIT_DIVIDE"
  isUnit := isUnit
  mkErr := mkErr
  getErr := getErr
  funcs := funcs

end MC
