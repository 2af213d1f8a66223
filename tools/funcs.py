#!/usr/bin/env python3
"""Read the definitions of the shipped functions in /repo as text (syntax trees only, nothing is
executed) and print the Lean table `Model/FunctionTable.lean`."""
import ast, pathlib
D = pathlib.Path("/repo/modularcalculator/features")

def lit(n):
    return ast.literal_eval(n)

named, special = [], []
for p in sorted(D.rglob("*.py")):
    t = ast.parse(p.read_text())
    for n in ast.walk(t):
        if isinstance(n, ast.Assign) and isinstance(n.targets[0], ast.Subscript):
            s = n.targets[0]
            if getattr(s.value, "attr", "") == "funcs" and isinstance(s.slice, ast.Constant):
                a = n.value.args
                assert lit(s.slice) == lit(a[1]), p
                named.append((p.name, n.lineno, n.end_lineno, lit(a[1]), lit(a[5]), lit(a[6])))
        if isinstance(n, ast.Call) and getattr(n.func, "id", "") == "af":
            kw = {k.arg: ast.unparse(k.value) for k in n.keywords}
            f = kw.get("func", "SpecialFunctionsFeature.func_generic")
            assert f.split(".")[1] in ("func_generic", "func_int_params")
            outs = lit(n.args[3]) if len(n.args) > 3 else None
            special.append((n.lineno, lit(n.args[0]), len(lit(n.args[2])), outs, f.endswith("int_params")))
special.sort()

def ch(s):
    return '"%s".toList' % s

print("""import Verif.Model.Parse

/-!
# The shipped functions

Generated by `tools/funcs.py` from the source: the functions that are entered in `calculator.funcs` with a
literal name (`features/*/*.py`, the lines are given), and the calls of `add_func` in
`features/numerical/specialfunctions.py:39-223`.
-/

namespace MC.Functions
open MC.Parse (Text)

/-- A function with its least and greatest number of parameters. -/
structure Row where
  name : Text
  least : ℕ
  most : ℕ

/-- The arguments of `add_func` (`specialfunctions.py:226`): the name, the number of parameters, the names of
the outputs, and whether it is `func_int_params`. -/
structure SpecialRow where
  name : Text
  params : ℕ
  outs : Option (List Text)
  ints : Bool

/-- The functions with a literal name. -/
def rows : List Row := [""")
print(",\n".join("  ⟨%s, %d, %d⟩ /- %s:%d-%d -/" % (ch(n), a, b, f, l, e) for f, l, e, n, a, b in named) + "]")
print("""
/-- The calls of `add_func` (`specialfunctions.py:39-223`). -/
def specialRows : List SpecialRow := [""")
def row(r):
    l, n, k, outs, ints = r
    o = "none" if outs is None else "some [" + ", ".join(ch(x) for x in outs) + "]"
    return "  ⟨%s, %d, %s, %s⟩ /- %d -/" % (ch(n), k, o, "true" if ints else "false", l)
print(",\n".join(row(r) for r in special) + "]")
print("""
end MC.Functions""")
