#!/usr/bin/env python3
"""Read the shipped unit definitions in /repo as text (syntax trees only, nothing is executed) and
list the registrations they make, in the order of installation.

usage: units.py            print a summary
       units.py lean       print the Lean table
"""
import ast, pathlib, sys
from fractions import Fraction
D = pathlib.Path("/repo/modularcalculator/features/unitdefinitions")
TAU = None
for n in ast.walk(ast.parse((D.parent / "numerical/numericalconstants.py").read_text())):
    if isinstance(n, ast.Assign) and getattr(n.targets[0], "id", "") == "tau":
        TAU = n.value

def num(n):
    """Number(...) as a fraction; None if it is not one."""
    if isinstance(n, ast.Constant) and n.value is None:
        return None
    if isinstance(n, ast.Constant):
        return Fraction(str(n.value))
    if isinstance(n, ast.UnaryOp):
        return -num(n.operand)
    if isinstance(n, ast.Attribute) and n.attr == "tau":
        return num(TAU)
    assert isinstance(n, ast.Call), ast.dump(n)
    a = [num(x) for x in n.args]
    return a[0] if len(a) == 1 else a[0] / a[1]

files, classes = {}, {}
for p in sorted(D.glob("*.py")):
    t = ast.parse(p.read_text())
    for c in t.body:
        if not isinstance(c, ast.ClassDef):
            continue
        base = c.bases[0].id
        if base in ("UnitDefinition", "AmbiguousUnitDefinition"):
            f = dict(names=[], symbols=[], scale=Fraction(1), systems=[], relevant=[], use=True,
                     condense=True, amb=base[0] == "A", file=p.name, lines=(c.lineno, c.end_lineno),
                     convert=False)
            for s in c.body:
                if isinstance(s, ast.FunctionDef):
                    f["convert"] = True
                elif isinstance(s, ast.Assign):
                    k = s.targets[0].id
                    k2 = {"namelist": "names", "symbollist": "symbols", "unitscale": "scale",
                          "relevant_to_systems": "relevant", "use_for_condense": "condense"}.get(k, k)
                    f[k2] = num(s.value) if k2 == "scale" else ast.literal_eval(s.value)
            classes[c.name] = f
        elif base == "AbstractUnitFeature":
            fs = {s.name: s for s in c.body if isinstance(s, ast.FunctionDef)}
            i = ast.literal_eval(fs["id"].body[0].value)
            dep = fs["dependencies"].body[0].value
            dep = ast.literal_eval(dep.right)
            files[i] = (p.name, dep, fs["install"])

def prefix(n, env):
    if isinstance(n, ast.Name):
        return env[n.id]
    a, b, c = n.elts
    return (a.value, b.value, num(c))

ops = []
def unit(n, env):
    """A definition that is being made: (class, prefix, systems)"""
    if isinstance(n, ast.Name):
        return env[n.id]
    assert isinstance(n, ast.Call)
    return dict(cls=n.func.id, prefix=prefix(n.args[0], env) if n.args else None, systems=None)

def run(body, env, where):
    for s in body:
        if isinstance(s, ast.Assign):
            t = s.targets[0]
            if isinstance(t, ast.Attribute):
                env[t.value.id]["systems"] = ast.literal_eval(s.value)
            elif isinstance(s.value, ast.List):
                env[t.id] = [prefix(x, env) for x in s.value.elts]
            else:
                env[t.id] = unit(s.value, env)
        elif isinstance(s, ast.For):
            it = env[s.iter.id] if isinstance(s.iter, ast.Name) else [unit(x, env) for x in s.iter.elts]
            for x in it:
                run(s.body, {**env, s.target.id: x}, where)
        else:
            c = s.value
            f = c.func.attr
            w = (where, s.lineno)
            if f == "append":
                ops.append(("system", c.func.value.value.args[0].value, c.args[0].value, w))
            elif f == "add_dimension":
                rel = [ast.literal_eval(x) for x in c.args[2].elts] if len(c.args) > 2 else None
                ops.append(("dim", c.args[0].value, rel, w))
            elif f == "add_unit":
                ops.append(("unit", c.args[0].value, unit(c.args[1], env), w))
            elif f == "add_prefixed_unit":
                a = [num(x) for x in c.args[2:]] + [None, None]
                ops.append(("prefixed", c.args[0].value, c.args[1].id, a[0], a[1], w))
            elif f == "add_ambiguous_unit":
                ops.append(("amb", c.args[0].func.id, ast.literal_eval(c.args[1]), w))
            elif f == "add_multiunit":
                ops.append(("multi", c.args[0].value, c.args[1], w))
            else:
                raise Exception(ast.dump(s))

order = []
def install(i):
    if i in order:
        return
    for d in files[i][1]:
        if d in files:
            install(d)
    order.append(i)
for n in ast.walk(ast.parse((D / "allunitdefinitions.py").read_text())):
    if isinstance(n, ast.List) and len(n.elts) > 10:
        for e in n.elts:
            install(e.value)
assert set(order) == set(files), set(files) ^ set(order)
for i in order:
    run(files[i][2].body, {}, files[i][0])

PREF = [(None, None, Fraction(1))]
for f in ("basicunitprefixes", "advancedunitprefixes"):
    for n in ast.walk(ast.parse((D.parent / ("units/%s.py" % f)).read_text())):
        if isinstance(n, ast.Call) and getattr(n.func, "attr", "") == "extend":
            PREF += [prefix(x, {}) for x in n.args[0].elts]

def made():
    """All units: (dimension, class, prefix, systems)"""
    out = []
    for o in ops:
        if o[0] == "unit":
            out.append((o[1], o[2]["cls"], o[2]["prefix"], o[2]["systems"]))
        elif o[0] == "prefixed":
            for p in PREF:
                if (o[3] is None or o[3] <= p[2]) and (o[4] is None or o[4] >= p[2]):
                    out.append((o[1], o[2], p, None))
    return out

if __name__ == "__main__" and len(sys.argv) < 2:
    us = made()
    print(len(classes), "classes", len(us), "units", len(ops), "registrations")
    names, syms = {}, {}
    for d, c, p, s in us:
        k = classes[c]
        for n in k["names"]:
            names.setdefault(((p[0] or "") if p else "") + n, []).append((c, p and p[0]))
        for n in k["symbols"]:
            syms.setdefault(((p[1] or "") if p else "") + n, []).append((c, p and p[0]))
    for o in ops:
        if o[0] == "amb":
            for n in classes[o[1]]["names"]: names.setdefault(n, []).append((o[1], None))
            for n in classes[o[1]]["symbols"]: syms.setdefault(n, []).append((o[1], None))
    low = {}
    for n, v in names.items():
        low.setdefault(n.lower(), set()).update(v)
    for n, v in low.items():
        if len(v) > 1: print("name clash", n, v)
    for n, v in syms.items():
        if len(set(v)) > 1: print("symbol clash", n, v)
        if n.lower() in low and low[n.lower()] != set(v): print("symbol is a name", n, v, low[n.lower()])
    for n in list(names) + list(syms):
        if n in ("as", "to", "and", "or", "xor", "not", "then", "else", "step", "true", "false"):
            print("word clash", n, names.get(n), syms.get(n))
    print(sorted(low)[:40])
    print([o for o in ops if o[0] in ("system", "multi")])
    for o in ops:
        if o[0] == "dim" : print(o)

def s_(x):
    return '"' + x + '"'
def ls(l):
    return "[" + ", ".join(s_(x) for x in l) + "]"
def q(f):
    return str(f.numerator) if f.denominator == 1 else "%d / %d" % (f.numerator, f.denominator)
def short(c):
    c = c.replace("AmbiguousUnitDefinition", "amb").replace("UnitDefinition", "")
    return c[0].lower() + c[1:]
def opt(x, f):
    return "none" if x is None else "(some %s)" % f(x)
def pre_(p):
    return "\u27e8%s, %s, %s\u27e9" % (opt(p[0], s_), opt(p[1], s_), q(p[2]))

HEAD = """import Mathlib.Data.Rat.Defs
import Verif.Model.Units
import Verif.Model.Registry
import Verif.Model.Lexer

/-!
# The shipped unit definitions (`features/unitdefinitions/*.py`)

The table part of this file was written by `tools/units.py`, which reads the class bodies and the
`install` methods.  The order of the registrations is that of the installation of
`unitdefinitions.allunitdefinitions` with both prefix features installed before.

Simplifications: scales are exact rationals (all but `degree` are decimals or quotients of two
decimals in the code; `degree` is the shipped 50 digit value of tau divided by 360); loops over
constant lists are unrolled.
-/

namespace MC.Unit.Table
open MC.Parse (Text)

/-- A prefix: name, symbol, scale (`unitnormaliser.py:23`, `units.py:14-17`). -/
structure Pre where
  name : Option String
  symbol : Option String
  scale : \u211a
  deriving DecidableEq

/-- A subclass of `UnitDefinition` (`units.py:72-79`). -/
structure Cls where
  names : List String
  symbols : List String
  scale : \u211a
  systems : List String
  relevant : List String
  use : Bool
  condense : Bool
  kind : Kind
  deriving DecidableEq

/-- An object of such a class, after `add_unit` gave it its dimension. -/
structure Made where
  cls : Cls
  pre : Option Pre
  dim : String
  systems : List String
  deriving DecidableEq

/-- `UnitDefinition.__init__` (`units.py:14-17`, `81-86`); `systems` is set afterwards by
`data.py:46` and `55`. -/
def Cls.make (c : Cls) (dim : String) (pre : Option Pre) (systems : Option (List String)) : Made :=
  \u27e8c, pre, dim, systems.getD c.systems\u27e9

/-- `names` (`units.py:41-46`). -/
def Made.names (u : Made) : List Text :=
  match u.pre.bind (\u00b7.name) with
  | some p => u.cls.names.map (fun n => p.toList ++ n.toList)
  | none => u.cls.names.map String.toList

/-- `symbols` (`units.py:48-53`); a prefix with a name but without a symbol removes the symbols
(`unitnormaliser.py:66-68`). -/
def Made.symbols (u : Made) : List Text :=
  match u.pre with
  | some p =>
    match p.symbol with
    | some s => u.cls.symbols.map (fun n => s.toList ++ n.toList)
    | none => if p.name.isSome then [] else u.cls.symbols.map String.toList
  | none => u.cls.symbols.map String.toList

/-- `unitscale` (`units.py:83-84`). -/
def Made.scale (u : Made) : \u211a :=
  match u.pre with
  | some p => u.cls.scale * p.scale
  | none => u.cls.scale

/-- A registration in an `install` method. -/
inductive Line where
  /-- `add_dimension` with a relationship -/
  | dim (name : String) (rel : List (String \u00d7 \u2124))
  /-- `add_unit` -/
  | unit (dim : String) (c : Cls) (pre : Option Pre) (systems : Option (List String))
  /-- `add_prefixed_unit` with its bounds -/
  | prefixed (dim : String) (c : Cls) (lo hi : Option \u211a)
  /-- `get_unit(unit).systems.append(system)` -/
  | system (unit system : String)
  /-- `add_ambiguous_unit` -/
  | amb (names symbols units : List String)
  /-- `add_multiunit` -/
  | multi (dim : String) (units : List (String \u00d7 \u2124))
"""

def table():
    out = [HEAD]
    for n, c in classes.items():
        if c["amb"]:
            continue
        kind = {"UnitDefinitionCelsius": ".celsius", "UnitDefinitionFahrenheit": ".fahrenheit"}.get(n, ".scale")
        assert (kind != ".scale") == c["convert"]
        out.append("/-- `%s:%d-%d` -/\ndef %s : Cls :=\n  \u27e8%s, %s, %s, %s, %s, %s, %s, %s\u27e9" % (
            c["file"], *c["lines"], short(n), ls(c["names"]), ls(c["symbols"]), q(c["scale"]), ls(c["systems"]),
            ls(c["relevant"]), str(c["use"]).lower(), str(c["condense"]).lower(), kind))
    out.append("""
/-- `units/units.py:31-33`, `basicunitprefixes.py:26-31`, `advancedunitprefixes.py:26-35`. -/
def prefixes : List Pre :=
  [""" + ",\n   ".join(pre_(p) for p in PREF) + "]")
    by = {}
    for o in ops:
        by.setdefault(o[-1][0], []).append(o)
    for f, os in by.items():
        out.append("\n/-- `%s:%d-%d` -/\ndef lines_%s : List Line :=\n  [" % (f, os[0][-1][1], os[-1][-1][1], f[:-3])
            + ",\n   ".join(line(o) for o in os) + "]")
    out.append("""
/-- All registrations in the order of installation (`allunitdefinitions.py:25-60`,
`modularcalculator.py:77-117`). -/
def lines : List Line :=
  """ + " ++\n  ".join("lines_" + f[:-3] for f in by))
    out.append("\nend MC.Unit.Table")
    return "\n".join(out)

def rel_(l):
    return "[" + ", ".join("(%s, %d)" % (s_(a), b) for a, b in l) + "]"
def line(o):
    if o[0] == "dim":
        r = o[2] or []
        return ".dim %s %s" % (s_(o[1]), rel_(list(zip(r[::2], r[1::2]))))
    if o[0] == "unit":
        u = o[2]
        return ".unit %s %s %s %s" % (s_(o[1]), short(u["cls"]), opt(u["prefix"], pre_), opt(u["systems"], ls))
    if o[0] == "prefixed":
        return ".prefixed %s %s %s %s" % (s_(o[1]), short(o[2]), opt(o[3], q), opt(o[4], q))
    if o[0] == "system":
        return ".system %s %s" % (s_(o[1]), s_(o[2]))
    if o[0] == "amb":
        c = classes[o[1]]
        return ".amb %s %s %s" % (ls(c["names"]), ls(c["symbols"]), ls(o[2]))
    e = o[2].elts
    return ".multi %s %s" % (s_(o[1]), rel_([(a.value, int(num(b))) for a, b in zip(e[::2], e[1::2])]))

if __name__ == "__main__" and sys.argv[1:] == ["lean"]:
    print(table())
