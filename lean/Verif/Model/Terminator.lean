import Verif.Model.Lexer
import Verif.Model.Shipped

/-!
# Model of the fake execution that decides whether a line is complete

`parse_terminator` (`terminator.py:38-66`) executes the items of the current statement with the
flag `fake_execution`: operands are not evaluated (`engine.py:240-243`) and operators return
their first input (`286-288`).
-/

namespace MC.Parse

variable {V σ : Type}

/-- An operator under `fake_execution` (`engine.py:286-288`); `inputs[0]` raises if there is no
input. -/
def fakeOp (o : OpDef V σ) : OpDef Unit Unit where
  linputs := o.linputs
  rinputs := o.rinputs
  rtl := o.rtl
  call := fun xs s => match xs with
    | [] => (.error (.py "list index out of range"), s)
    | v :: _ => (.ok v, s)

/-- The engine under `fake_execution`.  `is_unit` is given an item there, not a result
(`engine.py:241`), so every operand becomes a value that is not a unit. -/
def fakeCfg (cfg : Config V σ) : Config Unit Unit where
  ops := cfg.ops.map (fun l =>
    ⟨(l.head.1, fakeOp l.head.2), l.tail.map (fun e => (e.1, fakeOp e.2))⟩)
  divideOp := cfg.divideOp
  implicitMul := cfg.implicitMul
  unitAssign := cfg.unitAssign
  unitMul := cfg.unitMul
  unitDiv := cfg.unitDiv
  isUnit := fun _ => false
  mkErr := fun _ => ()
  getErr := fun _ => none
  funcs := fun _ => none

/-- A functional item for the fake execution. -/
def fakeSrc (it : Item) : Src Unit Unit :=
  if it.isOp then .op (String.ofList it.text) else .operand (fun s => (.ok (), s))

/-- Whether the fake execution raises an `ExecuteException` with a message that starts with
"Missing right operands for operator " (`terminator.py:53-56`). -/
def incomplete (cfg : Config V σ) (items : List Item) : Bool :=
  match (execute (fakeCfg cfg) (items.map fakeSrc) ()).1 with
  | .error (.exec e) => "Missing right operands for operator ".toList.isPrefixOf e.msg.toList
  | _ => false

/-- `ops_symbols` (`engine.py:32`): all symbols of operators, and the symbols among their
inputs. -/
def opsSymbols (cfg : Config V σ) : List Text :=
  let entries := cfg.ops.flatMap Level.entries
  entries.map (fun e => e.1.toList) ++
    entries.flatMap (fun e => (e.2.linputs ++ e.2.rinputs).filterMap (fun i => i.map String.toList))

/-- `\w` and `str.isalpha` on ASCII. -/
def asciiWord (c : Char) : Bool := isLetter c || c.isDigit || c = '_'

/-- The shipped operator table for parsing: what the operators do is not looked at. -/
def shippedOps : Config Unit Unit :=
  shipped (fun _ _ s => (.ok (), s)) (fun _ => false) (fun _ => ()) (fun _ => none) (fun _ => none)

/-- The shipped parsers with the default symbols, on ASCII text; the names are those in the
lists. -/
def shippedLex (p : ℕ) (powF : ℚ → ℚ → Except Err ℚ)
    (constants unitNames unitSymbols systems numTypes : List Text) (maxLen : ℕ) : Lex where
  p := p
  powF := powF
  word := asciiWord
  alpha := isLetter
  ops := opsSymbols shippedOps
  strSym := '\''
  escChar := '\\'
  commentSym := '#'
  constants := constants
  unitNames := unitNames
  unitSymbols := unitSymbols
  unitMaxLength := maxLen
  unitSymbolsEnabled := true
  systems := systems
  numTypes := numTypes

end MC.Parse
