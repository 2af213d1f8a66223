import Verif.Model.Engine

/-!
# Model of `add_op` and `add_parser` (`modularcalculator.py:132-168`)

`layout` is `op_map`, a list of sets of symbols (`features/layout.py:38-56`); sets are lists
here.  The argument `extra` of `add_op` (`139-146`) only changes attributes of the operator
before it is added, so the model takes the operator after that.
-/

namespace MC

variable {V σ : Type}

/-- `target_prec` (`modularcalculator.py:151-155`): the last row with the symbol. -/
def targetRow (layout : List (List String)) (sym : String) : Option (List String) :=
  (layout.filter (fun r => decide (sym ∈ r))).getLast?

/-- `after` (`modularcalculator.py:150-157`): the symbols of the rows without `sym` that come
after the first row with it. -/
def afterSymbols (layout : List (List String)) (sym : String) : List String :=
  ((layout.dropWhile (fun r => decide (sym ∉ r))).filter (fun r => decide (sym ∉ r))).flatten

/-- What the loop over the entries of a level decides (`modularcalculator.py:159-167`). -/
inductive Place where
  /-- The operator belongs to this level; with `rtl` of the entry met (`160-164`). -/
  | join (rtl : Bool)
  /-- A new level goes before this one (`165-167`). -/
  | before

/-- The loop over the entries of a level (`modularcalculator.py:159-167`). -/
def placeAt (target after : List String) : List (String × OpDef V σ) → Option Place
  | [] => none
  | e :: es =>
    if e.1 ∈ target then some (.join e.2.rtl)
    else if e.1 ∈ after then some .before
    else placeAt target after es

/-- Assigning to a key of a dictionary: in place if the key exists, else at the end. -/
def dictSet (sym : String) (op : OpDef V σ) : List (String × OpDef V σ) →
    List (String × OpDef V σ)
  | [] => [(sym, op)]
  | e :: es => if e.1 = sym then (sym, op) :: es else e :: dictSet sym op es

/-- `prec[sym] = op` (`modularcalculator.py:163`). -/
def Level.set (l : Level V σ) (sym : String) (op : OpDef V σ) : Level V σ :=
  if l.head.1 = sym then ⟨(sym, op), l.tail⟩ else ⟨l.head, dictSet sym op l.tail⟩

/-- The loop over the levels (`modularcalculator.py:158-168`). -/
def insertOp (target after : List String) (sym : String) (op : OpDef V σ) :
    List (Level V σ) → Except Raise (List (Level V σ))
  | [] => .ok [⟨(sym, op), []⟩]
  | l :: ls =>
    match placeAt target after l.entries with
    | some (.join rtl) =>
      if op.rtl ≠ rtl then .error (.calc "Attempt to insert op into set with other rtl")
      else .ok (l.set sym op :: ls)
    | some .before => .ok (⟨(sym, op), []⟩ :: l :: ls)
    | none =>
      match insertOp target after sym op ls with
      | .ok ls' => .ok (l :: ls')
      | .error e => .error e

/-- `add_op` (`modularcalculator.py:139-168`).  Without a row for the symbol, `target_prec` is
`None`: `in` raises `TypeError` unless the table is empty. -/
def addOp (layout : List (List String)) (sym : String) (op : OpDef V σ)
    (ops : List (Level V σ)) : Except Raise (List (Level V σ)) :=
  match targetRow layout sym with
  | some target => insertOp target (afterSymbols layout sym) sym op ops
  | none =>
    match ops with
    | [] => .ok [⟨(sym, op), []⟩]
    | _ :: _ => .error (.py "TypeError")

/-- Calls of `add_op` one after the other, up to the first exception; `self.ops` is only
changed by calls that succeed. -/
def addOps (layout : List (List String)) : List (String × OpDef V σ) → List (Level V σ) →
    Except Raise (List (Level V σ))
  | [], ops => .ok ops
  | e :: es, ops =>
    match addOp layout e.1 e.2 ops with
    | .ok ops' => addOps layout es ops'
    | .error e => .error e

/-- `add_parser` (`modularcalculator.py:132-137`): append, make a dictionary by name (the last
entry of a name wins), and list it in the order of `parser_map`. -/
def addParser {F : Type} (map : List String) (name : String) (ref : F)
    (parsers : List (String × F)) : List (String × F) :=
  let all := parsers ++ [(name, ref)]
  map.filterMap (fun p => (all.reverse.lookup p).map (fun r => (p, r)))

/-- `parser_map` (`features/layout.py:4-36`). -/
def parserMap : List String :=
  ["terminator", "space", "comment", "boolean", "number_bin", "number_oct", "number_hex",
    "number_arbbase", "numberexp", "percentagenumber", "number", "operator", "string",
    "function_pointer", "function", "function_param", "function_end", "inner_expr",
    "inner_expr_end", "inline_function", "inline_function_end", "constant", "units",
    "unitsystems", "numericalrepresentation", "array", "array_range", "array_step",
    "array_param", "array_end", "var"]

/-- `op_map` (`features/layout.py:38-56`). -/
def opMap : List (List String) :=
  [["^"], ["not", "~"], ["=~", "!~"], ["UNIT_MULTIPLY", "UNIT_DIVIDE"], ["UNIT_ASSIGNMENT"],
    ["IMPLICIT_MULTIPLY"], ["*", "/", "%", "*$", "\\"], ["+", "-", "+$", "+%", "-%"],
    ["<<", ">>"],
    ["<", ">", "<=", ">=", "<$", ">$", "<=$", ">=$", "<~", ">~", "<=~", ">=~"],
    ["==", "!=", "==$", "!=$", "==~", "!=~"], ["&"], ["|", "^^"], ["and", "or", "xor"],
    ["then"], ["to", "as"],
    ["=", "++", "--", "+=", "-=", "*=", "/=", "^=", "%=", "\\=", "||="]]

end MC
