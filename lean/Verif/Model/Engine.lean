import Mathlib.Data.List.Basic

/-!
# Model of `engine.py`: executing items with the operator table

The model is generic in

* `V`: results of operands (`OperandResult`, `items.py:154-159`: value, unit and reference);
* `σ`: the calculator's state (variables, caches);
* the operator table, the functions and the operands that are not themselves made of items.

`OperandResult` values may be exceptions, so `V` comes with `mkErr` and `getErr`.

An `ExecuteException` carries the list of items before the error.  Inside `execute` only its
length matters: `previous_items = original_items[0:item_index]` takes the first
`item_index` items *including* the non-functional ones (`engine.py:164`, `262`), and
`restore_non_functional_items` (`305-322`) uses `len(err.items)` as the number of functional
items and rebuilds the list.  So the model keeps the length, `count`.
The flag `fake_execution` is not a separate code path here: it is the same engine with
operands and operators that return a dummy (see `Verif/Model/Terminator.lean`).
Timings and the `flags` dictionary are not modelled.
-/

namespace MC

/-- The part of `ExecuteException` (`exceptions.py:75-97`) that `execute` looks at: the
message, `len(items)` and `truncated`. -/
structure ExecErr where
  msg : String
  count : ℕ
  truncated : Bool
  deriving DecidableEq, Repr

/-- A raised exception: `ExecuteException`, another `CalculatorException` with its attribute
`wrapped` (`exceptions.py:30`), or an exception of Python. -/
inductive Raise where
  | exec (e : ExecErr)
  | calc (msg : String) (wrapped : Bool := false)
  | py (msg : String)
  deriving DecidableEq, Repr

/-- `err.message`; only read after `except CalculatorException`. -/
def Raise.msg : Raise → String
  | .exec e => e.msg
  | .calc m _ => m
  | .py m => m

/-- A computation on the calculator's state.  What was changed before an exception stays
changed. -/
abbrev Act (σ α : Type) := σ → Except Raise α × σ

/-- An item once the operands have been evaluated: an `OperatorItem` (`items.py:59-77`) or an
`OperandResult`. -/
inductive Tok (V : Type) where
  | op (s : String)
  | val (v : V)

/-- A token with its attribute `_INDEX` (`engine.py:165`, `288`, `293`, `300`). -/
structure Item (V : Type) where
  tok : Tok V
  index : ℕ

/-- The fields of `OperatorDefinition` (`operators.py:356-394`) used by the engine.
An input is `none` for an operand (`1` in the code) and `some s` for the symbol `s`. -/
structure OpDef (V σ : Type) where
  linputs : List (Option String)
  rinputs : List (Option String)
  rtl : Bool
  call : List V → Act σ V

/-- One element of `self.ops`: a dictionary from symbols to definitions, in insertion order.
`add_op` never leaves an empty dictionary (`modularcalculator.py:139-168`), so a level has a
first entry; the code would raise `IndexError` on an empty one (`engine.py:173`). -/
structure Level (V σ : Type) where
  head : String × OpDef V σ
  tail : List (String × OpDef V σ)

namespace Level
variable {V σ : Type}
/-- All entries of a level. -/
def entries (l : Level V σ) : List (String × OpDef V σ) := l.head :: l.tail
/-- `sym in prec`. -/
def has (l : Level V σ) (s : String) : Bool := l.entries.any (fun e => e.1 == s)
end Level

/-- A function (`functions.py:84-88`): the flag read by `FunctionItem.value` and `call`. -/
structure FuncDef (V σ : Type) where
  canBeExc : Bool
  call : List V → Act σ V

/-- The engine's configuration (`engine.py:14-32`). -/
structure Config (V σ : Type) where
  ops : List (Level V σ)
  divideOp : Option String
  implicitMul : Option String
  unitAssign : Option String
  unitMul : Option String
  unitDiv : Option String
  /-- `is_unit` (`engine.py:232-233`). -/
  isUnit : V → Bool
  /-- `OperandResult(err, None, None)`. -/
  mkErr : ExecErr → V
  /-- The exception when `isinstance(value, Exception)`. -/
  getErr : V → Option Raise
  funcs : String → Option (FuncDef V σ)

variable {V σ : Type} (cfg : Config V σ)

/-- `ops_list[sym]` (`engine.py:31`): the last entry of the table with that symbol. -/
def opsList (s : String) : Option (OpDef V σ) :=
  (cfg.ops.flatMap Level.entries).reverse.lookup s

/-- `is_unit` on items (`engine.py:232-233`). -/
def Tok.isUnit (t : Tok V) : Bool :=
  match t with
  | .op _ => false
  | .val v => cfg.isUnit v

/-- `is_op` (`engine.py:235-236`). -/
def Tok.isOp (t : Tok V) : Bool :=
  match t with
  | .op _ => true
  | .val _ => false

/-- The body of the loop over the items for one level (`engine.py:177-204`): whether an
operator applies at the current item, which one, and its width.  `prev` and `next` are the
neighbours, `none` at the ends. -/
def ruleAt (prec : Level V σ) (prev : Option (Tok V)) (item : Tok V) (next : Option (Tok V)) :
    Option (String × ℕ) :=
  let itemIsUnit := item.isUnit cfg
  let prevIsUnit := prev.any (Tok.isUnit cfg)
  let prevIsOp := prev.any Tok.isOp
  let nextIsUnit := next.any (Tok.isUnit cfg)
  -- 186
  match cfg.unitAssign.filter (fun s => prec.has s && itemIsUnit && prev.isSome
      && !prevIsOp && !prevIsUnit) with
  | some s => some (s, 0)
  | none =>
  -- 190
  match cfg.unitMul.filter (fun s => prec.has s && itemIsUnit && prevIsUnit) with
  | some s => some (s, 0)
  | none =>
  -- 194
  match cfg.unitDiv.filter (fun s => prec.has s && (match item with
      | .op o => decide (some o = cfg.divideOp)
      | .val _ => false) && prevIsUnit && nextIsUnit) with
  | some s => some (s, 1)
  | none =>
  -- 198
  match cfg.implicitMul.filter (fun s => prec.has s && !item.isOp && !itemIsUnit
      && prev.isSome && !prevIsOp) with
  | some s => some (s, 0)
  | none =>
  -- 202
  match item with
  | .op o =>
    if prec.has o && !(decide (some o ∈ [cfg.unitMul, cfg.unitDiv, cfg.implicitMul]))
        && (!prevIsUnit || decide (some o ≠ cfg.divideOp) || !nextIsUnit)
    then some (o, 1) else none
  | .val _ => none

/-- The loop over the items from left to right (`engine.py:171`, `176`): the first position
at which an operator of this level applies. -/
def scanL (prec : Level V σ) : Option (Tok V) → List (Item V) → Option (ℕ × String × ℕ)
  | _, [] => none
  | prev, it :: rest =>
    match ruleAt cfg prec prev it.tok (rest.head?.map Item.tok) with
    | some r => some (0, r)
    | none => (scanL prec (some it.tok) rest).map (fun x => (x.1 + 1, x.2))

/-- The loop from right to left (`engine.py:174`): the last such position. -/
def scanR (prec : Level V σ) : Option (Tok V) → List (Item V) → Option (ℕ × String × ℕ)
  | _, [] => none
  | prev, it :: rest =>
    match scanR prec (some it.tok) rest with
    | some x => some (x.1 + 1, x.2)
    | none => (ruleAt cfg prec prev it.tok (rest.head?.map Item.tok)).map (fun r => (0, r))

/-- One level (`engine.py:170-204`): the direction is that of the level's first symbol,
looked up in `ops_list`. -/
def scanLevel (prec : Level V σ) (items : List (Item V)) : Option (ℕ × String × ℕ) :=
  match opsList cfg prec.head.1 with
  | some op => if op.rtl then scanR cfg prec none items else scanL cfg prec none items
  | none => none  -- not reached: the symbol is in the table

/-- Matching the actual inputs with the expected ones (`engine.py:275-284`).  `str` of an
`OperandResult` raises a plain `Exception` (`items.py:161-162`). -/
def gather (sym : String) (index : ℕ) : List (Item V) → List (Option String) →
    Except Raise (List V)
  | it :: its, e :: es =>
    match e, it.tok with
    | some s, .op o =>
      if o = s then gather sym index its es
      else .error (.exec ⟨"Invalid symbol '" ++ o ++ "' for operator " ++ sym, it.index, false⟩)
    | some _, .val _ => .error (.py "Use to_string(calculator)")
    | none, .op o =>
      .error (.exec ⟨"Invalid input for operator " ++ sym ++ " - '" ++ o ++ "'", index, false⟩)
    | none, .val v =>
      match gather sym index its es with
      | .ok vs => .ok (v :: vs)
      | .error e => .error e
  | _, _ => .ok []

/-- `execute_operator` (`engine.py:253-303`) at position `i`, holding `item`. -/
def execOp (sym : String) (items : List (Item V)) (i : ℕ) (item : Item V) (w : ℕ) :
    Act σ (List (Item V)) := fun s =>
  match opsList cfg sym with
  | none => (.error (.py "KeyError"), s)
  | some op =>
    if i < op.linputs.length then
      (.error (.exec ⟨"Missing left operands for operator " ++ sym, item.index, false⟩), s)
    else if items.length < i + op.rinputs.length + w then
      (.error (.exec ⟨"Missing right operands for operator " ++ sym, item.index, false⟩), s)
    else
      let start := i - op.linputs.length
      let stop := i + op.rinputs.length + w
      let actual := (items.drop start).take op.linputs.length
        ++ (items.drop (i + w)).take op.rinputs.length
      match gather sym item.index actual (op.linputs ++ op.rinputs) with
      | .error e => (.error e, s)
      | .ok inputs =>
        let put (v : V) : List (Item V) :=
          items.take start ++ ⟨.val v, item.index⟩ :: items.drop stop
        match op.call inputs s with
        | (.ok v, s') => (.ok (put v), s')
        | (.error (.py m), s') => (.error (.py m), s')
        | (.error e, s') => (.ok (put (cfg.mkErr ⟨e.msg, item.index, false⟩)), s')

/-- The first level at which something applies (`engine.py:169`, `205-209`). -/
def findRedex (items : List (Item V)) : Option (ℕ × String × ℕ) :=
  cfg.ops.findSome? (fun prec => scanLevel cfg prec items)

/-- One turn of the `while True` loop (`engine.py:167-212`); `none` when it ends. -/
def step (items : List (Item V)) : Option (Act σ (List (Item V))) :=
  match findRedex cfg items with
  | none => none
  | some (i, sym, w) =>
    match items[i]? with
    | none => none  -- not reached: `i` is a position of the list
    | some item => some (execOp cfg sym items i item w)

/-- After the loop (`engine.py:214-228`).  The message of line 222 calls `str` on the
results, which raises a plain `Exception`. -/
def finish (items : List (Item V)) : Except Raise V :=
  match items with
  | [] => .error (.py "Ended up with no items")
  | [it] =>
    match it.tok with
    | .op o => .error (.exec ⟨"Not a value: \"" ++ o ++ "\"", it.index, false⟩)
    | .val v => .ok v
  | _ =>
    match items.find? (fun it => it.tok.isOp) with
    | some it => match it.tok with
      | .op o => .error (.exec ⟨"Could not execute operator: " ++ o, it.index, false⟩)
      | .val _ => .error (.py "Use to_string(calculator)")
    | none => .error (.py "Use to_string(calculator)")

/-- The loop (`engine.py:167-228`) with at most `fuel` operator applications; `none` if it
has not ended by then. -/
def loop (fuel : ℕ) (items : List (Item V)) (s : σ) : Option (Except Raise V × σ) :=
  match step cfg items with
  | none => some (finish items, s)
  | some act =>
    match fuel with
    | 0 => none
    | fuel + 1 =>
      match act s with
      | (.ok items', s') => loop fuel items' s'
      | (.error e, s') => some (.error e, s')

/-- A functional item of an expression before evaluation: an operator, or an operand with
its method `result` (`items.py:80-99`). -/
inductive Src (V σ : Type) where
  | op (s : String)
  | operand (result : Act σ V)

/-- `execute_operand` (`engine.py:238-251`) for the operand at position `i`. -/
def execOperand (i : ℕ) (result : Act σ V) : Act σ V := fun s =>
  match result s with
  | (.ok v, s') => (.ok v, s')
  | (.error (.exec e), s') => (.ok (cfg.mkErr ⟨e.msg, i + e.count, e.truncated⟩), s')
  | (.error (.calc m _), s') => (.ok (cfg.mkErr ⟨m, i, false⟩), s')
  | (.error (.py m), s') => (.error (.py m), s')

/-- Evaluating all operands, left to right (`engine.py:163-165`), from position `i`. -/
def execOperands : ℕ → List (Src V σ) → Act σ (List (Item V))
  | _, [], s => (.ok [], s)
  | i, .op o :: rest, s =>
    match execOperands (i + 1) rest s with
    | (.ok items, s') => (.ok (⟨.op o, i⟩ :: items), s')
    | (.error e, s') => (.error e, s')
  | i, .operand r :: rest, s =>
    match execOperand cfg i r s with
    | (.error e, s') => (.error e, s')
    | (.ok v, s') =>
      match execOperands (i + 1) rest s' with
      | (.ok items, s'') => (.ok (⟨.val v, i⟩ :: items), s'')
      | (.error e, s'') => (.error e, s'')

/-- `execute` (`engine.py:152-230`) on functional items, with at most `fuel` operator
applications. -/
def executeF (fuel : ℕ) (items : List (Src V σ)) (s : σ) : Option (Except Raise V × σ) :=
  match items with
  | [] => some (.error (.exec ⟨"Empty expression", 0, false⟩), s)
  | _ =>
    match execOperands cfg 0 items s with
    | (.error e, s') => some (.error e, s')
    | (.ok its, s') => loop cfg fuel its s'

/-- `execute` (`engine.py:152-230`).  As many operator applications as there are items are
enough (theorem `C27_finishes` in `Props/Engine.lean`); the exception "out of fuel" is only
there to make the definition total. -/
def execute (items : List (Src V σ)) : Act σ V := fun s =>
  (executeF cfg items.length items s).getD (.error (.py "out of fuel"), s)

/-! ## Items made of items -/

/-- Items as the parser makes them.  `atom a` is any operand whose value is not computed by
executing inner items. `skip` is a non-functional item: a space, a comment, a bracket, the
commas and names inside a function call (`items.py:138-151`). -/
inductive Node (A : Type) where
  | op (s : String)
  | skip (text : String)
  | atom (a : A)
  | inner (items : List (Node A))
  | func (name : String) (args : List (List (Node A)))

variable {A : Type} (atomVal : A → Act σ V)

/-- What `InnerExpressionItem.value` (`innerexpressions.py:69-79`) and `FunctionItem.value`
(`functions.py:114-120`) do with an exception: an `ExecuteException` is replaced by one whose
only item is the expression itself, truncated; others pass through. -/
def rewrap : Raise → Raise
  | .exec e => .exec ⟨e.msg, 1, true⟩
  | r => r

/-- `InnerExpressionItem.value` (`innerexpressions.py:69-79`) given the execution of its
items. -/
def innerVal (run : Act σ V) : Act σ V := fun s =>
  match run s with
  | (.error e, s') => (.error (rewrap e), s')
  | (.ok v, s') =>
    match cfg.getErr v with
    | some e => (.error (rewrap e), s')
    | none => (.ok v, s')

/-- The arguments of `FunctionItem.value` (`functions.py:108-129`).  An argument that is an
exception other than an `ExecuteException` has no attribute `items` (`125`). -/
def argVals (canBeExc : Bool) : List (Act σ V) → Act σ (List V)
  | [], s => (.ok [], s)
  | run :: rest, s =>
    match run s with
    | (.error e, s') => (.error (rewrap e), s')
    | (.ok v, s') =>
      match (if canBeExc then none else cfg.getErr v) with
      | some (.exec e) => (.error (rewrap (.exec e)), s')
      | some _ => (.error (.py "AttributeError: items"), s')
      | none =>
        match argVals canBeExc rest s' with
        | (.ok vs, s'') => (.ok (v :: vs), s'')
        | (.error e, s'') => (.error e, s'')

/-- `FunctionItem.value` (`functions.py:104-130`). -/
def funcVal (name : String) (runs : List (Act σ V)) : Act σ V := fun s =>
  match cfg.funcs name with
  | none => (.error (.py "KeyError"), s)
  | some f =>
    match argVals cfg f.canBeExc runs s with
    | (.error e, s') => (.error e, s')
    | (.ok vs, s') => f.call vs s'

mutual
/-- One item as the engine sees it; `none` for a non-functional item
(`functional_items`, `items.py:17-18`). -/
def Node.src : Node A → Option (Src V σ)
  | .op s => some (.op s)
  | .skip _ => none
  | .atom a => some (.operand (atomVal a))
  | .inner items => some (.operand (innerVal cfg (execute cfg (Node.srcs items))))
  | .func name args => some (.operand (funcVal cfg name (Node.runs args)))
/-- `functional_items` (`items.py:17-18`). -/
def Node.srcs : List (Node A) → List (Src V σ)
  | [] => []
  | n :: ns =>
    match n.src with
    | some x => x :: Node.srcs ns
    | none => Node.srcs ns
/-- The executions of the arguments of a function. -/
def Node.runs : List (List (Node A)) → List (Act σ V)
  | [] => []
  | a :: as => execute cfg (Node.srcs a) :: Node.runs as
end

/-- `execute` (`engine.py:152-230`) on the items of a statement. -/
def executeNodes (items : List (Node A)) : Act σ V :=
  execute cfg (Node.srcs cfg atomVal items)

/-- The function item the parser makes from the items between the commas
(`functions.py:52-55`, `67`): a list without any item is not an argument. -/
def parsedFunc (name : String) (between : List (List (Node A))) : Node A :=
  .func name (between.filter (fun a => !a.isEmpty))

/-! ## Statements -/

/-- What `calculate` reports for one statement (`api.py:24-45`): the answer if the statement
had functional items, and the copy of the state taken with the flag `include_state`
(`engine.py:82-83`). -/
structure StmtResult (V σ : Type) where
  answer : Option V
  state : σ

/-- How `calculate` ends: normally, or with an `ExecutionException` for the statement with
this number (`engine.py:74-78`), or with an exception of Python, which carries no response. -/
inductive Outcome where
  | done
  | failed (statement : ℕ) (e : ExecErr)
  | escaped (msg : String)

/-- One statement (`engine.py:59-78`): the answer, `none` if there is nothing to execute. -/
def stmt (finalize : V → Act σ V) (items : List (Node A)) : Act σ (Option V) := fun s =>
  match Node.srcs cfg atomVal items with
  | [] => (.ok none, s)
  | _ :: _ =>
    match executeNodes cfg atomVal items s with
    | (.error e, s') => (.error e, s')
    | (.ok v, s') =>
      match cfg.getErr v with
      | some e => (.error e, s')
      | none =>
        match finalize v s' with
        | (.ok w, s'') => (.ok (some w), s'')
        | (.error e, s'') => (.error e, s'')

/-- The loop of `calculate` over the statements (`engine.py:54-87`), from statement number
`i`: the results in the response, how it ended and the state. -/
def calculate (finalize : V → Act σ V) : ℕ → List (List (Node A)) → σ →
    List (StmtResult V σ) × Outcome × σ
  | _, [], s => ([], .done, s)
  | i, items :: rest, s =>
    match stmt cfg atomVal finalize items s with
    | (.ok a, s') =>
      let r := calculate finalize (i + 1) rest s'
      (⟨a, s'⟩ :: r.1, r.2)
    | (.error (.exec e), s') => ([], .failed i e, s')
    | (.error (.calc m _), s') => ([], .failed i ⟨m, 0, false⟩, s')
    | (.error (.py m), s') => ([], .escaped m, s')

end MC
