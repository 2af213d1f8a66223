import Mathlib.Data.List.Basic

/-!
# Model of parsing: `engine.py:91-141` and the parsers that nest

Generic in the parsers that make one item from the text at the current position (`leaf`; the
shipped ones are in `Model/Lexer.lean`) and in `incomplete`, the test by fake execution
(`Model/Terminator.lean`).  Text is a list of characters.

Simplifications: timings are left out; the lists `args` of a function item and `elements` of an
array item are not stored, they are the runs of items between the separators in `items`; values
of literals are not stored, they are functions of the text; the messages that `find_pos` prints
are left out.
-/

namespace MC.Parse

abbrev Text := List Char

/-- The classes of items that hold no other items (`items.py:59-110`, `138-151` and the features'
own subclasses). -/
inductive Kind where
  | space | comment | terminator
  | op | num | bool | str | var | constant | unit | special
  | funcName | funcStart | funcParam | funcEnd
  | innerStart | innerEnd | inlineStart | inlineEnd
  | arrStart | arrRange | arrStep | arrParam | arrEnd
  deriving DecidableEq, Repr

/-- The subclasses of `RecursiveOperandItem` (`items.py:121-135`). -/
inductive Nest where
  | func | pointer | inner | inline | array
  deriving DecidableEq, Repr

/-- Items (`items.py:28-135`). -/
inductive Item where
  | leaf (k : Kind) (text : Text)
  | nest (k : Nest) (text : Text) (items : List Item)
  deriving Repr

/-- `item.text`. -/
def Item.text : Item → Text
  | .leaf _ t => t
  | .nest _ t _ => t

/-- `item.functional()` (`items.py:49-50`, `143-144`). -/
def Item.functional : Item → Bool
  | .leaf k _ => k ∈ [.op, .num, .bool, .str, .var, .constant, .unit, .special]
  | .nest _ _ _ => true

/-- `item.isop()` (`items.py:65-66`, `87-88`). -/
def Item.isOp : Item → Bool
  | .leaf k _ => k = .op
  | .nest _ _ _ => false

/-- `items_text` (`items.py:24-25`). -/
def itemsText (items : List Item) : Text := items.flatMap Item.text

/-- `functional_items` (`items.py:18-19`). -/
def functionalItems (items : List Item) : List Item := items.filter Item.functional

/-- `previous_functional_item` (`items.py:7-15`). -/
def previousFunctional (items : List Item) : Option Item := (functionalItems items).getLast?

/-! ### Positions in a text -/

/-- The first position at which `sub` starts. -/
def findAt (sub : Text) : Text → Option ℕ
  | [] => if sub.isPrefixOf [] then some 0 else none
  | c :: t => if sub.isPrefixOf (c :: t) then some 0 else (findAt sub t).map (· + 1)

/-- Python's `text.find(sub, i)`; `none` for -1. -/
def pyFind (text sub : Text) (i : ℕ) : Option ℕ :=
  if text.length < i then none else (findAt sub (text.drop i)).map (· + i)

/-- The loop of `find_pos` over the items (`exceptions.py:7-18`). -/
def findItems (text : Text) : List Item → ℕ → Option ℕ
  | [], i => some i
  | it :: its, i =>
    match pyFind text it.text i with
    | none => none
    | some ii => findItems text its (ii + it.text.length)

/-- `find_pos` (`exceptions.py:4-24`) on the items of all statements; `none` is the exception
"Could not find". -/
def findPos (text : Text) (items : List Item) (next : Option Text) : Option ℕ :=
  match findItems text items 0 with
  | none => none
  | some i =>
    match next with
    | none => some i
    | some nx => pyFind text nx i

/-- `truncate` (`exceptions.py:52-54`, `84-86`). -/
def truncate (text : Text) (items : List Item) (next : Option Text) : Option Text :=
  (findPos text items next).map (fun i => text.take i)

/-! ### Parsers -/

/-- The flags parsers look at: `ignore_terminators`, `func`, `inner_expr`, `inline_function`,
`array`. -/
structure Flags where
  ignoreTerm : Bool := false
  func : Bool := false
  inner : Bool := false
  inline : Bool := false
  array : Bool := false

/-- The return flags that come with `end`. -/
inductive Stop where
  | funcParam | funcEnd | innerEnd | inlineEnd | arrRange | arrStep | arrParam | arrEnd
  deriving DecidableEq, Repr

/-- Return flags of a parser: none, `end_statement`, or `end` with its reason. -/
inductive Ret where
  | none
  | endStatement
  | stop (w : Stop)

/-- What a parser returns: items, length and return flags. -/
structure Found where
  items : Option (List Item)
  len : Option ℕ
  ret : Ret

/-- `return None, None, None`. -/
def nothing : Found := ⟨none, none, .none⟩

/-- What a parser raises: `ParseException` (`exceptions.py:74-92`) or an exception of Python. -/
inductive PErr where
  | parse (msg : String) (items : List Item) (next : Text)
  | py (msg : String)

/-- What `parse` raises: `ParsingException` (`exceptions.py:37-66`) or an exception of Python. -/
inductive Fail where
  | parsing (msg : String) (statements : List (List Item)) (next : Text)
  | py (msg : String)

/-- The parsers (`features/layout.py:4-36`); `leaf` is any parser that does not call `parse` and
does not return flags. It gets the items of the current statement and the text. -/
inductive Parser where
  | leaf (f : List Item → Text → Except PErr (Option (Item × ℕ)))
  | terminator | pointer | func | funcParam | funcEnd
  | inner | innerEnd | inline | inlineEnd
  | array | arrRange | arrStep | arrParam | arrEnd

/-- What parsing reads from the calculator. -/
structure Cfg where
  parsers : List Parser
  /-- `feature_options['structure.terminator']['Symbol']` -/
  termSym : Text
  /-- Whether the fake execution of these functional items raises an `ExecuteException` with a
  message starting with "Missing right operands for operator " (`terminator.py:51-60`). -/
  incomplete : List Item → Bool
  /-- The match of `func_regex` (`functions.py:36-44`) if the name is in `funcs`: the name. -/
  funcName : Text → Option Text
  /-- The match of the pointer regular expression (`functionpointers.py:44-50`): symbol and
  name. -/
  pointerName : Text → Option Text
  /-- `feature_options['arrays.arrays']` -/
  arrOpen : Text
  arrRange : Text
  arrStep : Text
  arrParam : Text
  arrClose : Text

/-- The state: `last_failed_terminator`. -/
abbrev Cache := Option Text

/-- A computation on the state; `none`: the bound on the recursion was too small. -/
abbrev M (α : Type) := Cache → Option (α × Cache)

/-- A result of `parse`: statements, length, and why it ended before the end of the text. -/
abbrev Parsed := Except Fail (List (List Item) × ℕ × Option Stop)

/-- `parse` as a function of flags and text. -/
abbrev ParseFn := Flags → Text → M Parsed

variable (c : Cfg)

/-- `next[0:len(symbol)] == symbol`. -/
def starts (sym next : Text) : Bool := sym.isPrefixOf next

/-- `parse_terminator` (`terminator.py:38-66`). -/
def runTerminator (cur : List Item) (next : Text) (fl : Flags) : M (Except PErr Found) := fun s =>
  if fl.ignoreTerm then some (.ok nothing, s)
  else if starts c.termSym next then
    let items := functionalItems cur
    let text := itemsText items
    if some text = s then some (.ok nothing, s)
    else if c.incomplete items then some (.ok nothing, some text)
    else some (.ok ⟨some [.leaf .terminator c.termSym], some c.termSym.length, .endStatement⟩, s)
  else some (.ok nothing, s)

/-- The handler of a `ParsingException` in a parser: a `ParseException` with one item that has
the items so far and the text up to the error. -/
def reraise (k : Nest) (next : Text) (msg : String) (items : List Item) (nx : Text) :
    Except PErr Found :=
  match truncate next items (some nx) with
  | none => .error (.py "Could not find item in text")
  | some t => .error (.parse msg [.nest k t items] nx)

/-- The loop of `parse_function` and `parse_function_pointer` over the arguments
(`functions.py:49-64`, `functionpointers.py:56-71`); the error item is a `FunctionItem` in both.
The first argument bounds the number of turns. -/
def argLoop (rec : ParseFn) (k : Nest) (next : Text) :
    ℕ → ℕ → List Item → M (Except PErr Found)
  | 0, _, _ => fun _ => none
  | n + 1, i, items => fun s =>
    if i < next.length then
      match rec { func := true, ignoreTerm := true } (next.drop i) s with
      | none => none
      | some (.error (.py m), s') => some (.error (.py m), s')
      | some (.error (.parsing m st nx), s') =>
        some (reraise .func next m (items ++ st.headD []) nx, s')
      | some (.ok (st, len, w), s') =>
        let i := i + len + 1
        let items := items ++ st.headD []
        if w = some .funcEnd then
          some (.ok ⟨some [.nest k (next.take i) (items ++ [.leaf .funcEnd [')']])], some i, .none⟩,
            s')
        else argLoop rec k next n i (items ++ [.leaf .funcParam [',']]) s'
    else some (.error (.parse "Function missing close symbol" [] next), s)

/-- `parse_function` (`functions.py:38-68`) and `parse_function_pointer`
(`functionpointers.py:43-75`); `name` includes the pointer symbol. -/
def runFunc (rec : ParseFn) (k : Nest) (name : Option Text) (next : Text) :
    M (Except PErr Found) :=
  match name with
  | none => fun s => some (.ok nothing, s)
  | some name =>
    argLoop rec k next (next.length + 1) (name.length + 1)
      [.leaf .funcName name, .leaf .funcStart ['(']]

/-- `parse_inner_expr` (`innerexpressions.py:30-46`). -/
def runInner (rec : ParseFn) (next : Text) (fl : Flags) : M (Except PErr Found) := fun s =>
  match next with
  | '(' :: rest =>
    match rec { fl with inner := true, ignoreTerm := true } rest s with
    | none => none
    | some (.error (.py m), s') => some (.error (.py m), s')
    | some (.error (.parsing m st nx), s') =>
      some (reraise .inner next m (.leaf .innerStart ['('] :: st.headD []) nx, s')
    | some (.ok (st, len, w), s') =>
      if w = some .innerEnd then
        some (.ok ⟨some [.nest .inner (next.take (len + 2)) (.leaf .innerStart ['('] :: st.headD [])],
          some (len + 2), .none⟩, s')
      else some (.error (.parse "Inner expression missing close symbol" [] next), s')
  | _ => some (.ok nothing, s)

/-- `parse_inline_function` (`inlinefunctions.py:35-50`). -/
def runInline (rec : ParseFn) (next : Text) (fl : Flags) : M (Except PErr Found) := fun s =>
  match next with
  | '{' :: rest =>
    match rec { fl with inline := true } rest s with
    | none => none
    | some (.error (.py m), s') => some (.error (.py m), s')
    | some (.error (.parsing m st nx), s') =>
      some (reraise .inline next m (.leaf .inlineStart ['{'] :: st.flatten) nx, s')
    | some (.ok (st, len, w), s') =>
      if w = some .inlineEnd then
        some (.ok ⟨some [.nest .inline (next.take (len + 2))
          (.leaf .inlineStart ['{'] :: st.flatten)], some (len + 2), .none⟩, s')
      else some (.error (.parse "Inline function missing close symbol" [] next), s')
  | _ => some (.ok nothing, s)

/-- What one turn of the loop of `parse_array` has read (`arrays.py:61-103`): the position, the
items, and why the last `parse` ended. -/
abbrev ArrTurn := Except (Except PErr Found) (ℕ × List Item × Option Stop)

/-- A call of `parse` inside `parse_array` (`arrays.py:62`, `73`, `84`) at position `i`. -/
def arrParse (rec : ParseFn) (next : Text) (i : ℕ) (items : List Item) :
    M (Except (Except PErr Found) (List Item × ℕ × Option Stop)) := fun s =>
  match rec { array := true, ignoreTerm := true } (next.drop i) s with
  | none => none
  | some (.error (.py m), s') => some (.error (.error (.py m)), s')
  | some (.error (.parsing m st nx), s') =>
    some (.error (reraise .array next m (items ++ st.headD []) nx), s')
  | some (.ok (st, len, w), s') => some (.ok (st.headD [], len, w), s')

/-- `raise ParsingException('Parsing error in array', [[]], next[i:])` and its handler
(`arrays.py:93`, `98`, `100-104`). -/
def arrError (next : Text) (i : ℕ) (items : List Item) : ArrTurn :=
  .error (reraise .array next "Parsing error in array" items (next.drop i))

/-- The step part (`arrays.py:81-90`). -/
def arrStepPart (rec : ParseFn) (next : Text) (i : ℕ) (items : List Item) : M ArrTurn := fun s =>
  match arrParse rec next i items s with
  | none => none
  | some (.error e, s') => some (.error e, s')
  | some (.ok (its, len, w), s') =>
    some (.ok (if its = [] then i else i + len, items ++ its, w), s')

/-- The end part of a range (`arrays.py:70-93`). -/
def arrRangePart (rec : ParseFn) (next : Text) (i : ℕ) (items : List Item) : M ArrTurn := fun s =>
  match arrParse rec next i items s with
  | none => none
  | some (.error e, s') => some (.error e, s')
  | some (.ok (its, len, w), s') =>
    if its = [] then
      if len = 0 then some (arrError next (i + len) (items ++ its), s')
      else some (.ok (i + len, items ++ its, w), s')
    else if w = some .arrStep then
      arrStepPart rec next (i + len + c.arrStep.length)
        (items ++ its ++ [.leaf .arrStep c.arrStep]) s'
    else some (.ok (i + len, items ++ its, w), s')

/-- One turn of the loop (`arrays.py:61-98`). -/
def arrTurn (rec : ParseFn) (next : Text) (i : ℕ) (items : List Item) : M ArrTurn := fun s =>
  match arrParse rec next i items s with
  | none => none
  | some (.error e, s') => some (.error e, s')
  | some (.ok (its, len, w), s') =>
    if its = [] then
      if len = 0 then some (arrError next (i + len) (items ++ its), s')
      else some (.ok (i + len, items ++ its, w), s')
    else if w = some .arrRange then
      arrRangePart c rec next (i + len + c.arrRange.length)
        (items ++ its ++ [.leaf .arrRange c.arrRange]) s'
    else some (.ok (i + len, items ++ its, w), s')

/-- The loop of `parse_array` (`arrays.py:60-114`).  The first argument bounds the number of
turns. -/
def arrLoop (rec : ParseFn) (next : Text) : ℕ → ℕ → List Item → M (Except PErr Found)
  | 0, _, _ => fun _ => none
  | n + 1, i, items => fun s =>
    if i < next.length then
      match arrTurn c rec next i items s with
      | none => none
      | some (.error e, s') => some (e, s')
      | some (.ok (i, items, w), s') =>
        if w = some .arrEnd then
          let i := i + c.arrClose.length
          some (.ok ⟨some [.nest .array (next.take i) (items ++ [.leaf .arrEnd c.arrClose])], some i,
            .none⟩, s')
        else if w = some .arrParam then
          arrLoop rec next n (i + c.arrParam.length) (items ++ [.leaf .arrParam c.arrParam]) s'
        else arrLoop rec next n i items s'
    else some (.error (.parse "Array missing close symbol" [] next), s)

/-- `parse_array` (`arrays.py:47-114`). -/
def runArray (rec : ParseFn) (next : Text) : M (Except PErr Found) := fun s =>
  if starts c.arrOpen next then
    arrLoop c rec next (next.length + 1) c.arrOpen.length [.leaf .arrStart c.arrOpen] s
  else some (.ok nothing, s)

/-- `return None, None, {'end': True, ...}` under a condition. -/
def stopIf (b : Bool) (w : Stop) : Found := if b then ⟨none, none, .stop w⟩ else nothing

/-- `parse_close_inner_expr` (`innerexpressions.py:48-55`) and `parse_inline_function_end`
(`inlinefunctions.py:52-59`). -/
def runEnd (sym : Char) (inside : Bool) (k : Kind) (w : Stop) (msg : String) (next : Text) :
    Except PErr Found :=
  if starts [sym] next then
    if inside then .ok ⟨some [.leaf k [sym]], none, .stop w⟩
    else .error (.parse msg [] next)
  else .ok nothing

/-- A call of a parser; `rec` is `parse`. -/
def runParser (rec : ParseFn) (p : Parser) (cur : List Item) (next : Text) (fl : Flags) :
    M (Except PErr Found) := fun s =>
  match p with
  | .leaf f =>
    match f cur next with
    | .error e => some (.error e, s)
    | .ok none => some (.ok nothing, s)
    | .ok (some (it, n)) => some (.ok ⟨some [it], some n, .none⟩, s)
  | .terminator => runTerminator c cur next fl s
  | .pointer => runFunc rec .pointer (c.pointerName next) next s
  | .func => runFunc rec .func (c.funcName next) next s
  -- `functions.py:70-74`
  | .funcParam => some (.ok (stopIf (starts [','] next && fl.func) .funcParam), s)
  -- `functions.py:76-81`
  | .funcEnd => some (.ok (stopIf (starts [')'] next && fl.func && !fl.inner) .funcEnd), s)
  | .inner => runInner rec next fl s
  | .innerEnd => some (runEnd ')' fl.inner .innerEnd .innerEnd
      "Unexpected inner expression close symbol found" next, s)
  | .inline => runInline rec next fl s
  | .inlineEnd => some (runEnd '}' fl.inline .inlineEnd .inlineEnd
      "Unexpected inline function close symbol found" next, s)
  | .array => runArray c rec next s
  -- `arrays.py:116-154`
  | .arrRange => some (.ok (stopIf (fl.array && starts c.arrRange next) .arrRange), s)
  | .arrStep => some (.ok (stopIf (fl.array && starts c.arrStep next) .arrStep), s)
  | .arrParam => some (.ok (stopIf (fl.array && starts c.arrParam next) .arrParam), s)
  | .arrEnd => some (.ok (stopIf (fl.array && starts c.arrClose next) .arrEnd), s)

/-- What one turn of the loop of `parse` does: go on with these statements, this current
statement, and this far; or return. -/
inductive Turn where
  | go (done : List (List Item)) (cur : List Item) (k : ℕ)
  | ret (statements : List (List Item)) (k : ℕ) (w : Stop)

/-- The loop over the parsers (`engine.py:102-130`); `done` and `cur` are `statements[:-1]` and
`statements[-1]`. -/
def tryParsers (rec : ParseFn) (next : Text) (fl : Flags) :
    List Parser → List (List Item) → List Item → M (Except Fail Turn)
  | [], done, cur => fun s => some (.ok (.go done cur 0), s)
  | p :: ps, done, cur => fun s =>
    match runParser c rec p cur next fl s with
    | none => none
    | some (.error (.py m), s') => some (.error (.py m), s')
    | some (.error (.parse m its nx), s') =>
      some (.error (.parsing m (done ++ [cur ++ its]) nx), s')               -- 105-107
    | some (.ok f, s') =>
      let found := f.items.isSome || f.len.any (fun n => decide (0 < n))     -- 110
      let cur := cur ++ f.items.getD []                                      -- 113-115
      let k := if found then f.len.getD 0 else 0                             -- 116-118
      match f.ret with
      | .stop w => some (.ok (.ret (done ++ [cur]) k w), s')                 -- 125-128
      | .endStatement =>                                                     -- 120-124
        if found then some (.ok (.go (done ++ [cur]) [] k), s')
        else tryParsers rec next fl ps (done ++ [cur]) [] s'
      | .none =>
        if found then some (.ok (.go done cur k), s')                        -- 131-132
        else tryParsers rec next fl ps done cur s'

/-- The loop of `parse` (`engine.py:98-139`) from position `pos`, where the text is `next`.  The
first argument bounds the number of turns. -/
def parseLoop (rec : ParseFn) (fl : Flags) :
    ℕ → ℕ → Text → List (List Item) → List Item → M Parsed
  | 0, _, _, _, _ => fun _ => none
  | n + 1, pos, next, done, cur => fun s =>
    match next with
    | [] => some (.ok (done ++ [cur], pos, none), s)
    | _ :: _ =>
      match tryParsers c rec next fl c.parsers done cur s with
      | none => none
      | some (.error e, s') => some (.error e, s')
      | some (.ok (.ret st k w), s') => some (.ok (st, pos + k, some w), s')
      | some (.ok (.go done cur k), s') =>
        if k = 0 then                                                        -- 135-136
          some (.error (.parsing ("Could not parse: " ++ String.ofList next) (done ++ [cur]) next),
            s')
        else parseLoop rec fl n (pos + k) (next.drop k) done cur s'

/-- `parse` (`engine.py:91-141`); the first argument bounds the nesting. -/
def parse : ℕ → ParseFn
  | 0 => fun _ _ _ => none
  | n + 1 => fun fl text => parseLoop c (parse n) fl (text.length + 1) 0 text [] []

end MC.Parse
