import Mathlib.Data.List.Sort
import Verif.Model.Parse
import Verif.Model.Bases
import Verif.Model.ExpPercent

/-!
# Model of the shipped parsers that make one item

Each gets the items of the current statement and the text at the current position.

Simplifications: `\d`, `[A-Z]` with IGNORECASE and `str.lower` are taken on ASCII only; `\w`
and `str.isalpha` are parameters; the symbols of strings and comments are single characters,
as shipped.
-/

namespace MC.Parse

/-- What the parsers read from the calculator. -/
structure Lex where
  p : ℕ
  powF : ℚ → ℚ → Except Err ℚ
  /-- `\w` -/
  word : Char → Bool
  /-- `str.isalpha` on one character -/
  alpha : Char → Bool
  /-- `ops_symbols` (`engine.py:32`) -/
  ops : List Text
  strSym : Char
  escChar : Char
  commentSym : Char
  constants : List Text
  /-- `unitnames` (lower case) and `unitsymbols` -/
  unitNames : List Text
  unitSymbols : List Text
  unitMaxLength : ℕ
  unitSymbolsEnabled : Bool
  systems : List Text
  numTypes : List Text

variable (x : Lex)

/-- A parser that makes one item. -/
abbrev LeafParser := List Item → Text → Except PErr (Option (Item × ℕ))

/-- The item of kind `k` with the first `n` characters, or nothing if `n = 0`. -/
def leafOf (k : Kind) (next : Text) (n : ℕ) : Option (Item × ℕ) :=
  if n = 0 then none else some (.leaf k (next.take n), n)

/-- `\s` (Python's `str.isspace`). -/
def isSpaceChar (c : Char) : Bool :=
  let n := c.toNat
  (9 ≤ n && n ≤ 13) || (28 ≤ n && n ≤ 32) || n = 133 || n = 160 || n = 5760 ||
  (8192 ≤ n && n ≤ 8202) || n = 8232 || n = 8233 || n = 8239 || n = 8287 || n = 12288

/-- `parse_space` (`space.py:33-39`). -/
def parseSpace : LeafParser := fun _ next =>
  match next with
  | c :: _ => .ok (leafOf .space next (if isSpaceChar c then 1 else 0))
  | [] => .ok none

/-- `parse_comment` (`comments.py:35-42`). -/
def parseComment : LeafParser := fun _ next =>
  match next with
  | c :: _ =>
    if c = x.commentSym then
      .ok (leafOf .comment next (next.takeWhile (· ≠ '\n')).length)
    else .ok none
  | [] => .ok none

/-- `(\W|$)` at the start of the text. -/
def wordEnd (rest : Text) : Bool :=
  match rest with
  | [] => true
  | c :: _ => !x.word c

/-- `parse_boolean` (`booleans.py:141-149`). -/
def parseBoolean : LeafParser := fun _ next =>
  if lowerText (next.take 4) = "true".toList && wordEnd x (next.drop 4) then
    .ok (leafOf .bool next 4)
  else if lowerText (next.take 5) = "false".toList && wordEnd x (next.drop 5) then
    .ok (leafOf .bool next 5)
  else .ok none

/-- `prev is None or prev.isop()`. -/
def numberAllowed (items : List Item) : Bool :=
  match previousFunctional items with
  | none => true
  | some it => it.isOp

/-- Length of `D+(\.D+)?` at the start of the text, 0 if there is none; `ok` says which
characters are in the class `D`. -/
def digitsLen (ok : Char → Bool) (s : Text) : ℕ :=
  let a := (s.takeWhile ok).length
  if a = 0 then 0
  else match s.drop a with
    | '.' :: r =>
      let b := (r.takeWhile ok).length
      if b = 0 then a else a + 1 + b
    | _ => a

/-- Length of the optional minus sign. -/
def signLen (s : Text) : ℕ := if s.head? = some '-' then 1 else 0

/-- Length of a literal with a fixed prefix, 0 if there is none (`binarynumbers.py:47`,
`octalnumbers.py:47`, `hexadecimalnumbers.py:47`). -/
def basedLen (pre : Text) (ok : Char → Bool) (next : Text) : ℕ :=
  let s := lowerText (next.drop (signLen next))
  if pre.isPrefixOf s then
    let n := digitsLen ok (s.drop pre.length)
    if n = 0 then 0 else signLen next + pre.length + n
  else 0

/-- Length of a decimal literal, 0 if there is none (`decimalnumbers.py:35`). -/
def decimalLen (next : Text) : ℕ :=
  let n := digitsLen Char.isDigit (next.drop (signLen next))
  if n = 0 then 0 else signLen next + n

/-- Length of a literal in scientific notation (`expnumbers.py:110`, with the symbol E). -/
def expLen (next : Text) : ℕ :=
  let a := decimalLen next
  if a = 0 then 0
  else match next.drop a with
    | e :: r =>
      if e.toLower = 'e' then
        let n := ((r.drop (signLen r)).takeWhile Char.isDigit).length
        if n = 0 then 0 else a + 1 + signLen r + n
      else 0
    | [] => 0

/-- Length of a percentage (`percentagenumbers.py:12`). -/
def percentLen (next : Text) : ℕ :=
  let a := decimalLen next
  if a = 0 then 0
  else match next.drop a with
    | '%' :: _ => a + 1
    | _ => 0

/-- Length of a literal with its own base (`arbitrarybasenumbers.py:43`). -/
def arbLen (next : Text) : ℕ :=
  let s := lowerText (next.drop (signLen next))
  let a := (s.takeWhile Char.isDigit).length
  if a = 0 then 0
  else match s.drop a with
    | 'z' :: r =>
      let n := digitsLen (fun c => c.isDigit || ('a' ≤ c && c ≤ 'z')) r
      if n = 0 then 0 else signLen next + a + 1 + n
    | _ => 0

/-- A number literal: its conversion to a value may raise. -/
def literal (len : Text → ℕ) (convert : Text → Except Err Bool) : LeafParser := fun items next =>
  if numberAllowed items then
    if len next = 0 then .ok none
    else match convert (next.take (len next)) with
      | .ok true => .ok (leafOf .num next (len next))
      | .ok false => .ok none
      | .error (.calc m) => .error (.py m)
      | .error (.exec m) => .error (.py m)
      | .error (.py m) => .error (.py m)
  else .ok none

/-- The outcome of a conversion that is always used. -/
def always {α : Type} : Option (Except Err α) → Except Err Bool
  | some (.error e) => .error e
  | _ => .ok true

/-- `parse_bin` (`binarynumbers.py:49-58`). -/
def lexBin : LeafParser :=
  literal (basedLen "0b".toList isBinDigit) (fun t => always (parseBin x.p x.powF t))

/-- `parse_oct` (`octalnumbers.py:49-58`). -/
def lexOct : LeafParser :=
  literal (basedLen "0o".toList isOctDigit) (fun t => always (parseOct x.p x.powF t))

/-- `parse_hex` (`hexadecimalnumbers.py:49-58`). -/
def lexHex : LeafParser :=
  literal (basedLen "0x".toList isHexDigit) (fun t => always (parseHex x.p x.powF t))

/-- `parse_arbbase` (`arbitrarybasenumbers.py:45-55`). -/
def lexArb : LeafParser :=
  literal arbLen (fun t => (parseArb x.p x.powF t).map Option.isSome)

/-- `parse_numberexp` (`expnumbers.py:57-67`). -/
def lexExp : LeafParser := literal expLen (fun t => always (parseExp x.p x.powF t))

/-- `parse_percentagenumber` (`percentagenumbers.py:37-46`). -/
def lexPercent : LeafParser := literal percentLen (fun t => always (parsePercent x.p t))

/-- `parse_number` (`decimalnumbers.py:39-47`). -/
def lexNumber : LeafParser := literal decimalLen (fun t => always (parseDecimal x.p t))

/-- The loop of `parse_operator` over the sorted candidates (`operators.py:32-40`). -/
def firstOp (next : Text) : List Text → Option Text
  | [] => none
  | op :: ops =>
    if op ≠ [] ∧ op.all x.alpha then
      if wordEnd x (next.drop op.length) then some op else firstOp next ops
    else some op

/-- The candidates, longest first (`operators.py:32`). -/
def opCandidates (next : Text) : List Text :=
  (x.ops.filter (fun op => op.isPrefixOf next)).insertionSort (fun a b => b.length ≤ a.length)

/-- `parse_operator` (`operators.py:30-40`). -/
def parseOperator : LeafParser := fun _ next =>
  match firstOp x next (opCandidates x next) with
  | some op => .ok (some (.leaf .op op, op.length))
  | none => .ok none

/-- The loop of `parse_string` (`strings.py:68-79`) on the text after what was read: the string
and the number of characters read up to the closing symbol; `none`: the text ends. -/
def stringLoop (sym esc : Char) : Bool → Text → Option (Text × ℕ)
  | _, [] => none
  | escape, c :: rest =>
    if c ≠ sym ∨ escape then
      let escape := if c = esc then !escape else false
      match stringLoop sym esc escape rest with
      | none => none
      | some (s, n) => some (if escape then s else c :: s, n + 1)
    else some ([], 0)

/-- `parse_string` (`strings.py:59-80`): the string and the length. -/
def readString (next : Text) : Except PErr (Option (Text × ℕ)) :=
  match next with
  | c :: rest =>
    if c = x.strSym then
      match stringLoop x.strSym x.escChar false rest with
      | none => .error (.parse ("Missing end " ++ String.ofList [x.strSym]) [] next)
      | some (s, n) => .ok (some (s, n + 2))
    else .ok none
  | [] => .ok none

/-- `parse_string` as a parser: the item. -/
def parseString : LeafParser := fun _ next =>
  match readString x next with
  | .error e => .error e
  | .ok none => .ok none
  | .ok (some (_, n)) => .ok (some (.leaf .str (next.take n), n))

/-- `[a-zA-Z]`. -/
def isLetter (c : Char) : Bool := ('a' ≤ c && c ≤ 'z') || ('A' ≤ c && c ≤ 'Z')

/-- Length of `[a-zA-Z_][a-zA-Z0-9_]*` at the start of the text. -/
def nameLen (next : Text) : ℕ :=
  match next with
  | c :: rest =>
    if isLetter c || c = '_' then
      1 + (rest.takeWhile (fun c => isLetter c || c.isDigit || c = '_')).length
    else 0
  | [] => 0

/-- `parse_constant` (`constants.py:33-42`). -/
def parseConstant : LeafParser := fun _ next =>
  let n := (next.takeWhile isLetter).length
  if next.take n ∈ x.constants then .ok (leafOf .constant next n) else .ok none

/-- Whether a unit name may end after `n` characters (`units.py:95`, `103`, `110-111`). -/
def unitEnd (next : Text) (n : ℕ) : Bool :=
  match next.drop n with
  | [] => true
  | c :: _ => !(x.alpha c || c = '_')

/-- The loop of `parse_units` over the lengths from `n` down (`units.py:90-106`). -/
def unitLoop (next : Text) : ℕ → Option (Item × ℕ)
  | 0 => none
  | n + 1 =>
    if lowerText (next.take (n + 1)) ∈ x.unitNames && unitEnd x next (n + 1) then
      leafOf .unit next (n + 1)
    else if x.unitSymbolsEnabled && next.take (n + 1) ∈ x.unitSymbols && unitEnd x next (n + 1) then
      leafOf .unit next (n + 1)
    else unitLoop next n

/-- `parse_units` (`units.py:86-108`). -/
def parseUnits : LeafParser := fun _ next =>
  .ok (unitLoop x next (min x.unitMaxLength next.length))

/-- No letter follows (`systems.py:44`, `numericalrepresentation.py:44`). -/
def letterEnd (rest : Text) : Bool :=
  match rest with
  | [] => true
  | c :: _ => !x.alpha c

/-- The first word of the list at the start of the text that no letter follows
(`systems.py:43-45`, `numericalrepresentation.py:43-45`). -/
def firstWord (next : Text) : List Text → Option Text
  | [] => none
  | w :: ws =>
    if w.isPrefixOf next && letterEnd x (next.drop w.length) then some w else firstWord next ws

/-- `parse_unitsystems` (`systems.py:40-47`) and `parse_numericalrepresentation`
(`numericalrepresentation.py:40-47`). -/
def parseWord (words : List Text) : LeafParser := fun _ next =>
  match firstWord x next words with
  | some w => .ok (some (.leaf .special w, w.length))
  | none => .ok none

/-- `parse_var` (`assignment.py:57-63`). -/
def parseVar : LeafParser := fun _ next => .ok (leafOf .var next (nameLen next))

/-- The match of `[a-zA-Z_][a-zA-Z0-9_]*\(` (`functions.py:36`): the name. -/
def callName (next : Text) : Option Text :=
  let n := nameLen next
  if n ≠ 0 ∧ (next.drop n).head? = some '(' then some (next.take n) else none

/-- The parsers in the shipped order (`features/layout.py:4-36`) with all features installed. -/
def shippedParsers : List Parser :=
  [.terminator, .leaf parseSpace, .leaf (parseComment x), .leaf (parseBoolean x),
   .leaf (lexBin x), .leaf (lexOct x), .leaf (lexHex x), .leaf (lexArb x), .leaf (lexExp x),
   .leaf (lexPercent x), .leaf (lexNumber x), .leaf (parseOperator x), .leaf (parseString x),
   .pointer, .func, .funcParam, .funcEnd, .inner, .innerEnd, .inline, .inlineEnd,
   .leaf (parseConstant x), .leaf (parseUnits x), .leaf (parseWord x x.systems),
   .leaf (parseWord x x.numTypes), .array, .arrRange, .arrStep, .arrParam, .arrEnd,
   .leaf parseVar]

/-- The calculator's parsing, as shipped: default symbols; `funcs` is the table of functions. -/
def shippedCfg (funcs : List Text) (incomplete : List Item → Bool) : Cfg where
  parsers := shippedParsers x
  termSym := ['\n']
  incomplete := incomplete
  funcName := fun next => (callName next).filter (· ∈ funcs)
  pointerName := fun next =>
    match next with
    | '@' :: rest => (callName rest).map ('@' :: ·)
    | _ => none
  arrOpen := ['[']
  arrRange := ['.', '.']
  arrStep := "step".toList
  arrParam := [',']
  arrClose := [']']

end MC.Parse
