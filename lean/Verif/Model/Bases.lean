import Verif.Model.Display

/-!
# Model of `features/numerical/bases.py` and the based literals

Only ASCII letters are modelled for `upper`/`lower`.
-/

namespace MC
open Number

/-- `BasesFeature.digits` (`bases.py:30`). -/
def baseDigits : List Char := "0123456789ABCDEFGHIJKLMNOPQRSTUVWXYZ".toList

/-- `str.find` in a text without the character gives -1 (`bases.py:88`); `none` here. -/
def findDigit (c : Char) : Option ℕ :=
  if c ∈ baseDigits then some (baseDigits.idxOf c) else none

/-- `digits[c]` (`bases.py:123`): a negative index counts from the end. -/
def digitAt (c : ℤ) : Option Char :=
  if 0 ≤ c then baseDigits[c.toNat]?
  else if 0 ≤ c + baseDigits.length then baseDigits[(c + baseDigits.length).toNat]?
  else none

/-- `val.lower()` / `val.upper()` on ASCII text. -/
def lowerText (s : List Char) : List Char := s.map Char.toLower
def upperText (s : List Char) : List Char := s.map Char.toUpper

/-- Python `s.replace(pat, '')` for a non-empty `pat` (`bases.py:33`): remove all
occurrences, scanning from the left. -/
def removeAll (pat : List Char) (s : List Char) : List Char :=
  match s with
  | [] => []
  | c :: t =>
    if pat ≠ [] ∧ pat <+: c :: t then removeAll pat (t.drop (pat.length - 1))
    else c :: removeAll pat t
termination_by s.length
decreasing_by all_goals simp; try omega

/-- `number_remove_prefix` (`bases.py:32-33`). -/
def removePrefix (s pre : List Char) : List Char := removeAll pre (lowerText s)

/-- `number_add_prefix` (`bases.py:35-39`); an empty text is an `IndexError`. -/
def addPrefix (s pre : List Char) : Except Err (List Char) :=
  match s with
  | [] => .error (.py "IndexError")
  | '-' :: t => .ok ('-' :: pre ++ t)
  | s => .ok (pre ++ s)

/-- `split_number` (`bases.py:41-51`): sign, integer part, point and fraction. -/
def splitNumber (s : List Char) : Except Err (List Char × List Char × List Char) :=
  match s with
  | [] => .error (.py "IndexError")
  | c :: t =>
    let (sign, body) := if c = '-' then (['-'], t) else ([], c :: t)
    .ok (sign, body.takeWhile (· ≠ '.'), body.dropWhile (· ≠ '.'))

/-- `get_number_width` (`bases.py:53-56`). -/
def numberWidth (s pre : List Char) : Except Err ℕ := do
  let t ← splitNumber (removePrefix s pre)
  return t.2.1.length

/-- `force_number_width` (`bases.py:58-61`).  (`zfill` on the integer part, which has
no sign.) -/
def forceWidth (s : List Char) (w : ℕ) : Except Err (List Char) := do
  let t ← splitNumber s
  return t.1 ++ zfill w t.2.1 ++ t.2.2

/-- `Decimal(text)` as reached from `base_to_dec` with base 10 (`bases.py:69`): an
optional sign, digits with an optional point, an optional exponent.  Other texts
raise, and so do `inf` and `nan` (in `math.floor`, `number.py:35`). -/
def decimalCtor (s : List Char) : Except Err ℚ :=
  let neg := s.head? == some '-'
  let s1 := if neg then s.tail else s
  let (ip, r1) := spanDigits s1
  let (fp, r2) := match r1 with
    | '.' :: r => spanDigits r
    | r => ([], r)
  if ip = [] ∧ fp = [] then .error (.py "InvalidOperation") else
  match r2 with
  | [] => .ok (decimalOf neg ip fp)
  | e :: r3 =>
    if e.toLower = 'e' then
      let eneg := r3.head? == some '-'
      let (ed, r4) := spanDigits (if eneg then r3.tail else r3)
      if ed ≠ [] ∧ r4 = [] then
        .ok (decimalOf neg ip fp * 10 ^ (if eneg then -(readNat ed : ℤ) else (readNat ed : ℤ)))
      else .error (.py "InvalidOperation")
    else .error (.py "InvalidOperation")

variable (p : ℕ) (powF : ℚ → ℚ → Except Err ℚ)

/-- The loop of `base_to_dec` (`bases.py:85-92`). -/
def readDigits (base : ℤ) : List Char → ℤ → Number → Except Err Number
  | [], _, dec => .ok dec
  | c :: cs, power, dec =>
    if c = '.' then readDigits base cs power dec                              -- 86-87
    else match findDigit c with
      | none => .error (.calc "Illegal digit")
      | some v =>
        if (v : ℤ) > base - 1 then .error (.calc "Illegal digit")             -- 89-90
        else do
          let n ← ofInt p v
          let bp ← Number.pow p powF (← ofInt p base) (← ofInt p power)
          let dec ← Number.add p dec (← Number.mul p n bp)                    -- 91
          readDigits base cs (power - 1) dec                                  -- 92

/-- `base_to_dec` (`bases.py:63-96`). -/
def baseToDec (val : List Char) (base : ℤ) : Except Err Number :=
  if val = ['0'] then ofInt p 0                                               -- 64-65
  else if base = 10 then do mk' p (← decimalCtor val) 1                       -- 68-69
  else if base < 2 ∨ base > 36 then .error (.calc "Base must be between 2 and 36")
  else match val with
    | [] => .error (.py "IndexError")                                         -- 74
    | c :: t => do
      let body := if c = '-' then t else c :: t                               -- 73-76
      let power : ℤ :=                                                        -- 78-81
        if '.' ∈ body then (body.idxOf '.' : ℤ) - 1 else (body.length : ℤ) - 1
      let dec ← readDigits p powF base (upperText body) power (← ofInt p 0)   -- 83-92
      return if c = '-' then Number.neg p dec else dec                        -- 94-96

/-- The search for the highest power (`bases.py:111-113`), with fuel. -/
def topPower (base : ℤ) (val : Number) : ℕ → ℕ → Except Err ℕ
  | 0, _ => .error (.py "out of fuel")
  | fuel + 1, power => do
    if Number.le p (← ofInt p (base ^ (power + 1))) val then topPower base val fuel (power + 1)
    else return power

/-- The digit loop of `dec_to_base` (`bases.py:117-126`), with fuel; `prec` is
`number_prec`. -/
def digitLoop (prec : ℕ) (base : ℤ) : ℕ → ℤ → ℕ → Number → List Char → Except Err (List Char)
  | 0, _, _, _, _ => .error (.py "out of fuel")
  | fuel + 1, power, places, val, str =>
    if 0 ≤ power ∨ (0 < toDecimal p val ∧ places < prec) then do
      let str := if power = -1 then str ++ ['.'] else str                     -- 118-119
      let bp ← Number.pow p powF (← ofInt p base) (← ofInt p power)           -- 120
      let c := toInt p (← Number.div p val bp)                                -- 121
      let val ← Number.sub p val (← Number.mul p (← ofInt p c) bp)            -- 122
      match digitAt c with                                                    -- 123
      | none => .error (.py "IndexError")
      | some ch =>
        digitLoop prec base fuel (power - 1) (if power < 0 then places + 1 else places) val (str ++ [ch])
    else .ok str

/-- `dec_to_base` (`bases.py:98-132`), with fuel for the power search; `prec` is
`number_prec` (also the number of decimal places shown, `numericalengine.py:36-37`).
The digit loop gets fuel `power + prec + 2`, which always suffices. -/
def decToBase (prec : ℕ) (fuel : ℕ) (val : Number) (base : ℤ) : Except Err (List Char) :=
  if toDecimal p val = 0 then .ok ['0']                                       -- 99-100
  else if base = 10 then Number.toText p prec val                             -- 103-104
  else if base < 2 ∨ base > 36 then .error (.calc "Base must be between 2 and 36")
  else do
    let negative := toDecimal p val < 0                                       -- 108
    let v := Number.abs p val                                                 -- 109
    let power ← topPower p base v fuel 0                                      -- 111-113
    let s ← digitLoop p powF prec base (power + prec + 2) power 0 v []        -- 115-126
    let s := if negative then '-' :: s else s                                 -- 128-129
    return if '.' ∈ s then rstrip0 s else s                                   -- 130-132

/-! ### Literals -/

/-- A literal with a fixed prefix, e.g. `(\-?0b[01]+(\.[01]+)?)` with IGNORECASE
(`binarynumbers.py:47`, `octalnumbers.py:47`, `hexadecimalnumbers.py:47`):
`fullmatch`.  `ok` says which lower-case characters are digits. -/
def matchesBased (pre : List Char) (ok : Char → Bool) (s : List Char) : Bool :=
  let s := lowerText s
  let s1 := if s.head? == some '-' then s.tail else s
  if pre <+: s1 then
    let body := s1.drop pre.length
    let ip := body.takeWhile (· ≠ '.')
    let fp := body.dropWhile (· ≠ '.')
    !ip.isEmpty && ip.all ok && (fp.isEmpty || (!fp.tail.isEmpty && fp.tail.all ok))
  else false

/-- The digit classes `[01]`, `[0-7]` and `[0-9A-F]` on lower-case text
(`binarynumbers.py:47`, `octalnumbers.py:47`, `hexadecimalnumbers.py:47`). -/
def isBinDigit (c : Char) : Bool := c = '0' ∨ c = '1'
def isOctDigit (c : Char) : Bool := '0' ≤ c && c ≤ '7'
def isHexDigit (c : Char) : Bool := c.isDigit || ('a' ≤ c && c ≤ 'f')

/-- A binary number: the value and the width attribute (`binarynumbers.py:74-82`). -/
def parseBin (s : List Char) : Option (Except Err (Number × ℕ)) :=
  if matchesBased "0b".toList isBinDigit s then
    some do
      let n ← baseToDec p powF (removePrefix s "0b".toList) 2
      let w ← numberWidth s "0b".toList
      return (n, w)
  else none

/-- `BinaryNumericalRepresentation.to_string` (`binarynumbers.py:84-89`). -/
def showBin (prec fuel : ℕ) (n : Number) (width : Option ℕ) : Except Err (List Char) := do
  let t ← decToBase p powF prec fuel n 2
  let t ← match width with
    | some w => forceWidth t w
    | none => .ok t
  addPrefix t "0b".toList

/-- `HexadecimalNumericalRepresentation.parse` (`hexadecimalnumbers.py:74-80`). -/
def parseHex (s : List Char) : Option (Except Err Number) :=
  if matchesBased "0x".toList isHexDigit s then
    some (baseToDec p powF (removePrefix s "0x".toList) 16)
  else none

/-- `HexadecimalNumericalRepresentation.to_string` (`hexadecimalnumbers.py:82-84`). -/
def showHex (prec fuel : ℕ) (n : Number) : Except Err (List Char) := do
  addPrefix (← decToBase p powF prec fuel n 16) "0x".toList

/-- `OctalNumericalRepresentation.parse` (`octalnumbers.py:74-80`). -/
def parseOct (s : List Char) : Option (Except Err Number) :=
  if matchesBased "0o".toList isOctDigit s then
    some (baseToDec p powF (removePrefix s "0o".toList) 8)
  else none

/-- `OctalNumericalRepresentation.to_string` (`octalnumbers.py:82-84`). -/
def showOct (prec fuel : ℕ) (n : Number) : Except Err (List Char) := do
  addPrefix (← decToBase p powF prec fuel n 8) "0o".toList

/-- `(\-?\d+z[0-9A-Z]+(\.[0-9A-Z]+)?)` with IGNORECASE, `fullmatch`
(`arbitrarybasenumbers.py:43`): the digits before the `z`.  `[0-9A-Z]+` may itself
contain `z`. -/
def matchArb (s : List Char) : Option (List Char) :=
  let s := lowerText s
  let s1 := if s.head? == some '-' then s.tail else s
  let (b, rest) := spanDigits s1
  let ok : Char → Bool := fun c => c.isDigit || ('a' ≤ c && c ≤ 'z')
  match b, rest with
  | [], _ => none
  | b, 'z' :: body =>
    let ip := body.takeWhile (· ≠ '.')
    let fp := body.dropWhile (· ≠ '.')
    if !ip.isEmpty && ip.all ok && (fp.isEmpty || (!fp.tail.isEmpty && fp.tail.all ok)) then some b
    else none
  | _, _ => none

/-- `ArbitraryBaseNumericalRepresentation.parse` (`arbitrarybasenumbers.py:72-86`):
only `CalculatorException` is swallowed; other exceptions escape. -/
def parseArb (s : List Char) : Except Err (Option (Number × ℕ)) :=
  match matchArb s with
  | none => .ok none
  | some b =>
    let base := readNat b
    match baseToDec p powF (removePrefix s (natText base ++ ['z'])) base with
    | .ok n => .ok (some (n, base))
    | .error (.calc _) => .ok none
    | .error e => .error e

/-- `ArbitraryBaseNumericalRepresentation.to_string` (`arbitrarybasenumbers.py:88-89`). -/
def showArb (prec fuel : ℕ) (n : Number) (base : ℕ) : Except Err (List Char) := do
  addPrefix (← decToBase p powF prec fuel n base) (natText base ++ ['z'])

end MC
