import Verif.Model.Bases
import Verif.Model.ExpPercent
import Verif.Model.Numerical

/-!
# Numbers with the notation they are shown in, and the functions that change it

`number_cast` of `objects/number.py`, the classes `…NumericalRepresentation` of `features/numerical/*`, the functions
`bin`, `oct`, `hex`, `dec`, `base` and `scientific`, and the operator `as`.

`prec` is `number_prec`, which is also `NUMBER['decimal_places']` (`numericalengine.py:36-37`).  The symbol of exponents
is the default one.
-/

namespace MC.Notation
open MC.Number MC.Numerical MC.Arrays

/-- The number types (`number_types`, `modularcalculator.py:170-171`). -/
inductive NumType where
  | decimal | scientific | percentage | binary | octal | hexadecimal | arbitrary
  deriving DecidableEq

/-- `number_type.name()` (`decimalnumbers.py:51-53`, `expnumbers.py:118-120`, `percentagenumbers.py:51-53`,
`binarynumbers.py:66-68`, `octalnumbers.py:66-68`, `hexadecimalnumbers.py:66-68`, `arbitrarybasenumbers.py:63-65`). -/
def NumType.name : NumType → (List Char)
  | .decimal => "decimal".toList
  | .scientific => "scientific".toList
  | .percentage => "percentage".toList
  | .binary => "binary".toList
  | .octal => "octal".toList
  | .hexadecimal => "hexadecimal".toList
  | .arbitrary => "arbitrarybase".toList

/-- What `number_cast` says about showing: which `to_string`, and its `args`
(`decimalnumbers.py:64`, `expnumbers.py:148`, `percentagenumbers.py:83`, `binarynumbers.py:95`, `octalnumbers.py:90`,
`hexadecimalnumbers.py:90`, `arbitrarybasenumbers.py:81`).  The entries `base` and `places_offset`, which only `round`
looks at, are left out. -/
inductive Cast where
  | decimal | scientific | percentage | binary | octal | hexadecimal
  | arbitrary (base : ℕ)
  deriving DecidableEq

/-- A `Number` object: the number, `number_cast` (`number.py:16`) and the attribute `binary_number_width`
(`binarynumbers.py:79-80`). -/
structure Shown where
  num : Number
  cast : Option Cast := none
  width : Option ℕ := none
  deriving DecidableEq

variable (p : ℕ) (powF : ℚ → ℚ → Except Err ℚ)

/-- `Number.to_string(calculator)` (`number.py:61-79`), with the `to_string` of each number type:
`decimalnumbers.py:68-72`, `expnumbers.py:140-142`, `percentagenumbers.py:73-77`, `binarynumbers.py:84-89`,
`octalnumbers.py:82-84`, `hexadecimalnumbers.py:82-84`, `arbitrarybasenumbers.py:88-89`.  In base ten `dec_to_base` calls
`to_string` of the same object (`bases.py:103-104`): the first argument says how often that fits on Python's stack. -/
def showNumber (prec fuel : ℕ) : ℕ → Shown → Except Err (List Char)
  | stack, x =>
    match x.cast with
    | none | some .decimal => toText p prec x.num
    | some .scientific => .ok (decToExp p prec x.num)
    | some .percentage => showPercent p prec x.num
    | some .binary => showBin p powF prec fuel x.num x.width
    | some .octal => showOct p powF prec fuel x.num
    | some .hexadecimal => showHex p powF prec fuel x.num
    | some (.arbitrary b) =>
      if b = 10 ∧ toDecimal p x.num ≠ 0 then
        match stack with
        | 0 => .error (.py "RecursionError")
        | stack + 1 => do addPrefix (← showNumber prec fuel stack x) (natText b ++ ['z'])
      else showArb p powF prec fuel x.num b

/-- A number that was read, with its number type. -/
def withCast (k : Cast) : Option (Except Err Number) → Except Err (Option Shown)
  | none => .ok none
  | some (.ok n) => .ok (some ⟨n, some k, none⟩)
  | some (.error e) => .error e

/-- `number_type.parse(calculator, val)` on a text (`decimalnumbers.py:59-66`, `expnumbers.py:126-138`,
`percentagenumbers.py:59-71`, `binarynumbers.py:74-82`, `octalnumbers.py:74-80`, `hexadecimalnumbers.py:74-80`,
`arbitrarybasenumbers.py:71-86`). -/
def readAs : NumType → (List Char) → Except Err (Option Shown)
  | .decimal, s => withCast .decimal (parseDecimal p s)
  | .scientific, s => withCast .scientific (parseExp p powF s)
  | .percentage, s => withCast .percentage (parsePercent p s)
  | .binary, s =>
    match parseBin p powF s with
    | none => .ok none
    | some (.ok (n, w)) => .ok (some ⟨n, some .binary, some w⟩)
    | some (.error e) => .error e
  | .octal, s => withCast .octal (parseOct p powF s)
  | .hexadecimal, s => withCast .hexadecimal (parseHex p powF s)
  | .arbitrary, s =>
    match parseArb p powF s with
    | .error e => .error e
    | .ok none => .ok none
    | .ok (some (n, b)) => .ok (some ⟨n, some (.arbitrary b), none⟩)

/-- `number(val)` on a text (`numericalengine.py:45-49`), for the number types in the order of their installation. -/
def readNumber (s : (List Char)) : List NumType → Except Err Shown
  | [] => .error (.calc "Can't cast to number")
  | t :: ts =>
    match readAs p powF t s with
    | .error e => .error e
    | .ok (some x) => .ok x
    | .ok none => readNumber s ts

/-- `number_type.convert_to(calculator, val)` on a number (`decimalnumbers.py:74-78`, `expnumbers.py:144-150`,
`percentagenumbers.py:79-85`, `binarynumbers.py:91-97`, `octalnumbers.py:86-92`, `hexadecimalnumbers.py:86-92`).
`copy` (`number.py:95-96`) leaves the width out.  The class of arbitrary bases has no such method. -/
def convertTo : NumType → Shown → Except Raise Shown
  | .decimal, x => .ok ⟨x.num, none, none⟩
  | .scientific, x => .ok ⟨x.num, some .scientific, none⟩
  | .percentage, x => .ok ⟨x.num, some .percentage, none⟩
  | .binary, x => .ok ⟨x.num, some .binary, none⟩
  | .octal, x => .ok ⟨x.num, some .octal, none⟩
  | .hexadecimal, x => .ok ⟨x.num, some .hexadecimal, none⟩
  | .arbitrary, _ => .error (.py "AttributeError")

/-- The values that are not arrays. -/
inductive Scal where
  | num (x : Shown)
  | text (t : (List Char))
  | truth (b : Bool)
  deriving DecidableEq

variable {U R σ : Type}

/-- `vals[i]` as a number; the validation and `convert_numbers` leave nothing else there. -/
def shownAt (xs : List (Opd Scal U R)) (i : ℕ) : Except Raise Shown :=
  match xs[i]? with
  | some ⟨.sc (.num x), _, _, _⟩ => .ok x
  | _ => .error (.py "AttributeError")

/-- `bin`, `oct`, `hex` and `dec` (`binarynumbers.py:34-43`, `62-63`, `octalnumbers.py:34-43`, `62-63`,
`hexadecimalnumbers.py:34-43`, `62-63`, `decimalfunction.py:28-41`). -/
def opConvert (name : String) (t : NumType) : Operation Scal U R σ :=
  { numOp name 1 1 (fun xs s =>
      (do
        let y ← convertTo t (← shownAt xs 0)
        return { value := .sc (.num y) }, s)) with convertOut := false }

/-- `bin` (`binarynumbers.py:34-43`). -/
def opBin : Operation Scal U R σ := opConvert "bin" .binary
/-- `oct` (`octalnumbers.py:34-43`). -/
def opOct : Operation Scal U R σ := opConvert "oct" .octal
/-- `hex` (`hexadecimalnumbers.py:34-43`). -/
def opHex : Operation Scal U R σ := opConvert "hex" .hexadecimal
/-- `dec` (`decimalfunction.py:28-36`). -/
def opDec : Operation Scal U R σ := opConvert "dec" .decimal

/-- `'.' + str(places.to_string())` as the precision of a format (`expnumbers.py:92-93`): only a text of digits is one.
A number with another number type is written with a prefix, a sign or a percent sign, or as an exponent. -/
def placesOf (x : Shown) : Except Raise ℕ :=
  if x.cast = none ∨ x.cast = some .decimal then
    if 0 ≤ x.num.num ∧ x.num.den = 1 then .ok x.num.num.toNat else .error (.py "ValueError")
  else .error (.py "ValueError")

/-- `func_scientific` (`expnumbers.py:69-82`) with its definition (`expnumbers.py:41-51`).  `types` are the number
types. -/
def opScientific (types : List NumType) : Operation Scal U R σ :=
  { numOp "scientific" 1 2 (fun xs s =>
      (do
        let x ← shownAt xs 0
        let y ← if xs.length = 2 then do
            let places ← placesOf (← shownAt xs 1)
            liftErr (readNumber p powF (decToExp p places x.num) types)        -- 77-78
          else convertTo .scientific x                                        -- 75
        return { value := .sc (.num y), unit := some (xs[0]?.bind (·.unit)) }, s)) with
    convertOut := false, unitsNormalise := false }

/-- `func_base` (`arbitrarybasenumbers.py:57-58`) with its definition (`31-40`).  In base ten `dec_to_base` shows the
number in its own number type (`bases.py:103-104`). -/
def opBase (prec fuel stack : ℕ) : Operation Scal U R σ :=
  { numOp "base" 2 2 (fun xs s =>
      (do
        let x ← shownAt xs 0
        let b := toInt p (← shownAt xs 1).num
        let t ← liftErr (do
          if toDecimal p x.num = 0 then addPrefix ['0'] (intText b ++ ['z'])
          else if b = 10 then addPrefix (← showNumber p powF prec fuel stack x) (intText b ++ ['z'])
          else addPrefix (← decToBase p powF prec fuel x.num b) (intText b ++ ['z']))
        return { value := .sc (.text t) }, s)) with convertOut := false }

/-- `op_as` (`numericalrepresentation.py:52-61`) with its definition (`29-38`). -/
def opAs (types : List NumType) : Operation Scal U R σ where
  name := "operator as"
  minParams := some 2
  maxParams := some 2
  values := [⟨0, some 0, [.ty "number"]⟩, ⟨1, some 1, [.ty "numericalrepresentation"]⟩]
  units := []
  convertOut := false
  ref := fun xs s =>
    (match xs with
    | [x, ⟨.sc (.text n), _, _, _⟩] =>
      match types.find? (fun t => t.name == n) with
      | none => .error (.calc ("Could not find numerical representation '" ++ String.ofList n ++ "'"))
      | some t => do
        let y ← convertTo t (← shownAt [x] 0)
        return { value := .sc (.num y), unit := x.unit.map some }
    | _ => .error (.py "TypeError"), s)

/-- `calculator.number(val)` (`numericalengine.py:42-49`), with the exceptions caught (`51-56`). -/
def toNumber (types : List NumType) : Scal → Option Scal
  | .num x => some (.num x)
  | .text t =>
    match readNumber p powF t types with
    | .ok x => some (.num x)
    | .error _ => none
  | .truth _ => none

/-- `validate_numericalrepresentation` (`numericalrepresentation.py:49-50`). -/
def isTypeName (types : List NumType) (x : Opd Scal U R) : Bool :=
  match x.value with
  | .sc (.text n) => (types.find? (fun t => t.name == n)).isSome
  | _ => false

/-- `OperandResult.to_string` (`items.py:164-175`) for values that are not arrays. -/
def opdText (prec fuel stack : ℕ) (unitText : U → (List Char)) (x : Opd Scal U R) : Except Raise String :=
  match (match x.value with
    | .sc (.num y) => liftErr (showNumber p powF prec fuel stack y)
    | .sc (.text t) => .ok ('\'' :: t ++ ['\''])
    | .sc (.truth b) => .ok (if b then "True".toList else "False".toList)
    | .arr _ => .error (.py "not modelled")
    | .exc e => .ok (match e with
      | .calc m _ => m.toList
      | .exec x => x.msg.toList
      | .py m => m.toList)) with
  | .error e => .error e
  | .ok t =>
    match x.unit with
    | some u => .ok (String.ofList (t ++ ' ' :: unitText u))
    | none => .ok (String.ofList t)

/-- The calculator as operations see it (`numericalengine.py:42-56`): the number types in the order of their
installation, and the unit normaliser. -/
def calculator (types : List NumType) (prec fuel stack : ℕ) (unitText : U → (List Char))
    (normalise : List (Scal × Option U) → Bool → Bool → Except Raise (List (Scal × Option U) × Option U)) :
    Calc Scal U R Cast where
  validator n :=
    if n = "number" then some (fun x _ => .ok (match x.value with
      | .sc v => (toNumber p powF types v).isSome
      | _ => false))
    else if n = "numericalrepresentation" then some (fun x _ => .ok (isTypeName types x))
    else none
  number := toNumber p powF types
  isNumber v := match v with | .num _ => true | _ => false
  cast v := match v with | .num x => x.cast | _ => none
  setCast k v := match v with | .num x => .num { x with cast := some k } | v => v
  normalise := some normalise
  toString := opdText p powF prec fuel stack unitText

end MC.Notation
