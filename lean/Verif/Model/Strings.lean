import Verif.Model.Arrays

/-!
# Model of `features/strings/`: strings, string functions, splitting and joining, comparison, regular expressions

Texts are lists of characters.  Strings are among the scalars: `Texts.text?` recognises them
(`isinstance(x, str)`), `Texts.ofText` makes them, `Texts.render` is `Number.to_string(self)`
or `str` on everything else (it may raise: the digits of a number type may not fit).

The methods of Python's `str` are modelled here: `find`, `split`, `join`, `replace`, the strip
methods, slices, repetition and comparison by code points.  `lower`, `upper` and the module
`re` are parameters.  The lexer of string literals (`strings.py:59-80`) is in
`Model/Lexer.lean`.
-/

namespace MC.Strings
open Boolean Arrays

variable {S U R K σ : Type}

/-! ## Python's `str` -/

/-- `s.find(sub)`: the least position, `none` for -1. -/
def find (sub : List Char) : List Char → Option ℕ
  | [] => if sub.isPrefixOf [] then some 0 else none
  | c :: cs => if sub.isPrefixOf (c :: cs) then some 0 else (find sub cs).map (· + 1)

/-- The loop of `s.split(sep)`: find the separator, cut, go on behind it.  `fuel` bounds the
number of cuts; `splitF_enough` in `Lemmas/Strings.lean` shows that the length suffices. -/
def splitF (sep : List Char) : ℕ → List Char → List (List Char)
  | 0, s => [s]
  | fuel + 1, s =>
    match find sep s with
    | none => [s]
    | some k => s.take k :: splitF sep fuel (s.drop (k + sep.length))

/-- `s.split(sep)`; an empty separator raises `ValueError`. -/
def split (sep s : List Char) : Except Raise (List (List Char)) :=
  if sep = [] then .error (.py "ValueError") else .ok (splitF sep s.length s)

/-- `sep.join(parts)`. -/
def join (sep : List Char) : List (List Char) → List Char
  | [] => []
  | [p] => p
  | p :: ps => p ++ sep ++ join sep ps

/-- `s.replace(old, new)` with an empty `old`: `new` goes before every character and at the
end. -/
def interleave (new : List Char) : List Char → List Char
  | [] => new
  | c :: cs => new ++ c :: interleave new cs

/-- The loop of `s.replace(old, new)`: copy up to the next occurrence, put the new text, go on
behind the occurrence. -/
def replaceF (old new : List Char) : ℕ → List Char → List Char
  | 0, s => s
  | fuel + 1, s =>
    match find old s with
    | none => s
    | some k => s.take k ++ new ++ replaceF old new fuel (s.drop (k + old.length))

/-- `s.replace(old, new)`. -/
def replace (old new s : List Char) : List Char :=
  if old = [] then interleave new s else replaceF old new s.length s

/-- `s.lstrip(chars)`. -/
def lstrip (chars s : List Char) : List Char := s.dropWhile (chars.contains ·)

/-- `s.rstrip(chars)`. -/
def rstrip (chars s : List Char) : List Char := (s.reverse.dropWhile (chars.contains ·)).reverse

/-- `s.strip(chars)`. -/
def strip (chars s : List Char) : List Char := rstrip chars (lstrip chars s)

/-- A bound of a slice: negative ones count from the end, and everything is clamped. -/
def clamp (n : ℕ) (i : ℤ) : ℕ := (if i < 0 then i + n else i).toNat ⊓ n

/-- `s[a:b]`. -/
def slice (s : List Char) (a b : ℤ) : List Char :=
  (s.take (clamp s.length b)).drop (clamp s.length a)

/-- `s[a:]`. -/
def sliceFrom (s : List Char) (a : ℤ) : List Char := s.drop (clamp s.length a)

/-- `s * n`: nothing for negative `n`. -/
def repeated (s : List Char) (n : ℤ) : List Char := (List.replicate n.toNat s).flatten

/-- `a < b` on strings: by code points, a proper prefix is smaller. -/
def less : List Char → List Char → Bool
  | [], [] => false
  | [], _ :: _ => true
  | _ :: _, [] => false
  | a :: as, b :: bs => if a = b then less as bs else decide (a.toNat < b.toNat)

/-! ## The calculator's strings -/

/-- What is known about scalars as strings. -/
structure Texts (S U R : Type) where
  /-- `isinstance(x, str)`, with the text. -/
  text? : S → Option (List Char)
  /-- A string as a value. -/
  ofText : List Char → S
  /-- A truth value as a value. -/
  ofBool : Bool → S
  /-- `isinstance(x, Number)`. -/
  num? : S → Option Number
  /-- A number as a value. -/
  ofNum : Number → S
  /-- `to_string` of numbers, `str` of everything that is not a string. -/
  render : Val S U R → Except Raise (List Char)
  /-- `str.lower`. -/
  lower : List Char → List Char
  /-- `str.upper`. -/
  upper : List Char → List Char

variable (T : Texts S U R) (p : ℕ)

/-- `vals[i]` when it is a `str`. -/
def rawText (v : Val S U R) : Option (List Char) :=
  match v with
  | .sc x => T.text? x
  | _ => none

/-- `StringsFeature.string` (`strings.py:88-91`). -/
def string (v : Val S U R) : Except Raise (List Char) :=
  match rawText T v with
  | some t => .ok t
  | none => T.render v

/-- `validate_string` (`strings.py:93-101`). -/
def validateString (x : Opd S U R) (_ : Option String) : Except Raise Bool :=
  match string T x.value with
  | .ok _ => .ok true
  | .error _ => .ok false

/-- One input, as `validate` guarantees. -/
def one (f : Opd S U R → Except Raise (OpResult S U R)) (xs : List (Opd S U R)) :
    Act σ (OpResult S U R) := fun s =>
  match xs with
  | a :: _ => (f a, s)
  | _ => (.error (.py "IndexError"), s)

/-- Three inputs, as `validate` guarantees. -/
def three (f : Opd S U R → Opd S U R → Opd S U R → Except Raise (OpResult S U R))
    (xs : List (Opd S U R)) : Act σ (OpResult S U R) := fun s =>
  match xs with
  | a :: b :: d :: _ => (f a b d, s)
  | _ => (.error (.py "IndexError"), s)

/-- A string result. -/
def textResult (t : List Char) : Except Raise (OpResult S U R) := .ok { value := .sc (T.ofText t) }

/-- A truth value as result. -/
def boolResult (b : Bool) : Except Raise (OpResult S U R) := .ok { value := .sc (T.ofBool b) }

/-- An integer as result, `Number(n)`. -/
def intResult (z : ℤ) : Except Raise (OpResult S U R) := do
  let n ← liftErr (Number.ofInt p z)
  return { value := .sc (T.ofNum n) }

/-- The declaration of an operation of `n` strings. -/
def textsOp (name : String) (n : ℕ) (ref : List (Opd S U R) → Act σ (OpResult S U R)) :
    Operation S U R σ where
  name := name
  minParams := some n
  maxParams := some n
  values := [⟨0, none, [.ty "string"]⟩]
  units := []
  ref := ref

/-- `+$` (`strings.py:37-44`, `82-83`). -/
def opAppend : Operation S U R σ :=
  textsOp "operator +$" 2 (two (fun a b => do
    let s ← string T a.value
    let t ← string T b.value
    textResult T (s ++ t)))

/-- `*$` (`strings.py:45-53`, `85-86`). -/
def opRepeat : Operation S U R σ where
  name := "operator *$"
  minParams := some 2
  maxParams := some 2
  values := [⟨0, some 0, [.ty "string"]⟩, ⟨1, some 1, [.ty "number"]⟩]
  units := []
  ref := two (fun a b => do
    let s ← string T a.value
    let n ← numberOf T.num? b
    textResult T (repeated s (n.toInt p)))

/-- `length` (`stringfunctions.py:30-38`, `121-122`). -/
def opLength : Operation S U R σ :=
  textsOp "length" 1 (one (fun a => do
    let s ← string T a.value
    intResult T p s.length))

/-- `lower` (`stringfunctions.py:40-48`, `124-125`). -/
def opLower : Operation S U R σ :=
  textsOp "lower" 1 (one (fun a => do
    let s ← string T a.value
    textResult T (T.lower s)))

/-- `upper` (`stringfunctions.py:50-58`, `127-128`). -/
def opUpper : Operation S U R σ :=
  textsOp "upper" 1 (one (fun a => do
    let s ← string T a.value
    textResult T (T.upper s)))

/-- `lstrip` (`stringfunctions.py:60-68`, `130-131`).  The second value is used as it is: if it
is not a string, `str.lstrip` raises. -/
def opLstrip : Operation S U R σ :=
  textsOp "lstrip" 2 (two (fun a b => do
    let s ← string T a.value
    match rawText T b.value with
    | some t => textResult T (lstrip t s)
    | none => .error (.py "TypeError")))

/-- `rstrip` (`stringfunctions.py:70-78`, `133-134`). -/
def opRstrip : Operation S U R σ :=
  textsOp "rstrip" 2 (two (fun a b => do
    let s ← string T a.value
    let t ← string T b.value
    textResult T (rstrip t s)))

/-- `strip` (`stringfunctions.py:80-88`, `136-137`). -/
def opStrip : Operation S U R σ :=
  textsOp "strip" 2 (two (fun a b => do
    let s ← string T a.value
    let t ← string T b.value
    textResult T (strip t s)))

/-- `find` (`stringfunctions.py:90-98`, `139-140`). -/
def opFind : Operation S U R σ :=
  textsOp "find" 2 (two (fun a b => do
    let s ← string T a.value
    let t ← string T b.value
    intResult T p (match find t s with | some k => k | none => -1)))

/-- `replace` (`stringfunctions.py:100-108`, `142-143`). -/
def opReplace : Operation S U R σ :=
  textsOp "replace" 3 (three (fun a b d => do
    let s ← string T a.value
    let t ← string T b.value
    let u ← string T d.value
    textResult T (replace t u s)))

/-- `substr` (`stringfunctions.py:110-119`, `145-155`).  `len(vals[0])` (line 152) raises if
the first value is not a string (a `Number` has no length). -/
def opSubstr : Operation S U R σ where
  name := "substr"
  minParams := some 2
  maxParams := some 3
  values := [⟨0, some 0, [.ty "string"]⟩, ⟨1, some 2, [.ty "number"]⟩]
  units := []
  ref := fun xs s =>
    match xs with
    | [a, b] => (do
      let start ← numberOf T.num? b
      let t ← string T a.value
      textResult T (sliceFrom t (start.toInt p)), s)
    | [a, b, d] => (do
      let start ← numberOf T.num? b
      let e ← numberOf T.num? d
      let stop := e.toInt p + 1
      let stop ← (if stop ≤ 0 then
          match rawText T a.value with
          | some t => .ok (stop + t.length)
          | none => .error (.py "TypeError")
        else .ok stop : Except Raise ℤ)
      let t ← string T a.value
      textResult T (slice t (start.toInt p) stop), s)
    | _ => (.error (.calc "substr needs either 2 or 3 arguments"), s)

/-! ## Splitting and joining -/

/-- `split` (`stringarrayfunctions.py:30-38`, `51-55`). -/
def opSplit : Operation S U R σ :=
  textsOp "split" 2 (two (fun a b => do
    let s ← string T a.value
    let t ← string T b.value
    let parts ← split t s
    return { value := .arr (parts.map (fun q => Opd.pure (.sc (T.ofText q)))) }))

/-- `[string(v.value) for v in vals[0]]` (`stringarrayfunctions.py:61`). -/
def strings : List (Opd S U R) → Except Raise (List (List Char))
  | [] => .ok []
  | x :: xs => do
    let t ← string T x.value
    let ts ← strings xs
    return t :: ts

/-- `join` (`stringarrayfunctions.py:40-49`, `57-62`).  The delimiter is used as it is: if it
is not a string, it has no method `join`. -/
def opJoin : Operation S U R σ where
  name := "join"
  minParams := some 1
  maxParams := some 2
  values := [⟨0, some 0, [.sub "array" "string"]⟩, ⟨1, some 1, [.ty "string"]⟩]
  units := []
  ref := fun xs s => (do
    let a ← arrayAt xs 0
    let parts ← strings T a
    match xs[1]? with
    | none => textResult T (join [] parts)
    | some d =>
      match rawText T d.value with
      | some t => textResult T (join t parts)
      | none => .error (.py "AttributeError"), s)

/-! ## Comparison -/

/-- The declaration of a comparison (`stringcomparison.py:27-123`) of the texts, changed by
`f`. -/
def compareOp (name : String) (f : List Char → List Char) (test : List Char → List Char → Bool) :
    Operation S U R σ :=
  textsOp name 2 (two (fun a b => do
    let s ← string T a.value
    let t ← string T b.value
    boolResult T (test (f s) (f t))))

/-- `<$` (`stringcomparison.py:27-34`, `125-126`). -/
def opLess : Operation S U R σ := compareOp T "operator <$" id less
/-- `>$` (`stringcomparison.py:35-42`, `128-129`). -/
def opMore : Operation S U R σ := compareOp T "operator >$" id (fun s t => less t s)
/-- `<=$` (`stringcomparison.py:43-50`, `131-132`). -/
def opLessEq : Operation S U R σ := compareOp T "operator <=$" id (fun s t => !less t s)
/-- `>=$` (`stringcomparison.py:51-58`, `134-135`). -/
def opMoreEq : Operation S U R σ := compareOp T "operator >=$" id (fun s t => !less s t)
/-- `==$` (`stringcomparison.py:59-66`, `137-138`). -/
def opEqual : Operation S U R σ := compareOp T "operator ==$" id (fun s t => s == t)
/-- `!=$` (`stringcomparison.py:67-74`, `140-141`). -/
def opUnequal : Operation S U R σ := compareOp T "operator !=$" id (fun s t => s != t)
/-- `<~` (`stringcomparison.py:76-83`, `143-144`). -/
def opLessNc : Operation S U R σ := compareOp T "operator <~" T.lower less
/-- `>~` (`stringcomparison.py:84-91`, `146-147`). -/
def opMoreNc : Operation S U R σ := compareOp T "operator >~" T.lower (fun s t => less t s)
/-- `<=~` (`stringcomparison.py:92-99`, `149-150`). -/
def opLessEqNc : Operation S U R σ := compareOp T "operator <=~" T.lower (fun s t => !less t s)
/-- `>=~` (`stringcomparison.py:100-107`, `152-153`). -/
def opMoreEqNc : Operation S U R σ := compareOp T "operator >=~" T.lower (fun s t => !less s t)
/-- `==~` (`stringcomparison.py:108-115`, `155-156`). -/
def opEqualNc : Operation S U R σ := compareOp T "operator ==~" T.lower (fun s t => s == t)
/-- `!=~` (`stringcomparison.py:116-123`, `158-159`). -/
def opUnequalNc : Operation S U R σ := compareOp T "operator !=~" T.lower (fun s t => s != t)

/-! ## Regular expressions -/

/-- What is used of the module `re`; an invalid pattern raises `re.error`. -/
structure Regex (S : Type) where
  /-- `re.search(pattern, text) is not None`. -/
  search : List Char → List Char → Except Raise Bool
  /-- `re.findall(pattern, text)`: texts, or tuples of texts if the pattern has groups. -/
  findall : List Char → List Char → Except Raise (List S)
  /-- `re.split(pattern, text)`: texts, or `None` for groups that took no part. -/
  split : List Char → List Char → Except Raise (List S)
  /-- `re.subn(pattern, replacement, text, count)[0]`; `re.sub` is the case 0. -/
  sub : List Char → List Char → List Char → ℤ → Except Raise (List Char)

variable (re : Regex S)

/-- `=~` (`regex.py:33-40`, `93-94`). -/
def opRegex : Operation S U R σ :=
  textsOp "operator =~" 2 (two (fun a b => do
    let pat ← string T b.value
    let t ← string T a.value
    let r ← re.search pat t
    boolResult T r))

/-- `!~` (`regex.py:42-49`, `96-97`). -/
def opRegexNot : Operation S U R σ :=
  textsOp "operator !~" 2 (two (fun a b => do
    let pat ← string T b.value
    let t ← string T a.value
    let r ← re.search pat t
    boolResult T (!r)))

/-- `regexget` (`regex.py:51-60`, `99-105`). -/
def opRegexGet : Operation S U R σ where
  name := "regexget"
  minParams := some 2
  maxParams := some 3
  values := [⟨0, some 1, [.ty "string"]⟩, ⟨2, some 2, [.ty "number"]⟩]
  units := []
  ref := fun xs s =>
    match xs with
    | [a, b] => (do
      let pat ← string T b.value
      let t ← string T a.value
      let found ← re.findall pat t
      return { value := .arr (found.map (fun v => Opd.pure (.sc v))) }, s)
    | [a, b, d] => (do
      let pat ← string T b.value
      let t ← string T a.value
      let found ← re.findall pat t
      let n ← numberOf T.num? d
      let v ← pyIndex found (n.toInt p - 1)
      return { value := .sc v }, s)
    | _ => (.error (.py "IndexError"), s)

/-- `regexsplit` (`regex.py:62-70`, `107-110`). -/
def opRegexSplit : Operation S U R σ :=
  textsOp "regexsplit" 2 (two (fun a b => do
    let pat ← string T b.value
    let t ← string T a.value
    let found ← re.split pat t
    return { value := .arr (found.map (fun v => Opd.pure (.sc v))) }))

/-- `regexsub` (`regex.py:72-81`, `112-118`). -/
def opRegexSub : Operation S U R σ where
  name := "regexsub"
  minParams := some 3
  maxParams := some 4
  values := [⟨0, some 2, [.ty "string"]⟩, ⟨3, some 3, [.ty "number"]⟩]
  units := []
  ref := fun xs s =>
    match xs with
    | [a, b, d] => (do
      let pat ← string T b.value
      let new ← string T d.value
      let t ← string T a.value
      let r ← re.sub pat new t 0
      textResult T r, s)
    | [a, b, d, e] => (do
      let pat ← string T b.value
      let new ← string T d.value
      let t ← string T a.value
      let n ← numberOf T.num? e
      let r ← re.sub pat new t (n.toInt p)
      textResult T r, s)
    | _ => (.error (.calc "regexsub requires 3 or 4 arguments"), s)

/-- `regexcount` (`regex.py:83-91`, `120-121`). -/
def opRegexCount : Operation S U R σ where
  name := "regexcount"
  minParams := some 2
  maxParams := some 2
  values := [⟨0, some 1, [.ty "string"]⟩]
  units := []
  ref := two (fun a b => do
    let pat ← string T b.value
    let t ← string T a.value
    let found ← re.findall pat t
    intResult T p found.length)

end MC.Strings
