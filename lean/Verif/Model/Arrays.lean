import Verif.Model.Boolean
import Verif.Model.Number

/-!
# Model of `features/arrays/arrayfunctions.py` and `features/numerical/statisticalfunctions.py`

Numbers are among the scalars: `num?` recognises them (`isinstance(x, Number)`), `ofNum` makes
them (without a number type).  `sorted` is a stable sort, `min` and `max` return the first
extreme element, `statistics.mean` divides the exact sum by the length with one rounding,
`statistics.median` takes the middle of the sorted values or half the sum of the two middle
ones, `statistics.mode` the first value that occurs most often: this is the documented
behaviour of Python's library.  `stdev` is in
`Model/Stdev.lean`.
-/

namespace MC.Arrays

variable {S U R K σ : Type}

/-- `validate_array` (`arrays.py:156-163`). -/
def validateArray (c : Calc S U R K) (x : Opd S U R) (sub : Option String) : Except Raise Bool :=
  match x.value with
  | .arr els =>
    match sub with
    | none => .ok true
    | some t => go t els
  | _ => .ok false
where
  /-- The loop over the elements (`arrays.py:160-162`). -/
  go (t : String) : List (Opd S U R) → Except Raise Bool
    | [] => .ok true
    | e :: es =>
      match c.validator t with
      | none => .ok false
      | some v =>
        match v e none with
        | .error r => .error r
        | .ok false => .ok false
        | .ok true => go t es

/-- `validate_number` (`numericalengine.py:51-56`). -/
def validateNumber (c : Calc S U R K) (x : Opd S U R) (_ : Option String) : Except Raise Bool :=
  .ok (asNumber c x.value).isSome

/-- `vals[i]` when it is a list; anything else was excluded by the validation. -/
def arrayAt (xs : List (Opd S U R)) (i : ℕ) : Except Raise (List (Opd S U R)) :=
  match xs[i]? with
  | some x =>
    match x.value with
    | .arr els => .ok els
    | _ => .error (.py "TypeError")
  | none => .error (.py "IndexError")

/-- An implementation without effects on the calculator. -/
def pureRef (f : List (Opd S U R) → Except Raise (OpResult S U R)) (xs : List (Opd S U R)) :
    Act σ (OpResult S U R) := fun s => (f xs, s)

/-- `concat` (`arrayfunctions.py:29-37`, `92-94`). -/
def opConcat : Operation S U R σ where
  name := "concat"
  minParams := some 2
  maxParams := some 2
  values := [⟨0, none, [.ty "array"]⟩]
  units := []
  ref := pureRef (fun xs => do
    let a ← arrayAt xs 0
    let b ← arrayAt xs 1
    return { value := .arr (a ++ b) })

/-- Python's `array[index]`: negative indices count from the end. -/
def pyIndex {α : Type} (l : List α) (i : ℤ) : Except Raise α :=
  match (if 0 ≤ i then l[i.toNat]? else
      if 0 ≤ i + l.length then l[(i + l.length).toNat]? else none) with
  | some x => .ok x
  | none => .error (.py "IndexError")

variable (p : ℕ) (num? : S → Option Number) (ofNum : Number → S)

/-- The number an operand holds; anything else was excluded by the validation and the
conversion before. -/
def numberOf (x : Opd S U R) : Except Raise Number :=
  match x.value with
  | .sc v =>
    match num? v with
    | some n => .ok n
    | none => .error (.py "AttributeError")
  | _ => .error (.py "AttributeError")

/-- `element` (`arrayfunctions.py:39-48`, `96-103`). -/
def opElement : Operation S U R σ where
  name := "element"
  minParams := some 2
  maxParams := some 2
  values := [⟨0, some 0, [.ty "array"]⟩, ⟨1, some 1, [.ty "number"]⟩]
  units := []
  ref := pureRef (fun xs => do
    let a ← arrayAt xs 0
    let n ← (match xs[1]? with
      | some x => numberOf num? x
      | none => .error (.py "IndexError"))
    let e ← pyIndex a (n.toInt p - 1)
    return { value := e.value, unit := some e.unit, ref := some e.ref })

/-- The loop of `filter` (`arrayfunctions.py:107-109`) from index `i` on. -/
def filterLoop (asBool : S → Option Bool) (els : List (Opd S U R)) :
    ℕ → List (Opd S U R) → Except Raise (List (Opd S U R))
  | _, [] => .ok []
  | i, f :: fs => do
    let b ← (match f.value with
      | .sc v =>
        match asBool v with
        | some b => .ok b
        | none => .error (.py "not a boolean")
      | _ => .error (.py "not a boolean") : Except Raise Bool)
    if b then
      let e ← pyIndex els (i : ℤ)
      let r ← filterLoop asBool els (i + 1) fs
      return e :: r
    else filterLoop asBool els (i + 1) fs

/-- `filter` (`arrayfunctions.py:50-59`, `105-111`). -/
def opFilter (asBool : S → Option Bool) : Operation S U R σ where
  name := "filter"
  minParams := some 2
  maxParams := some 2
  values := [⟨0, some 0, [.ty "array"]⟩, ⟨1, some 1, [.sub "array" "boolean"]⟩]
  units := []
  ref := pureRef (fun xs => do
    let a ← arrayAt xs 0
    let fs ← arrayAt xs 1
    let r ← filterLoop asBool a 0 fs
    return { value := .arr r })

/-- Errors of number arithmetic as raised exceptions. -/
def liftErr {α : Type} : Except Err α → Except Raise α
  | .ok x => .ok x
  | .error (.py m) => .error (.py m)
  | .error (.calc m) => .error (.calc m)
  | .error (.exec m) => .error (.calc m)

/-- `count` (`arrayfunctions.py:61-69`, `113-115`). -/
def opCount : Operation S U R σ where
  name := "count"
  minParams := some 1
  maxParams := some 1
  values := [⟨0, none, [.ty "array"]⟩]
  units := []
  ref := pureRef (fun xs => do
    let a ← arrayAt xs 0
    let n ← liftErr (Number.ofInt p a.length)
    return { value := .sc (ofNum n) })

/-- `reverse` (`arrayfunctions.py:81-89`, `123-127`). -/
def opReverse : Operation S U R σ where
  name := "reverse"
  minParams := some 1
  maxParams := some 1
  values := [⟨0, none, [.ty "array"]⟩]
  units := []
  ref := pureRef (fun xs => do
    let a ← arrayAt xs 0
    return { value := .arr a.reverse })

/-- The elements with their numbers. -/
def keyed : List (Opd S U R) → Except Raise (List (Opd S U R × Number))
  | [] => .ok []
  | x :: xs => do
    let n ← numberOf num? x
    let r ← keyed xs
    return (x, n) :: r

/-- The declaration of the functions of one array of numbers
(`arrayfunctions.py:71-79`, `statisticalfunctions.py:31-99`). -/
def numbersOp (name : String)
    (f : List (Opd S U R × Number) → Except Raise (OpResult S U R)) : Operation S U R σ where
  name := name
  minParams := some 1
  maxParams := some 1
  values := [⟨0, none, [.sub "array" "number"]⟩]
  units := []
  ref := pureRef (fun xs => do
    let a ← arrayAt xs 0
    let ks ← keyed num? a
    f ks)

/-- `sort` (`arrayfunctions.py:71-79`, `117-121`). -/
def opSort : Operation S U R σ :=
  numbersOp num? "sort" (fun ks =>
    .ok { value := .arr ((ks.mergeSort (fun a b => !b.2.lt p a.2)).map (·.1)), unit := some none })

/-- `sum` (`statisticalfunctions.py:31-39`, `102-107`). -/
def sumLoop : Number → List Number → Except Err Number
  | t, [] => .ok t
  | t, n :: ns => do sumLoop (← t.add p n) ns

/-- `sum` (`statisticalfunctions.py:31-39`, `102-107`). -/
def opSum : Operation S U R σ :=
  numbersOp num? "sum" (fun ks => do
    let t ← liftErr (do sumLoop p (← Number.ofInt p 0) (ks.map (·.2)))
    return { value := .sc (ofNum t) })

/-- Python's `min(..., key=...)` / `max`: keep the first element that none beats. -/
def extreme {α : Type} (beats : α → α → Bool) : List α → Option α
  | [] => none
  | x :: xs => some (xs.foldl (fun best y => if beats y best then y else best) x)

/-- The result of `min` and `max`: the element as it was before normalising
(`statisticalfunctions.py:111-114`). -/
def elementResult (e : Option (Opd S U R × Number)) : Except Raise (OpResult S U R) :=
  match e with
  | none => .error (.py "ValueError")
  | some (x, _) =>
    match x.orig with
    | some (v, u) => .ok { value := v, unit := some u, ref := some x.ref }
    | none => .error (.py "AttributeError")

/-- `min` (`statisticalfunctions.py:41-49`, `109-114`). -/
def opMin : Operation S U R σ :=
  numbersOp num? "min" (fun ks => elementResult (extreme (fun a b => a.2.lt p b.2) ks))

/-- `max` (`statisticalfunctions.py:51-59`, `116-121`). -/
def opMax : Operation S U R σ :=
  numbersOp num? "max" (fun ks => elementResult (extreme (fun a b => a.2.gt p b.2) ks))

/-- A statistic of the decimal values, as a number. -/
def statOp (name : String) (f : List ℚ → Option ℚ) : Operation S U R σ :=
  numbersOp num? name (fun ks =>
    match f (ks.map (fun k => k.2.toDecimal p)) with
    | none => .error (.py "StatisticsError")
    | some q => do
      let n ← liftErr (Number.mk' p q 1)
      return { value := .sc (ofNum n) })

/-- `statistics.mean`. -/
def mean (l : List ℚ) : Option ℚ := if l = [] then none else some (rnd p (l.sum / l.length))

/-- `mean` (`statisticalfunctions.py:61-69`, `123-125`). -/
def opMean : Operation S U R σ := statOp p num? ofNum "mean" (mean p)

/-- `statistics.median`; decimal arithmetic rounds the sum and the half. -/
def median (l : List ℚ) : Option ℚ :=
  let d := l.mergeSort (fun a b => decide (a ≤ b))
  let n := l.length
  if n = 0 then none
  else if n % 2 = 1 then d[n / 2]?
  else
    match d[n / 2 - 1]?, d[n / 2]? with
    | some a, some b => some (rnd p (rnd p (a + b) / 2))
    | _, _ => none

/-- `median` (`statisticalfunctions.py:71-79`, `127-129`). -/
def opMedian : Operation S U R σ := statOp p num? ofNum "median" (median p)

/-- `statistics.mode`. -/
def mode (l : List ℚ) : Option ℚ :=
  extreme (fun a b => decide (l.count b < l.count a)) l

/-- `mode` (`statisticalfunctions.py:81-89`, `131-133`). -/
def opMode : Operation S U R σ := statOp p num? ofNum "mode" mode

end MC.Arrays
