import Verif.Model.Range
import Verif.Model.Operation
import Verif.Model.Text

/-!
# Model of the value of an array literal: `ArrayItem.value` in `features/arrays/arrays.py`

The code keeps a list `elements` beside the items of the array (`arrays.py:65-95`); here it is read off the
items: elements are separated by commas, and inside an element `..` and `step` separate its parts.  A step
without items counts as no step (`arrays.py:88-90`).

`fuel` bounds the length of a range.  The code has no such number: a range that is too long, or does not
end, ends in Python's `MemoryError`.
-/

namespace MC
open Range

/-- `ArrayElement` (`arrays.py:204-209`). -/
structure ElementItems where
  start : List Parse.Item
  stop : Option (List Parse.Item)
  step : Option (List Parse.Item)

/-- The brackets (`arrays.py:59`, `112`). -/
def isArrBracket : Parse.Item → Bool
  | .leaf .arrStart _ => true
  | .leaf .arrEnd _ => true
  | _ => false

/-- The kind of an item that is not a value in brackets. -/
def hasKind (k : Parse.Kind) : Parse.Item → Bool
  | .leaf k' _ => k' = k
  | _ => false

/-- The items between the items of a kind. -/
def splitAtKind (k : Parse.Kind) : List Parse.Item → List (List Parse.Item)
  | [] => [[]]
  | it :: its =>
    if hasKind k it then [] :: splitAtKind k its
    else match splitAtKind k its with
      | [] => [[it]]
      | a :: as => (it :: a) :: as

/-- The parts of an element (`arrays.py:65-90`). -/
def elementItems (its : List Parse.Item) : ElementItems :=
  match splitAtKind .arrRange its with
  | start :: rest :: _ =>
    match splitAtKind .arrStep rest with
    | stop :: step :: _ => ⟨start, some stop, if step = [] then none else some step⟩
    | [stop] => ⟨start, some stop, none⟩
    | [] => ⟨start, some [], none⟩
  | _ => ⟨its, none, none⟩

/-- The elements of an array (`arrays.py:60-95`). -/
def arrayElements (its : List Parse.Item) : List ElementItems :=
  (splitAtKind .arrParam (its.filter (fun it => !isArrBracket it))).map elementItems

variable {S U R σ : Type}

/-- What ranges look at and make. -/
structure RangeCfg (S U : Type) where
  p : ℕ
  fuel : ℕ
  /-- `isinstance(value, Number)` -/
  num? : S → Option Number
  /-- `validate_number` accepts the value, but it is no `Number` -/
  castable : S → Bool
  /-- a number with the `number_cast` of another (`Number.__add__`, `number.py:99-101`) -/
  like : S → Number → S
  /-- `normalise_inputs` (`arrays.py:249-251`) -/
  conv : Number × U → Number × U → Except Raise Number

/-- An operand as ranges see it. -/
def RangeCfg.view (A : RangeCfg S U) (x : Opd S U R) : RRes U :=
  ⟨match x.value with
    | .sc w =>
      match A.num? w with
      | some n => .num n
      | none => if A.castable w then .castable else .other
    | .exc (.exec e) => .err e
    | _ => .other, x.unit⟩

/-- `OperandResult(n, unit, None)` (`arrays.py:256-260`): a number of the type of the start.  A range has
numbers only, and its start is one. -/
def RangeCfg.back (A : RangeCfg S U) (start : Except Raise (Opd S U R)) (r : RRes U) : Opd S U R :=
  match start, r.value with
  | .ok ⟨.sc w, _, _, _⟩, .num n => ⟨.sc (A.like w n), r.unit, none, none⟩
  | _, _ => ⟨.arr [], none, none, none⟩

/-- An action with its result as ranges see it. -/
def RangeCfg.seen (A : RangeCfg S U) (run : Act σ (Opd S U R)) : Act σ (RRes U) := fun s =>
  match run s with
  | (.ok x, s') => (.ok (A.view x), s')
  | (.error e, s') => (.error e, s')

/-- `ArrayElement.value` (`arrays.py:211-261`); `run` is `execute`. -/
def elementRun (A : RangeCfg S U) (run : List Parse.Item → Act σ (Opd S U R)) (e : ElementItems) :
    Act σ (List (Opd S U R)) := fun s =>
  match e.stop with
  | none =>
    match run e.start s with
    | (.error r, s') => (.error r, s')
    | (.ok x, s') =>
      match x.value with
      | .exc (.exec r) => (.error (.exec r), s')
      | _ => (.ok [x], s')
  | some stop =>
    match elementValue A.p A.conv A.fuel (A.seen (run e.start)) (some (A.seen (run stop)))
        (e.step.map (fun step => A.seen (run step))) s with
    | none => (.error (.py "MemoryError"), s)
    | some (.error r, s') => (.error r, s')
    | some (.ok l, s') => (.ok (l.map (A.back (run e.start s).1)), s')

/-- The loop over the elements (`arrays.py:184-195`). -/
def elementsRun (A : RangeCfg S U) (run : List Parse.Item → Act σ (Opd S U R)) :
    List ElementItems → Act σ (List (Opd S U R))
  | [], s => (.ok [], s)
  | e :: es, s =>
    match elementRun A run e s with
    | (.error r, s') => (.error (rewrap r), s')
    | (.ok xs, s') =>
      match elementsRun A run es s' with
      | (.error r, s'') => (.error r, s'')
      | (.ok ys, s'') => (.ok (xs ++ ys), s'')

/-- `ArrayItem.value` (`arrays.py:179-195`). -/
def arrayVal (cfg : Config (Opd S U R) σ) (A : RangeCfg S U) (av : Parse.Item → Act σ (Opd S U R))
    (its : List Parse.Item) : Act σ (Opd S U R) := fun s =>
  match elementsRun A (fun its => executeNodes cfg av (toNodes its)) (arrayElements its) s with
  | (.error r, s') => (.error r, s')
  | (.ok xs, s') => (.ok (Opd.pure (.arr xs)), s')

end MC
