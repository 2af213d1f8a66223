import Verif.Spec.Functions
import Verif.Spec.Range
import Verif.Spec.Stats

/-!
# What arrays mean

An array is a list of numbers, truth values, texts and functions.  `[a, b]` lists its elements, `[a..b]` and
`[a..b step s]` are arithmetic progressions.  Operators, the functions of arithmetic and the functions
written in a program are applied to the elements one by one, and what is not a list takes part in every
row.  A list of functions is called function by function.  The functions for arrays take lists as they are.
-/

namespace MC.Spec
open MC.Parse (Kind Text)

/-- A number, a truth value, a text or a function, or a list of them. -/
inductive Datum where
  | one (v : Thing)
  | list (vs : List Thing)

/-- The length of a list. -/
def Datum.length? : Datum → Option ℕ
  | .one _ => none
  | .list vs => some vs.length

/-- What takes part in row `i`. -/
def Datum.pick (i : ℕ) : Datum → Option Thing
  | .one v => some v
  | .list vs => vs[i]?

/-- Row `i`. -/
def rowAt (i : ℕ) (ds : List Datum) : List Thing := ds.filterMap (Datum.pick i)

/-- The results of the rows, if there are results for all. -/
def rows (f : List Thing → Except String Thing) (ds : List Datum) : ℕ → Except String (List Thing)
  | 0 => .ok []
  | n + 1 =>
    match rows f ds n with
    | .error e => .error e
    | .ok vs => (f (rowAt n ds)).map (fun v => vs ++ [v])

/-- Row by row, if there are lists, and all lists are equally long. -/
def each (f : String → List Thing → Except String Thing) (o : String) (ds : List Datum) : Except String Datum :=
  match ds.filterMap Datum.length? with
  | [] => (f o (rowAt 0 ds)).map .one
  | n :: ns => if 0 < n ∧ ∀ m ∈ ns, m = n then (rows (f o) ds n).map .list else .error "lists of different lengths"

/-- No lists. -/
def noLists (f : String → List Thing → Except String Thing) (o : String) (ds : List Datum) : Except String Datum :=
  match ds.filterMap Datum.length? with
  | [] => (f o (rowAt 0 ds)).map .one
  | _ :: _ => .error "a list"

/-- The numbers of a list, if it contains nothing else. -/
def numbersIn : List Thing → Option (List ℚ)
  | [] => some []
  | .plain (.num q) :: vs => (numbersIn vs).map (q :: ·)
  | _ :: _ => none

/-- A common denominator. -/
def commonDen : List ℚ → ℕ
  | [] => 1
  | q :: qs => Nat.lcm q.den (commonDen qs)

/-- With their common denominator the numbers together have at most `k` digits. -/
def Fits (k : ℕ) (qs : List ℚ) : Prop :=
  ((qs.map (fun q : ℚ => |q * commonDen qs|)).sum + 1) * (commonDen qs : ℚ) < 10 ^ k

instance (k : ℕ) (qs : List ℚ) : Decidable (Fits k qs) := by unfold Fits; infer_instance

/-- A function of the numbers in a list. -/
def ofNumbers (k : ℕ) (vs : List Thing) (f : List ℚ → Except String Datum) : Except String Datum :=
  match numbersIn vs with
  | some qs => if Fits k qs then f qs else .error "too long"
  | none => .error "not numbers"

/-- A decimal number with at most `k` places. -/
def DecimalPlaces (k : ℕ) (q : ℚ) : Prop := q.den ∣ 10 ^ k

instance (k : ℕ) (q : ℚ) : Decidable (DecimalPlaces k q) := by unfold DecimalPlaces; infer_instance

/-- The middle of the numbers in order, or half the sum of the two in the middle. -/
def medianOf (qs : List ℚ) : Option ℚ :=
  let d := qs.mergeSort (fun a b => decide (a ≤ b))
  if qs.length % 2 = 1 then d[qs.length / 2]?
  else
    match d[qs.length / 2 - 1]?, d[qs.length / 2]? with
    | some a, some b => some ((a + b) / 2)
    | _, _ => none

/-- The first number that none outnumbers. -/
def modeOf (qs : List ℚ) : Option ℚ := qs.find? (fun q => qs.all (fun r => decide (qs.count r ≤ qs.count q)))

/-- A function of decimal numbers with at most `k` places. -/
def ofDecimals (k : ℕ) (vs : List Thing) (f : List ℚ → Option ℚ) : Except String Datum :=
  ofNumbers k vs (fun qs =>
    if ∀ q ∈ qs, DecimalPlaces k q then
      match f qs with
      | some m => .ok (.one (.plain (.num m)))
      | none => .error "no numbers"
    else .error "not decimal")

/-- The truth values of a list, if it contains nothing else. -/
def truthsIn : List Thing → Option (List Bool)
  | [] => some []
  | .plain (.truth b) :: vs => (truthsIn vs).map (b :: ·)
  | _ :: _ => none

/-- The texts of the elements of a list, if all have one. -/
def textsIn (k : ℕ) (decimal : Bool) (vs : List Thing) : Option (List Text) :=
  (allPlain vs).bind (textsOf k decimal)

/-- The functions. -/
def listFunctions (k : ℕ) (rounding : Bool) : String → List Datum → Except String Datum
  | "sum", [.list vs] => ofNumbers k vs (fun qs => .ok (.one (.plain (.num qs.sum))))
  | "min", [.list vs] => ofNumbers k vs (fun qs =>
    match qs.min? with
    | some m => .ok (.one (.plain (.num m)))
    | none => .error "no numbers")
  | "max", [.list vs] => ofNumbers k vs (fun qs =>
    match qs.max? with
    | some m => .ok (.one (.plain (.num m)))
    | none => .error "no numbers")
  | "sort", [.list vs] => ofNumbers k vs (fun qs =>
    .ok (.list ((qs.mergeSort (fun a b => decide (a ≤ b))).map (fun q => .plain (.num q)))))
  | "mean", [.list vs] => ofDecimals k vs (fun qs =>
    if qs ≠ [] ∧ DecimalPlaces k (meanOf qs) then some (meanOf qs) else none)
  | "median", [.list vs] => ofDecimals k vs medianOf
  | "mode", [.list vs] => ofDecimals k vs modeOf
  | "element", [.list vs, .one (.plain (.num q))] =>
    if q.den = 1 ∧ 1 ≤ q.num ∧ Short k q then
      match vs[q.num.toNat - 1]? with
      | some v => .ok (.one v)
      | none => .error "no such element"
    else .error "no such element"
  | "filter", [.list vs, .list ws] =>
    match truthsIn ws with
    | some bs =>
      if bs.length ≤ vs.length then .ok (.list (((vs.zip bs).filter (·.2)).map (·.1))) else .error "too many"
    | none => .error "not truth values"
  | "split", [.one (.plain v), .one (.plain w)] =>
    match textOf k rounding v, textOf k rounding w with
    | some t, some sep =>
      if sep = [] then .error "nothing" else .ok (.list ((pieces sep t).map (fun t => .plain (.text t))))
    | _, _ => .error "no text"
  | "join", [.list vs] =>
    match textsIn k rounding vs with
    | some ts => .ok (.one (.plain (.text ts.flatten)))
    | none => .error "no texts"
  | "join", [.list vs, .one (.plain (.text d))] =>
    match textsIn k rounding vs with
    | some ts => .ok (.one (.plain (.text (joined d ts))))
    | none => .error "no texts"
  | "count", [.list vs] => .ok (.one (.plain (.num vs.length)))
  | "reverse", [.list vs] => .ok (.list vs.reverse)
  | "concat", [.list vs, .list ws] => .ok (.list (vs ++ ws))
  | o, ds => each (lifted (schoolFunctions k rounding)) o ds

section
variable (p k room : ℕ) (rounding : Bool)

/-- What items mean where the operands mean `lit`. -/
def Tells (lit : Store Datum → Parse.Item → Datum → Prop) (env : Store Datum) : List Parse.Item → Datum → Prop :=
  Means (lit env) (each (thingOps k rounding)) (listFunctions k rounding)

/-- A number. -/
abbrev Datum.num (q : ℚ) : Datum := .one (.plain (.num q))

/-- The elements between two commas.  Ranges have at most `room` elements. -/
inductive ElementOf (mean : List Parse.Item → Datum → Prop) : List Parse.Item → List Thing → Prop
  | one {its v} : mean its (.one v) → ElementOf mean its [v]
  | range {its its' t a b l} : mean its (.num a) → mean its' (.num b) → Fits k [a, b] →
      IsRange a b (if b < a then -1 else 1) l → l.length ≤ room →
      ElementOf mean (its ++ .leaf .arrRange t :: its') (l.map (fun q => .plain (.num q)))
  | step {its its' its'' t t' a b s l} : mean its (.num a) → mean its' (.num b) → mean its'' (.num s) →
      Fits k [a, b, s] → s ≠ 0 → 0 ≤ (b - a) * s → IsRange a b s l → l.length ≤ room →
      ElementOf mean (its ++ .leaf .arrRange t :: (its' ++ .leaf .arrStep t' :: its''))
        (l.map (fun q => .plain (.num q)))

/-- The elements between the brackets. -/
inductive ElementsOf (mean : List Parse.Item → Datum → Prop) : List Parse.Item → List Thing → Prop
  | last {its vs} : ElementOf k room mean its vs → ElementsOf mean its vs
  | more {its t rest vs ws} : ElementOf k room mean its vs → ElementsOf mean rest ws →
      ElementsOf mean (its ++ .leaf .arrParam t :: rest) (vs ++ ws)

/-- The last answer of the lines of a function. -/
def Returns (inner : Store Datum → Parse.Item → Datum → Prop) (env : Store Datum) (body : List Parse.Item)
    (args : List Datum) (d : Datum) : Prop :=
  ∃ lines answers env', Splits body lines ∧
    LinesOf (Tells k rounding inner) (noLists (thingOps k rounding)) (.num 1) (params 1 args env) lines answers env' ∧
    (answers.filterMap id).getLast? = some d

/-- What an operand means.  `inner` is what operands mean in the elements of arrays, in arguments and in
the lines of functions that are called. -/
inductive Means1 (inner : Store Datum → Parse.Item → Datum → Prop) (env : Store Datum) :
    Parse.Item → Datum → Prop
  | word {kind t v} : Word p (fun _ => none) kind t v → Means1 inner env (.leaf kind t) (.one (.plain v))
  | var {x d} : env (String.ofList x) = some d → Means1 inner env (.leaf .var x) d
  | inline {t body} : Means1 inner env
      (.nest .inline t (.leaf .inlineStart ['{'] :: body ++ [.leaf .inlineEnd ['}']])) (.one (.func body))
  | array {t its vs} : ElementsOf k room (Tells k rounding inner env) its vs →
      Means1 inner env (.nest .array t (.leaf .arrStart ['['] :: its ++ [.leaf .arrEnd [']']])) (.list vs)
  | call {t f args ds body d} :
      ArgsMean (inner env) (each (thingOps k rounding)) (listFunctions k rounding) args ds →
      env (String.ofList f) = some (.one (.func body)) → ds.filterMap Datum.length? = [] →
      Returns k rounding inner env body ds d →
      Means1 inner env (.nest .pointer t (.leaf .funcName ('@' :: f) :: .leaf .funcStart ['('] :: args
        ++ [.leaf .funcEnd [')']])) d
  | calls {t f args ds body n ns vs} :
      ArgsMean (inner env) (each (thingOps k rounding)) (listFunctions k rounding) args ds →
      env (String.ofList f) = some (.one (.func body)) → ds.filterMap Datum.length? = n :: ns → (∀ m ∈ ns, m = n) →
      vs.length = n →
      (∀ i v, vs[i]? = some v → Returns k rounding inner env body ((rowAt i ds).map .one) (.one v)) →
      Means1 inner env (.nest .pointer t (.leaf .funcName ('@' :: f) :: .leaf .funcStart ['('] :: args
        ++ [.leaf .funcEnd [')']])) (.list vs)
  | family {t f args ds bodies vs} :
      ArgsMean (inner env) (each (thingOps k rounding)) (listFunctions k rounding) args ds →
      env (String.ofList f) = some (.list (bodies.map .func)) → ds.filterMap Datum.length? = [] →
      List.Forall₂ (fun body v => Returns k rounding inner env body ds (.one v)) bodies vs →
      Means1 inner env (.nest .pointer t (.leaf .funcName ('@' :: f) :: .leaf .funcStart ['('] :: args
        ++ [.leaf .funcEnd [')']])) (.list vs)

/-- What an operand means, with arrays and calls nested less than `d` deep. -/
def DatumAt : ℕ → Store Datum → Parse.Item → Datum → Prop
  | 0 => fun _ _ _ => False
  | d + 1 => Means1 p k room rounding (DatumAt d)

/-- What lines mean, with arrays and calls nested less than `d` deep. -/
abbrev ListLines (d : ℕ) :=
  LinesOf (Tells k rounding (DatumAt p k room rounding d)) (noLists (thingOps k rounding)) (.num 1)

end

end MC.Spec
