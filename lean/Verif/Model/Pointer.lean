import Verif.Model.State
import Verif.Model.ArrayLit

/-!
# Model of inline functions, calls of function pointers, and array literals as operands

`features/structure/inlinefunctions.py` and `features/structure/functionpointers.py`, on the items of
`Model/Parse.lean`.  The value of an inline function is the function itself: `ofFunc` and `asFunc` turn
its items into a value and back.  Files (`externalfunctions.py`) are a parameter.

`depth` is how deep calls may be nested: a call that is nested deeper ends in Python's
`RecursionError`.  The code has no such number; where Python's limit of the stack is reached depends
on everything else on the stack too.
-/

namespace MC.State
open Parse (Text)

variable {S U K τ : Type}

/-- The values pointers can point to. -/
structure Pointers (S U τ : Type) where
  /-- `InlineFunctionItem.value` (`inlinefunctions.py:73-74`). -/
  ofFunc : List Parse.Item → S
  /-- `isinstance(ref, InlineFunctionItem)` (`inlinefunctions.py:119-120`), with `ref.items`. -/
  asFunc : S → Option (List Parse.Item)
  /-- `type(ref) == str` (`externalfunctions.py:40-41`), with what `handle`
  (`externalfunctions.py:44-102`) makes of the file. -/
  external : S → Option (Except Raise (Operation S U Ref (St S U τ)))

/-- The end of a statement (`inlinefunctions.py:152`). -/
def isTerminator : Parse.Item → Bool
  | .leaf .terminator _ => true
  | _ => false

/-- The statements of a body (`inlinefunctions.py:149-157`). -/
def splitStatements : List Parse.Item → List (List Parse.Item)
  | [] => [[]]
  | it :: its =>
    if isTerminator it then [] :: splitStatements its
    else match splitStatements its with
      | [] => [[it]]
      | a :: as => (it :: a) :: as

/-- The executions of the statements with functional items (`inlinefunctions.py:153-159`). -/
def bodyRuns (cfg : Config (Opd S U Ref) (St S U τ)) (av : Parse.Item → Act (St S U τ) (Opd S U Ref))
    (items : List Parse.Item) : List (Act (St S U τ) (Opd S U Ref)) :=
  ((splitStatements items).filter (fun its => its.any Parse.Item.functional)).map
    (fun its => executeNodes cfg av (toNodes its))

/-- `InlineFunctionsPointerHandler.handle` (`inlinefunctions.py:123-137`). -/
def inlineFunc (cfg : Config (Opd S U Ref) (St S U τ)) (av : Parse.Item → Act (St S U τ) (Opd S U Ref))
    (items : List Parse.Item) : Operation S U Ref (St S U τ) :=
  userFunc "inline function" [] [] (doInline (bodyRuns cfg av items))

/-- The loop over the handlers for one reference (`functionpointers.py:128-141`): inline functions
first, then files.  The message does not name the reference here. -/
def callRef (cfg : Config (Opd S U Ref) (St S U τ)) (c : Calc S U Ref K) (P : Pointers S U τ)
    (av : Parse.Item → Act (St S U τ) (Opd S U Ref)) (ref : Val S U Ref) (inputs : List (Opd S U Ref)) :
    Act (St S U τ) (Opd S U Ref) := fun s =>
  let nobody : Except Raise (Opd S U Ref) × St S U τ :=
    (.error (.exec ⟨"No function pointer handler found", 1, true⟩), s)
  let run (op : Operation S U Ref (St S U τ)) : Except Raise (Opd S U Ref) × St S U τ :=
    match call c op inputs s with
    | (.error e, s') => (.error (rewrap e), s')
    | r => r
  match ref with
  | .sc x =>
    match P.asFunc x with
    | some items => run (inlineFunc cfg av items)
    | none =>
      match P.external x with
      | some (.ok op) => run op
      | some (.error e) => (.error (rewrap e), s)
      | none => nobody
  | _ => nobody

/-- The loop over the references (`functionpointers.py:127-141`). -/
def callRefs (cfg : Config (Opd S U Ref) (St S U τ)) (c : Calc S U Ref K) (P : Pointers S U τ)
    (av : Parse.Item → Act (St S U τ) (Opd S U Ref)) (inputs : List (Opd S U Ref)) :
    List (Val S U Ref) → Act (St S U τ) (List (Opd S U Ref))
  | [], s => (.ok [], s)
  | r :: rs, s =>
    match callRef cfg c P av r inputs s with
    | (.error e, s') => (.error e, s')
    | (.ok v, s') =>
      match callRefs cfg c P av inputs rs s' with
      | (.error e, s'') => (.error e, s'')
      | (.ok vs, s'') => (.ok (v :: vs), s'')

/-- `FunctionPointerItem.value` (`functionpointers.py:91-145`). -/
def pointerVal (cfg : Config (Opd S U Ref) (St S U τ)) (c : Calc S U Ref K) (P : Pointers S U τ)
    (av : Parse.Item → Act (St S U τ) (Opd S U Ref)) (name : String) (args : List (List (Node Parse.Item))) :
    Act (St S U τ) (Opd S U Ref) := fun s =>
  match s.vars name with
  | none => (.error (.exec ⟨"Variable " ++ name ++ " not found", 1, true⟩), s)
  | some (ref, _) =>
    match argVals cfg false (Node.runs cfg av args) s with
    | (.error e, s') => (.error e, s')
    | (.ok inputs, s') =>
      match ref with
      | .arr rs =>
        match callRefs cfg c P av inputs (rs.map OpdF.value) s' with
        | (.error e, s'') => (.error e, s'')
        | (.ok vs, s'') => (.ok (Opd.pure (.arr vs)), s'')
      | v => callRef cfg c P av v inputs s'

/-- The name of the variable (`functionpointers.py:50-55`): the first item without `@`. -/
def pointerName : List Parse.Item → String
  | .leaf .funcName w :: _ => String.ofList w.tail
  | _ => ""

/-- The values of operands: inline functions, calls of function pointers, arrays, and others. -/
def operandVal (cfg : Config (Opd S U Ref) (St S U τ)) (c : Calc S U Ref K) (P : Pointers S U τ) (A : RangeCfg S U)
    (others : Parse.Item → Act (St S U τ) (Opd S U Ref)) :
    ℕ → Parse.Item → Act (St S U τ) (Opd S U Ref)
  | _, .nest .inline _ its => fun s => (.ok ⟨.sc (P.ofFunc its), none, none, none⟩, s)
  | 0, .nest .pointer _ _ => fun s => (.error (.py "RecursionError"), s)
  | depth + 1, .nest .pointer _ its =>
    pointerVal cfg c P (operandVal cfg c P A others depth) (pointerName its)
      ((toArgs its).filter (fun a => !a.isEmpty))
  | 0, .nest .array _ _ => fun s => (.error (.py "RecursionError"), s)
  | depth + 1, .nest .array _ its => arrayVal cfg A (operandVal cfg c P A others depth) its
  | _, it => others it

end MC.State
