import Verif.Model.Engine
import Verif.Model.Parse

/-!
# Model of `calculate` on a text: `engine.py:41-89`

The items the parser makes (`Model/Parse.lean`) are handed to the engine (`Model/Engine.lean`).
Inline functions, function pointers and arrays are operands with a value of their own here.
-/

namespace MC

open Parse (Kind Text Cache Fail)

/-- The comma between arguments (`functions.py:60`). -/
def isComma : Parse.Item → Bool
  | .leaf .funcParam _ => true
  | _ => false

/-- The name, the opening and the closing bracket of a call (`functions.py:48`, `58`). -/
def isCallPart : Parse.Item → Bool
  | .leaf .funcName _ => true
  | .leaf .funcStart _ => true
  | .leaf .funcEnd _ => true
  | _ => false

/-- The name of a call (`functions.py:48`, `67`): its first item. -/
def callNameOf : List Parse.Item → String
  | .leaf .funcName w :: _ => String.ofList w
  | _ => ""

mutual
/-- An item of the parser for the engine: operators (`items.py:59-77`), brackets
(`innerexpressions.py:58-79`), calls (`functions.py:90-130`), items that do nothing
(`items.py:138-151`), and other operands. -/
def toNode : Parse.Item → Node Parse.Item
  | .leaf .op t => .op (String.ofList t)
  | .nest .inner _ its => .inner (toNodes its)
  | .nest .func _ its => parsedFunc (callNameOf its) (toArgs its)
  | it => if it.functional then .atom it else .skip (String.ofList it.text)
/-- The items of a statement. -/
def toNodes : List Parse.Item → List (Node Parse.Item)
  | [] => []
  | it :: its => toNode it :: toNodes its
/-- The items between the commas of a call (`functions.py:50-60`). -/
def toArgs : List Parse.Item → List (List (Node Parse.Item))
  | [] => [[]]
  | it :: its =>
    if isComma it then [] :: toArgs its
    else if isCallPart it then toArgs its
    else match toArgs its with
      | [] => [[toNode it]]
      | a :: as => (toNode it :: a) :: as
end

/-- How `calculate` ends on a text: with a `ParsingException` (or an exception of Python while
parsing), or after running statements. -/
inductive Run (V σ : Type) where
  | unread (e : Fail)
  | ran (results : List (StmtResult V σ)) (how : Outcome)

variable {V σ : Type} (pc : Parse.Cfg) (cfg : Config V σ) (atomVal : Parse.Item → Act σ V)
  (finalize : V → Act σ V)

/-- `calculate` (`engine.py:41-89`) with parsers nested at most `fuel` deep; `m` is what the parsers
remember.  `none`: `fuel` was too small. -/
def calculateText (fuel : ℕ) (text : Text) (m : Cache) (s : σ) :
    Option (Run V σ × Cache × σ) :=
  if text = [] then some (.ran [] .done, m, s)
  else
    match Parse.parse pc fuel {} text m with
    | none => none
    | some (.error e, m') => some (.unread e, m', s)
    | some (.ok (statements, _, _), m') =>
      let r := calculate cfg atomVal finalize 0 (statements.map toNodes) s
      some (.ran r.1 r.2.1, m', r.2.2)

end MC
