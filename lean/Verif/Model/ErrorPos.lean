import Verif.Model.Parse

/-!
# Model of the positions of execution errors

`Model/Engine.lean` keeps the number of items in an `ExecuteException`; here are the items.
-/

namespace MC.Parse

/-- The loop of `restore_non_functional_items` (`engine.py:305-322`) over the pairs of
`original_items` and `very_original_items`; `f` is `functional_items`. -/
def restoreLoop (truncated : Bool) (maxi : ℕ) : ℕ → List (Item × Item) → List Item
  | _, [] => []
  | f, (o, v) :: rest =>
    if f ≤ maxi then
      let a := if truncated && decide (f < maxi) then
          (if f + 1 < maxi then [v] else [o]) else []                          -- 312-316
      let f' := if o.functional then f + 1 else f                              -- 317-318
      let b := if !truncated && decide (f' ≤ maxi) then [v] else []            -- 319-320
      a ++ b ++ restoreLoop truncated maxi f' rest
    else []

/-- `restore_non_functional_items` (`engine.py:305-322`): `count` is `len(err.items)`. -/
def restoreItems (truncated : Bool) (count : ℕ) (original veryOriginal : List Item) : List Item :=
  restoreLoop truncated count 0 (original.zip veryOriginal)

/-- What `InnerExpressionItem.value` does to its item on an error in its items
(`innerexpressions.py:76-79`): the item gets the items of the error and the text up to it. -/
def truncateItem (k : Nest) (text : Text) (errItems : List Item) (next : Option Text) :
    Option Item :=
  (truncate text errItems next).map (fun t => .nest k t errItems)

/-- The position of an `ExecutionException` (`engine.py:76`, `exceptions.py:48-50`): the items of
the statements before, and those of the error. -/
def executionPos (expr : Text) (before : List (List Item)) (errItems : List Item)
    (next : Option Text) : Option ℕ :=
  findPos expr (before ++ [errItems]).flatten next

end MC.Parse
