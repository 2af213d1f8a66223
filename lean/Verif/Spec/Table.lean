import Mathlib.Data.List.Basic

/-!
# Specification of the operator table and of the list of parsers
-/

namespace MC.Spec

/-- The layout restricted to some symbols: rows without any are left out. -/
def restrict (layout : List (List String)) (added : List String) : List (List String) :=
  (layout.map (fun row => row.filter (fun s => decide (s ∈ added)))).filter (fun r => r ≠ [])

/-- The definition given last for a name. -/
def lastFor {D : Type} (name : String) (adds : List (String × D)) : Option D :=
  ((adds.filter (fun e => e.1 = name)).map Prod.snd).getLast?

end MC.Spec
