import Verif.Spec.UnitPhrase
import Verif.Spec.Meaning

/-!
# What an expression with units means

As `Verif/Spec/Meaning.lean`, with the grammar of `Verif/Spec/UnitPhrase.lean`.
-/

namespace MC.Spec
open MC.Parse (Kind Text)

variable {V : Type} (isUnit : V → Bool) (lit : Kind → Text → V → Prop)
  (f g : String → List V → Except String V)

mutual
/-- The operands and operators that items stand for. -/
inductive StandsU : List Parse.Item → List (Tok V) → Prop
  | nil : StandsU [] []
  | skip {k t its toks} : k ∈ emptyKinds → StandsU its toks → StandsU (.leaf k t :: its) toks
  | op {o its toks} : StandsU its toks →
      StandsU (.leaf .op o :: its) (.op (String.ofList o) :: toks)
  | word {k t v its toks} : k ∈ valueKinds → lit k t v → StandsU its toks →
      StandsU (.leaf k t :: its) (.val v :: toks)
  | bracket {t inner v its toks} : MeansU inner v → StandsU its toks →
      StandsU (.nest .inner t (.leaf .innerStart ['('] :: inner ++ [.leaf .innerEnd [')']]) :: its)
        (.val v :: toks)
  | call {t w args vs v its toks} : ArgsMeanU args vs → g (String.ofList w) vs = .ok v →
      StandsU its toks →
      StandsU (.nest .func t (.leaf .funcName w :: .leaf .funcStart ['('] :: args
        ++ [.leaf .funcEnd [')']]) :: its) (.val v :: toks)
/-- Items that are a phrase of the grammar with units mean its value. -/
inductive MeansU : List Parse.Item → V → Prop
  | phrase {its toks v b e} : StandsU its toks → Phrase isUnit f documented.length b e toks v →
      MeansU its v
/-- The arguments of a call. -/
inductive ArgsMeanU : List Parse.Item → List V → Prop
  | none : ArgsMeanU [] []
  | last {its v} : MeansU its v → ArgsMeanU its [v]
  | more {its v rest v' vs} : MeansU its v → ArgsMeanU rest (v' :: vs) →
      ArgsMeanU (its ++ .leaf .funcParam [','] :: rest) (v :: v' :: vs)
end

end MC.Spec
