import Verif.Model.Arrays

/-!
# `stdev` (`statisticalfunctions.py:91-99`, `135-137`)

`statistics.stdev` computes the sum of squared deviations with exact fractions (`statistics._ss`) and
takes the square root of the quotient (`statistics._decimal_sqrt_of_frac`).  The square root of the library is a
parameter.
-/

namespace MC.Arrays

/-- `statistics._ss`: `(count * sxx - sx * sx) / count` in exact fractions. -/
def squares (l : List ℚ) : ℚ :=
  (l.length * (l.map (fun x => x * x)).sum - l.sum * l.sum) / l.length

/-- `statistics.stdev`; `none` is `StatisticsError`. -/
def stdev (root : ℚ → ℚ) (l : List ℚ) : Option ℚ :=
  if l.length < 2 then none
  else
    let v := squares l / (l.length - 1 : ℕ)
    if v = 0 then some 0 else some (root v)

variable {S U R K σ : Type} (p : ℕ) (num? : S → Option Number) (ofNum : Number → S)

/-- `stdev` (`statisticalfunctions.py:91-99`, `135-137`). -/
def opStdev (root : ℚ → ℚ) : Operation S U R σ := statOp p num? ofNum "stdev" (stdev root)

end MC.Arrays
