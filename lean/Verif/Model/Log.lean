import Verif.Model.Floats

/-!
# Model of `log`

`Number.log` (`objects/number.py:145-151`) and the function `log` of
`features/numerical/numericalfunctions.py`.  `Decimal.ln` of positive numbers is a parameter, and so are the floats.
-/

namespace MC.Log
open MC.Numerical MC.Boolean MC.Arrays MC.Floats

variable {S U R σ F : Type} (p : ℕ) (ln : ℚ → ℚ) (num? : S → Option Number) (ofNum : Number → S) (L : Lib F)

/-- `Number.log` (`number.py:145-151`).  `Decimal.ln` raises `InvalidOperation` for a negative number and
answers `-Infinity` for zero, of which no `Number` is made: whichever of the errors comes first, simplified here
to this one.  A base with the logarithm zero makes the division fail. -/
def log (x : Number) (base : Option ℚ) : Except Raise Number :=
  if x.num ≤ 0 then .error (.py "InvalidOperation")
  else
    let l := rnd p (ln x.num - ln x.den)                                            -- 146
    match base with
    | none => liftErr (Number.mk' p l 1)                                            -- 147-148
    | some b =>
      if b ≤ 0 then .error (.py "NameError")  -- 149-150: no ExecutionException is imported
      else if ln b = 0 then .error (.py "DivisionByZero")
      else liftErr (Number.mk' p (rnd p (l / ln b)) 1)                              -- 151

/-- `func_log` on the numbers (`numericalfunctions.py:171-178`): the base is `float(vals[1])`
(`number.py:163-164`), and `Decimal(base)` is this float exactly.  A base that is infinite as a float leaves a
quotient of zero; it is not modelled and raises here. -/
def answer (vs : List Number) : Except Raise Number :=
  match vs with
  | [] => .error (.py "IndexError")
  | [x] => log p ln x none
  | x :: b :: _ =>
    match L.toDec (L.ofDec (Number.toDecimal p b)) with
    | none => .error (.py "OverflowError")
    | some q => log p ln x (some q)

/-- `log` (`numericalfunctions.py:96-104`, `171-178`). -/
def opLog : Operation S U R σ :=
  numOp "log" 1 2 (fun xs s =>
    (match numbersOf num? xs with
     | .error e => .error e
     | .ok vs =>
       match answer p ln L vs with
       | .error e => .error e
       | .ok n => .ok { value := .sc (ofNum n), unit := some ((xs[0]?).bind (·.unit)) }, s))

end MC.Log
