# Design: a Lean 4 model of ModularCalculator

Source modelled: `/repo/modularcalculator` at the pinned commit.
Properties: `properties.jsonl`. Status per property: `MANIFEST.json`.
Wrong-program tests of the theorems: `seeded/LOG.jsonl`.

## 1. Layout

* `lean/Verif/Model/*.lean`  - the model. Every definition cites file and lines.
* `lean/Verif/Spec/*.lean`   - small specifications, independent of the model.
* `lean/Verif/Lemmas/*.lean` - helper lemmas.
* `lean/Verif/Props/*.lean`  - the property theorems, each with an `example`
  showing that a concrete non-trivial case meets the hypotheses.

## 2. Modelling decisions

* **Decimals.** Python `Decimal` values are modelled by their rational value
  (`Rat`). Every context operation is the exact operation followed by rounding
  to `p` significant digits, half up (`ROUND_HALF_UP`), for a parameter `p`
  (100 in the program). `Decimal(str)`, `as_integer_ratio`, `int`, `floor` are
  exact, as in Python. Not modelled: the exponent limits (about 10^999999),
  trailing zeros of the representation, NaN and infinities (they raise under the
  default traps), the sign of zero except where it is visible (display).
* **Exceptions** are values: every model function that can raise returns
  `Except`, or a result sum. Non-calculator Python errors are kept apart from
  `CalculatorException` when a property depends on the difference.
* **State** (calculator variables) is threaded explicitly and survives errors,
  as Python mutations do.
* **Text** is `List Char`; Python slices are `take`/`drop`.
* **Open recursion.** The engine is modelled over an arbitrary operator table,
  parser list and operand evaluator, as the program does with its feature
  plug-ins; theorems about it hold for every such table.
* **Loops** are structural recursions, or take fuel; where fuel is used the
  theorem shows that enough fuel always exists, or holds for every fuel.

* **Operations.** `Operation` (`operators.py`) is generic in the scalars, units and
  references of operands; the shipped operations are instances whose implementation
  (`ref`) is modelled function by function. `call` spreads over arrays, validates,
  normalises units, runs the implementation and wraps errors, as in the code.
* **Aliasing.** Numbers are values, except in `Model/Heap.lean`, where they are
  objects with an address so that writes to `number_cast` can be followed; there it
  is proved that the two views give the same values.

## 3. Properties and how each is treated

"False" means: a theorem named `..._violation` exhibits a concrete input on which the
modelled code breaks the property as stated, and the theorem named `..._partial`
proves it on the inputs where it holds. What is missing is in `MANIFEST.json`.

| id | model | proof |
|----|-------|-------|
| C01-C05 | `Number` over rounded decimals, any precision (`Model/Decimal`, `Number`) | exactness below 10^p by lemmas on rounding; order by monotonicity of rounding |
| C06 | same | false: witness; partial: numbers whose quotient is exact |
| C07 | `//`, `%` of `Number` | false for mixed signs: witness; partial: same signs |
| C08, C09, C12 | `**`, `round`, `floor`, ..., `as_fraction` | exactness + floor characterisations. Non-integer powers are an external function |
| C10, C11 | `to_string` and the decimal literal reader (`Model/Display`) | digits induction; `-0` and the 10^70 display failure are witnesses |
| C13-C17 | `bases.py` and the literal formats (`Model/Bases`, `ExpPercent`) | positional-notation induction |
| C18 | `bitwiseoperators.py` (`Model/Bitwise`) | integer bit lemmas |
| C19, C20 | the parse loop over any parser list; the shipped parsers (`Model/Parse`, `Lexer`) | induction on remaining text; contract `Spec.Ok` shown for each shipped parser |
| C21, C22 | operator and string parsers | list induction |
| C23, C24 | highlighter, `find_pos`, `truncate` (`Model/Highlight`, `ErrorPos`) | tree induction |
| C25 | terminator parser with its cache (`Model/Terminator`) | false: witness history; partial: cached line not a sublist of the text |
| C26, C27, C28 | `execute` and `execute_operator` (`Model/Engine`) | refinement to expression trees; length measure |
| C29, C30, C31 | `Operation.call` and `validate` (`Model/Operation`) | case analysis, list induction |
| C32 | `calculate` | induction over statements |
| C33-C37, C59 | variable operators and functions (`Model/State`) | state lemmas, invariants over histories; false parts get witnesses |
| C38, C39 | `add_op`, `add_parser` (`Model/Table`) | invariant: sorted by layout row |
| C40, C41 | `install_features` (`Model/Install`) | invariant over the recursion; C41 false for groups: witness |
| C42-C49 | `units.py`, `unitnormaliser.py` (`Model/Units`) | exponent-map algebra; conservation of value times scale |
| C50, C51 | range elements (`Model/Range`) | closed form; non-termination witness for every fuel |
| C52, C53 | `arrayfunctions.py`, `statisticalfunctions.py` (`Model/Arrays`) | list induction |
| C54, C55, C62 | strings, split/join, comparison, regex (`Model/Strings`) | list induction; `re` is a parameter |
| C56 | dates: calendar, `strptime`/`strftime` of the default formats, `timedelta` and float rounding (`Model/Dates`) | calendar bijection; digit lemmas; error bounds of 53-bit rounding |
| C57 | a heap of number objects for the display-cast aliasing (`Model/Heap`); shared lists whose elements `finalize` overwrites (`Model/Share`) | simulation of the value model; every object keeps its quantity over any session; false: witnesses |
| C58 | the error classes in `calculate` | invariant over the engine; false: witness; reading (`Props/Reading`): the induction of C19 also says that an exception of Python comes from a parser that makes one item, at some place in the text (`Raised`); the conversions of literals are gone through one by one (`Lemmas/Reading`); the calls the parser makes are of functions in the table (`Lemmas/ParseCalls`), so reading and engine can be put together |
| C60 | unit registry (`Model/Registry`) | invariant over registrations |
| C61 | `+ - * /` on quantities | from C42-C49; false when an internal error is raised: witness |
| C63, C64 | `wrap`, `finishResult` | case analysis over `call` |
| C65, C66 | comparisons, rounding and integer functions (`Model/Numerical`); the base and offset of each number type (`Model/RoundCast`) | from C05, C09 |
| C67 | adjacency rules of the engine | decision logic over all neighbourhoods |
| C68 | the shipped unit definitions (`Model/UnitTable`, generated from the source by `tools/units.py`), the registry and the shipped parsers on them | a search tree of names checked by the kernel gives that no two units share a name; the turn of the parser loop at a unit, from finite facts about the table |
| C69 | the shipped parsers and the parser loop on the grammar of `Spec/Written` | one lemma per kind of item saying what a turn of the loop does there; induction over the line and the nesting depth |
| C70 | the same | from C69; the witnesses by running the model |
| C71 | `calculate` from the text on (`Model/Text`): what the parser makes, handed to the engine | from C69 and the engine's theorems; mutual induction over the meaning of expressions (`Spec/Meaning`) |
| C72 | the arithmetic operators with their units as a parameter (`Model/Arithmetic`), the value of words, `finalize` (`Model/Finalize`) | every operator and function of numbers and texts agrees with `Spec/Arithmetic` and `Spec/Texts` (from C02, C05, C08, C29, C54, C55, C65, C66); the meanings of an expression correspond; then C71 |
| C73 | the assignment operators as the engine calls them (`Model/Program`), the fake execution (`Model/Terminator`) | operators of the last row come last, so the engine evaluates the right-hand side as if it stood alone (`Lemmas/EngineAssign`); a line that means something is complete (`Lemmas/Complete`); induction on the lines with the variables as invariant |
| C74 | the normaliser with the shipped units (`Model/ShippedNorm`) | the kernel compares each of the 426 units with the definitions (`Spec/International`); the theorems C42, C43, C48 for all numbers and products |
| C75 | `format` (`Model/Format`), the units of a system sorted by size | induction over the units without a prefix: each takes its whole number and leaves less than one of it (`Spec/Format`: `Divides`, `WrittenAs`); that the smallest unit of every system and dimension is of the kind of the smallest without a prefix is checked by the kernel on the whole table; temperatures: violation |
| C76 | `to` on a heap of unit objects with the flag `no_simplify` (`Model/To`); `compact` (`Model/Compact`); `finalize` (`Model/Finalize`) with the unit normaliser | C42 for the value; induction over nested arrays, C45 for each number; the flag on a variable's own unit: violation |
| C77 | `parse_terminator` with the fake execution and its memory (`Model/Terminator`), `calculate` (`Model/Text`) | the statement up to the break runs like the whole one up to the operator that misses its operand (`Lemmas/Cut`), or up to the `then` without its `else` (`Lemmas/CutElse`), so the fake execution says it is incomplete; induction on the breaks (`Spec/Broken`: `Broken`, `Statements`); the memory compares texts without spaces: violation |
| C78 | `parse`, `calculate` on a text (`Model/Parse`, `Model/Lexer`, `Model/Text`) | a grammar of mistakes (`Spec/Unreadable`); one lemma per mistake that all 31 parsers leave it or raise (`Lemmas/Unreadable`); induction on the depth, the items and the lines before it; C19 for the last part |
| C79 | `execute` with units on a text (`Model/Engine`, `Model/Shipped`, `Model/Text`) | a grammar with levels in which units are told from values (`Spec/UnitPhrase`, `Spec/UnitMeaning`); for each row of the table, a phrase of the rows from `j` on either does not use row `j` or its first use can be applied and leaves such a phrase (`Lemmas/UnitPhrase`), hence the loop ends in the value (`Lemmas/UnitRun`) |
| C80 | the operators on numbers and units together, words and `finalize` on them (`Model/UnitCalc`, `Model/Units`) below the engine and the parser | a calculus of quantities without units (`Spec/Physics`); a simulation between the engine on the program's values and the engine on quantities: as long as operators follow the functions both take the same steps, after an error the first one fails (`Lemmas/Refine`, `Lemmas/RefineText`); each operator follows its function (`Lemmas/QuantityOps`) by C42, C45, C61; the dimension after simplification is false (C46) |
| C81 | `Model/UnitName` (`UnitPowerList.name` branch by branch, `get_name`) together with the parser, the engine (C69, C79) and the shipped unit table (C68) | the written name is shown to be an expression of the written grammar with the unit as its meaning; round trip for singular, plural and symbols; three witnesses where it is false |
| C82 | `Model/Pointer` (`InlineFunctionItem`, `FunctionPointerItem.value`, the handlers, `do_function` with `Model/State`) on top of the parser (C69) and the engine | big-step meaning of functions in `Spec/Functions` (calls nested less than `d` deep); induction on `d`, with the lines of a body run by the theorem for programs (C73) generalised to any kind of value |
| C83 | `Model/ArrayLit` (`ArrayItem.value`, `ArrayElement.value`) and `Model/ListFuncs` (sum, min, max, mean, median, mode, sort, count, reverse, concat, element, filter, split, join) on top of C82 | big-step meaning in `Spec/Lists`; operations on rows from `Model/Operation`; induction on nesting depth; ranges by the grid argument of C50; order of the elements by induction on them |
| C84 | the shipped parsers on `[name]` | the turns of the parser loop at a name; violation for names that start with `step` |
| C85 | `Model/FunctionTable` (generated from the sources by `tools/funcs.py`), `Model/Floats.shippedFuncs`, grammar of calls | `Props/FuncNames`: facts about the whole table by kernel evaluation, the reading of a call for all parameters by the grammar theorems |
| C86 | `Model/Floats`: the wrappers around `math` and `scipy.special`, with the library a parameter | `Props/Floats`: evaluation of a call for all numbers; the truncating functions and the angles with units as violations |
| C87 | `Model/Log`: `Number.log` and the function `log`; `Decimal.ln` and the floats are parameters | `Props/Log`, `Lemmas/Log`: error analysis over the reals against `Real.log`; cancellation, float bases and units as violations |
| C88 | `Model/UnitCheck.lean`: `check_unit_dimensions`, on the normaliser of `Model/Units.lean`; the operation boundary is `Model/Operation.lean` | `Spec/UnitCheck.lean` says when a unit has a dimension by adding exponents of base dimensions. Accepted units have it; for one base dimension the converse too, so the check decides; refusal through C31. Violations: derived dimensions are never accepted, order of factors matters |
| C89 | `Model/DateFormat.lean`: `dateformat` with its six default formats, `now` with the clock as a parameter | `Spec/DateFormat.lean` says what is written: the weekday by counting from Monday 3 January 2000 over the calendar of `Spec/Dates.lean`, then day, month, year, time, offset. Proved for every moment of the years 1 to 9999; two moments shown alike are equal; `now` is read back through C56 |
| C90 | `Model/Presets.lean`: the table of presets, `load_preset`, the constructor; over the installer of `Model/Install.lean` and its table of shipped features | Through C40_installs from every reached state, with the finite facts about the table decided by the kernel; `Needed` is monotone, so larger presets need more |
| C91 | Model/Notation: number objects with `number_cast` and width, `to_string`, `parse` and `convert_to` of every number type, `bin`, `oct`, `hex`, `dec`, `base`, `scientific`, `as`, on the operation model with a real calculator record; the unit normaliser is any function that leaves one operand alone | each conversion by the call lemma for numbers; chains by induction; reading back from C10, C13 and C17; three parts of the statement refuted |
| C92 | Model/Constants: the table of constants, `Number(text)`, their units by `make_multiunit` over the shipped units | pi from the formula of Machin and the alternating series of the arctangent, e from its series, both evaluated by the kernel in rational numbers; display from C10; e and tau refuted in the fiftieth place |
| C93 | `Number.pow`, `opPower`, `opExp` with the stored `e`; `decimal` powers a parameter (`Spec/Power.lean` says what is assumed) | relative errors as products of factors (`Lemmas/Power.lean`), then `Real.exp` and `Real.log` bounds; violation: `exp(1)` in the 51st place |
| C94 | the operators `\` and `%` of `callOf` | `school_does` gives both answers; floor against whole part; violation for every negative quotient that is not whole |
| C95 | `Model/Settings`: the settings of each calculator, decimal's context of each thread and the places of the process; histories of events | invariant over histories of one calculator; single steps from every state; concrete histories for the violations |
| C96 | `Model/UnitStats`, `Model/ListFuncs`, `Model/Units`: the registered statistics on an array the normaliser brings to one unit | refinement to the levels of `Spec/Levels`: normalising is an increasing affine map of the level, the same for all elements; induction over the array for sum against `+` |
| C97 | `Model/Units`: the loops of the normaliser and of the simplification, with the number of turns as a parameter, and the shipped registry (`Model/ShippedNorm`) | from some number of turns on the answer is the same: each turn lowers the sum of the rounded-up sizes of the foreign powers (normalising) or of the sizes of all powers (simplifying, in part); two rounds of the simplification on a shipped unit lead back to it |
| C98 | `Model/Bases`: `dec_to_base` and the four representations that show numbers with it and read them | induction over the digit loop: what is left is the rest of the division by the power reached, all steps exact for fractions that fit the precision; what it means to be cut off is in `Spec/BasesCut` |
| C99 | `Model/Repr` (`Number.__repr__`, `Number.__init__` with texts) | the digits are read back (C13's lemmas); a number in lowest terms passes through the constructor without rounding; quoted texts without quotes split in one way |

## 4. Trusted base

* Lean's kernel, and the axioms `propext`, `Classical.choice`, `Quot.sound` (no
  theorem uses others; `vcheck` lists them).
* The reading of the Python source recorded in the comments of `Verif/Model`, and
  the documented behaviour of Python that is modelled there: `decimal` with
  rounding half up, `str` methods, `sorted`/`min`/`max`, `statistics`,
  `datetime`/`strptime`/`strftime`, conversion to `float`.
* External functions that are parameters of the model, so that theorems hold for
  whatever they do: `Decimal.__pow__` with non-integer exponents, the module `re`,
  `str.lower`/`upper`/`isalpha` and `\w` outside ASCII, the text of floats.

### Parts of the code that are modelled

| file | what |
|------|------|
| `engine.py` | `parse`, `execute`, `execute_operator`, `calculate`, `finalize`, `restore_non_functional_items` |
| `modularcalculator.py` | `add_op`, `add_parser`, `install_features` and what it calls |
| `numericalengine.py` | number and unit validators, as used by operations |
| `objects/number.py`, `objects/operators.py`, `objects/units.py`, `objects/items.py`, `objects/exceptions.py` | `Number`, `Operation.call`, unit lists and registry, items, positions |
| `services/unitnormaliser.py`, `services/syntaxhighlighter.py` | normalisation and simplification; highlighting |
| `features/structure/*` | operators, terminator, brackets, functions, inline and external functions, function pointers (`Model/Pointer`; how deep calls can be nested is a number there, where Python has the limit of its stack) |
| `features/nonfunctional/*`, `features/layout.py`, `features/feature.py` | spaces, comments, order of parsers and operators, dependencies |
| `features/numerical/*` | all number types, arithmetic, bitwise operators, numerical and statistical functions except those below |
| `features/boolean/*`, `features/arrays/*`, `features/strings/*`, `features/state/*` | all |
| `features/dates/*` | all; formats other than the default options are not, and `datetime.now()` is a parameter |
| `features/units/*` | unit parsing, normalisation, `format`, `compact`; systems and types as words |
| `features/unitdefinitions/*` | all tables (`Model/UnitTable`); `tools/units.py` reads the source as a syntax tree and is trusted to copy names, symbols, scales and registrations |

### Parts that are not modelled

* The values of the functions of `specialfunctions.py` (scipy) and
  `trigonometryfunctions.py` (math): the wrappers are modelled (`Model/Floats`), the
  library and the conversions between Decimal and float are parameters.
* The square root of `statistics.stdev` (assumed to be the nearest number in C53); the values of `Decimal.ln` (assumed to be rounded correctly in C87).
* Timings, printing, finding feature files (`scan_feature_files`, `import_feature`).
