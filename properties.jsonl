{"id": "C01", "title": "Numbers are kept in lowest terms", "statement": "Building a Number from a numerator and denominator that fit the working precision yields an integer numerator and a positive integer denominator with no common factor, denoting exactly the quotient that was asked for; a zero denominator always raises and never yields a value.", "quantifier": "all pairs of decimal numerators/denominators within the precision, all precisions", "why_tests_cant": "The normalisation mixes integer ratios, sign flips and gcd division on rounded decimals; a test only samples a few pairs.", "anchors": ["modularcalculator/objects/number.py:Number.__init__"]}
{"id": "C02", "title": "Arithmetic is exact rational arithmetic within the precision", "statement": "When the intermediate integers fit the working precision (100 digits by default), +, -, *, / and unary - on numbers return exactly the rational sum, difference, product, quotient and negation, again in lowest terms.", "quantifier": "all pairs of numbers whose intermediate products fit the precision, all precisions", "why_tests_cant": "Exactness (1/3*3 = 1, no drift) is a statement about infinitely many operands.", "anchors": ["modularcalculator/objects/number.py:Number.__add__", "modularcalculator/objects/number.py:Number.__sub__", "modularcalculator/objects/number.py:Number.__mul__", "modularcalculator/objects/number.py:Number.__truediv__", "modularcalculator/objects/number.py:Number.normalise"]}
{"id": "C03", "title": "Decimal rounding is correct to half a unit in the last digit", "statement": "Every value that does not fit the precision is replaced by a neighbour at most half a unit of the last kept digit away, ties go away from zero, values that fit are unchanged, and rounding never reverses the order of two values.", "quantifier": "all rationals, all precisions >= 1", "why_tests_cant": "Rounding errors appear at carries and ties that samples miss.", "anchors": ["modularcalculator/objects/number.py:Number.to_decimal", "modularcalculator/objects/number.py:Number.set_precision", "modularcalculator/numericalengine.py:NumericalEngine.__init__"]}
{"id": "C04", "title": "Addition and multiplication commute at every size", "statement": "a+b and b+a (and a*b and b*a) give the same number, even when the operands exceed the precision and the result is rounded.", "quantifier": "all pairs of numbers, all precisions", "why_tests_cant": "The claim has no size bound, so it also covers the rounding paths.", "anchors": ["modularcalculator/objects/number.py:Number.__add__", "modularcalculator/objects/number.py:Number.__mul__", "modularcalculator/objects/number.py:Number.normalise"]}
{"id": "C05", "title": "Comparisons form one consistent order that never contradicts the exact values", "statement": "For any two numbers exactly one of <, ==, > holds, <= and >= and != agree with them, == is an equivalence and < is transitive; whenever a < b is reported the exact rational a is smaller than b.", "quantifier": "all pairs/triples of numbers, all precisions", "why_tests_cant": "Comparisons go through rounded quotients; consistency is a relation over all triples.", "anchors": ["modularcalculator/objects/number.py:Number.__lt__", "modularcalculator/objects/number.py:Number.__eq__", "modularcalculator/objects/number.py:Number.to_decimal"]}
{"id": "C06", "title": "Equal numbers have equal hashes", "statement": "If a == b is reported then hash(a) == hash(b), so numbers can be used as dictionary keys.", "quantifier": "all pairs of numbers", "why_tests_cant": "== compares rounded quotients, the hash uses the exact pair; only a proof covers all pairs.", "anchors": ["modularcalculator/objects/number.py:Number.__eq__", "modularcalculator/objects/number.py:Number.__hash__"]}
{"id": "C07", "title": "Quotient and remainder recombine", "statement": "For b != 0, a = (a \\ b)*b + a % b within the precision, and the remainder is smaller in size than b.", "quantifier": "all pairs of numbers within the precision", "why_tests_cant": "Signs and fractional operands interact; the law ranges over all pairs.", "anchors": ["modularcalculator/objects/number.py:Number.__floordiv__", "modularcalculator/objects/number.py:Number.__mod__", "modularcalculator/features/numerical/basicarithmetic.py"]}
{"id": "C08", "title": "Integer powers obey the exponent laws", "statement": "Within the precision x^n for an integer n is the exact n-th power, x^-n its reciprocal, x^(m+n) = x^m * x^n, and raising 0 to a negative power raises.", "quantifier": "all numbers and integer exponents within the precision", "why_tests_cant": "Unbounded exponents and bases.", "anchors": ["modularcalculator/objects/number.py:Number.__pow__"]}
{"id": "C09", "title": "Rounding functions meet their specification", "statement": "floor(x) is the greatest integer <= x, ceil the least >= x, trunc drops the fraction, round(x,n) is the nearest multiple of 10^-n with ties away from zero, all idempotent, for x within the precision.", "quantifier": "all numbers within the precision, all digit counts", "why_tests_cant": "Boundary values (ties, negatives, integers) are infinitely many.", "anchors": ["modularcalculator/objects/number.py:Number.__round__", "modularcalculator/objects/number.py:Number.__floor__", "modularcalculator/objects/number.py:Number.__ceil__", "modularcalculator/objects/number.py:Number.__trunc__", "modularcalculator/features/numerical/numericalfunctions.py"]}
{"id": "C10", "title": "Displayed decimals read back as the same number", "statement": "The text shown for a number whose value has at most the configured decimal places reads back as exactly that number; any other shown text reads back within half a unit of the last place.", "quantifier": "all numbers within the precision, all settings of decimal places", "why_tests_cant": "Printing then parsing is a round trip over an infinite set.", "anchors": ["modularcalculator/objects/number.py:Number.to_string", "modularcalculator/features/numerical/decimalnumbers.py"]}
{"id": "C11", "title": "Displayed decimals are canonical", "statement": "The shown text is an optional minus sign, digits, and optionally a point and digits not ending in 0; zero is shown as 0 and never as -0; every number can be shown.", "quantifier": "all numbers, all settings", "why_tests_cant": "Corner cases (tiny negatives, very large values) are outside any sample.", "anchors": ["modularcalculator/objects/number.py:Number.to_string"]}
{"id": "C12", "title": "Mixed fraction form is faithful", "statement": "as_fraction gives (whole, num, den) with whole + num/den the value of the number and |num| < den.", "quantifier": "all numbers within the precision", "why_tests_cant": "Infinitely many values of both signs.", "anchors": ["modularcalculator/objects/number.py:Number.as_fraction"]}
{"id": "C13", "title": "Writing an integer in a base and reading it back is the identity", "statement": "For every base from 2 to 36 and every integer within the precision, reading the text produced for that base gives the integer back; equal texts mean equal integers.", "quantifier": "all integers, all bases 2..36", "why_tests_cant": "Unbounded lengths and 35 bases.", "anchors": ["modularcalculator/features/numerical/bases.py:BasesFeature.dec_to_base", "modularcalculator/features/numerical/bases.py:BasesFeature.base_to_dec"]}
{"id": "C14", "title": "Digits are validated and read positionally", "statement": "Reading digits in base b yields the positional value exactly when all digits are below b, and raises otherwise; bases outside 2..36 always raise.", "quantifier": "all texts, all bases", "why_tests_cant": "All strings.", "anchors": ["modularcalculator/features/numerical/bases.py:BasesFeature.base_to_dec"]}
{"id": "C15", "title": "Based literals keep their width", "statement": "Reading a 0b/0o/0x literal and showing it gives back the same digits including leading zeros.", "quantifier": "all digit strings", "why_tests_cant": "All lengths.", "anchors": ["modularcalculator/features/numerical/binarynumbers.py", "modularcalculator/features/numerical/hexadecimalnumbers.py", "modularcalculator/features/numerical/bases.py:BasesFeature.force_number_width"]}
{"id": "C16", "title": "A base-prefixed literal denotes its own digits", "statement": "A literal such as 36zABC denotes the positional value of the digits written after the first prefix.", "quantifier": "all bases and digit strings", "why_tests_cant": "Depends on how the prefix is removed from arbitrary digit strings.", "anchors": ["modularcalculator/features/numerical/arbitrarybasenumbers.py"]}
{"id": "C17", "title": "Percentage and exponent literals denote their value", "statement": "n% denotes n/100, mEe denotes m*10^e, and showing a number in exponent form and reading it back gives the number when its significant digits fit.", "quantifier": "all mantissas and exponents", "why_tests_cant": "Unbounded digit strings.", "anchors": ["modularcalculator/features/numerical/percentagenumbers.py", "modularcalculator/features/numerical/expnumbers.py"]}
{"id": "C18", "title": "Bitwise operators follow integer bit semantics", "statement": "&, |, ^^ act bit by bit on integers, << n multiplies by 2^n, >> n is floor division by 2^n, and ~ on a width-w literal gives the w-bit complement, so ~~x = x.", "quantifier": "all integers, widths and shift counts", "why_tests_cant": "All bit patterns and widths.", "anchors": ["modularcalculator/features/numerical/bitwiseoperators.py"]}
{"id": "C19", "title": "Parsing is lossless", "statement": "When an expression parses, the texts of all parsed items of all statements concatenate to exactly the expression.", "quantifier": "all expressions, for any set of installed parsers obeying the item/length contract, and for the shipped parsers", "why_tests_cant": "All texts.", "anchors": ["modularcalculator/engine.py:Engine.parse", "modularcalculator/objects/items.py"]}
{"id": "C20", "title": "Parsing always finishes", "statement": "For every text parsing ends, with items, with a parsing error at a position inside the text, or with the exception of a literal whose digits do not fit its base; it never loops.", "quantifier": "all texts", "why_tests_cant": "Termination cannot be tested.", "anchors": ["modularcalculator/engine.py:Engine.parse", "modularcalculator/features/arrays/arrays.py", "modularcalculator/features/structure/functions.py", "modularcalculator/features/structure/innerexpressions.py", "modularcalculator/features/structure/inlinefunctions.py"]}
{"id": "C21", "title": "The longest operator symbol wins", "statement": "The operator recognised at a position is the longest installed symbol that starts there, where a symbol made only of letters counts only if no word character follows it.", "quantifier": "all texts and operator tables", "why_tests_cant": "All tables and texts.", "anchors": ["modularcalculator/features/structure/operators.py"]}
{"id": "C22", "title": "String literals can denote every string", "statement": "For every string s, quoting it with backslash escapes gives a literal that parses to exactly s and consumes exactly the literal.", "quantifier": "all strings and following texts", "why_tests_cant": "All strings, including quotes and backslashes.", "anchors": ["modularcalculator/features/strings/strings.py"]}
{"id": "C23", "title": "Syntax highlighting loses no text", "statement": "The highlighted fragments concatenate to the highlighted text.", "quantifier": "all texts and item trees", "why_tests_cant": "All trees.", "anchors": ["modularcalculator/services/syntaxhighlighter.py:SyntaxHighlighter.highlight"]}
{"id": "C24", "title": "Error positions point into the text", "statement": "The position reported for an error is the length of the text of the items before it, and truncating the input there gives exactly those items' text.", "quantifier": "all item lists and texts", "why_tests_cant": "All item trees.", "anchors": ["modularcalculator/objects/exceptions.py"]}
{"id": "C25", "title": "Statement splitting does not depend on history", "statement": "How an expression is split into statements depends only on the expression and the installed features, not on what was calculated earlier.", "quantifier": "all expressions and histories", "why_tests_cant": "A statement about all histories.", "anchors": ["modularcalculator/features/structure/terminator.py"]}
{"id": "C26", "title": "Operator precedence and associativity", "statement": "Evaluating a flat sequence of operands and operators gives the value of the expression tree that the precedence table dictates (higher rows bind tighter, operators in a row associate left, or right for right-to-left rows).", "quantifier": "all expression trees and precedence tables", "why_tests_cant": "All tree shapes and depths.", "anchors": ["modularcalculator/engine.py:Engine.execute", "modularcalculator/engine.py:Engine.execute_operator"]}
{"id": "C27", "title": "Evaluation always finishes with one value or an error", "statement": "Evaluating any list of items performs at most as many operator applications as there are items, and ends with exactly one result or an error.", "quantifier": "all item lists and operator tables whose operators consume at least one operand", "why_tests_cant": "Termination.", "anchors": ["modularcalculator/engine.py:Engine.execute"]}
{"id": "C28", "title": "Spaces and comments do not change results", "statement": "Removing or inserting non-functional items anywhere changes neither the value nor the state.", "quantifier": "all item lists", "why_tests_cant": "All positions.", "anchors": ["modularcalculator/engine.py:Engine.execute", "modularcalculator/objects/items.py:functional_items"]}
{"id": "C29", "title": "Errors are lazy values", "statement": "An operand that failed makes any ordinary operator fail with that same error, while and/or/then-else use it only if it is needed.", "quantifier": "all operands and operators", "why_tests_cant": "All combinations of failing operands.", "anchors": ["modularcalculator/objects/operators.py:Operation.call", "modularcalculator/features/boolean/booleans.py"]}
{"id": "C30", "title": "Operators apply to arrays element by element", "statement": "Applying a scalar operator or function to arrays of equal length gives an array of that length whose i-th element is the operator applied to the i-th elements (scalars repeated); different lengths raise.", "quantifier": "all operations, array lengths and contents", "why_tests_cant": "All lengths.", "anchors": ["modularcalculator/objects/operators.py:Operation.call"]}
{"id": "C31", "title": "Implementations only see validated inputs", "statement": "An operation's implementation runs only when the number of inputs is within its bounds and every input has an allowed type; otherwise an error is raised.", "quantifier": "all operations and inputs", "why_tests_cant": "All type combinations.", "anchors": ["modularcalculator/objects/operators.py:OperationDefinition.validate", "modularcalculator/objects/operators.py:OperationDefinition.validate_input"]}
{"id": "C32", "title": "Statements run in order and earlier results survive a failure", "statement": "A multi-statement calculation gives one result per statement in order; if statement k fails, the error carries exactly the results of statements 1..k-1 and their state changes remain.", "quantifier": "all statement lists", "why_tests_cant": "All lengths and failure points.", "anchors": ["modularcalculator/engine.py:Engine.calculate"]}
{"id": "C33", "title": "Assignment changes exactly one variable", "statement": "After x = v, x reads as v and every other variable is unchanged; ||= only assigns when x was not set; a failing right-hand side changes nothing.", "quantifier": "all variables, values and states", "why_tests_cant": "All states.", "anchors": ["modularcalculator/features/state/assignment.py"]}
{"id": "C34", "title": "Stateless evaluation leaves variables alone", "statement": "With the stateless flag no calculation changes any variable.", "quantifier": "all expressions and states", "why_tests_cant": "All expressions.", "anchors": ["modularcalculator/features/state/assignment.py", "modularcalculator/features/state/assignmentoperators.py", "modularcalculator/features/state/assignmentfunctions.py"]}
{"id": "C35", "title": "Inline functions do not leak variables", "statement": "After calling a user-defined function the variables are exactly those before the call, whether it succeeds or fails.", "quantifier": "all function bodies, arguments and states", "why_tests_cant": "All bodies and failure modes.", "anchors": ["modularcalculator/features/structure/inlinefunctions.py", "modularcalculator/features/structure/externalfunctions.py"]}
{"id": "C36", "title": "No variable ever holds an error", "statement": "No sequence of calculations stores an error as the value of a variable.", "quantifier": "all histories", "why_tests_cant": "Invariant over histories.", "anchors": ["modularcalculator/features/state/assignment.py", "modularcalculator/objects/operators.py:Operation.call"]}
{"id": "C37", "title": "Compound assignment is operator then assignment", "statement": "x op= v has the same effect and result as x = x op v.", "quantifier": "all operators, values, states", "why_tests_cant": "All states.", "anchors": ["modularcalculator/features/state/assignmentoperators.py"]}
{"id": "C38", "title": "Precedence does not depend on installation order", "statement": "Whatever the order in which operators are added, the precedence table is the configured layout restricted to the added operators.", "quantifier": "all sequences of operator additions", "why_tests_cant": "All permutations.", "anchors": ["modularcalculator/modularcalculator.py:ModularCalculator.add_op", "modularcalculator/features/layout.py"]}
{"id": "C39", "title": "Parser order does not depend on installation order", "statement": "The parsers are tried in the configured order, each name once with the last registered function, whatever the order of registration.", "quantifier": "all sequences of registrations", "why_tests_cant": "All permutations.", "anchors": ["modularcalculator/modularcalculator.py:ModularCalculator.add_parser", "modularcalculator/features/layout.py"]}
{"id": "C40", "title": "Feature installation respects dependencies", "statement": "Installing features installs each requested feature and all its dependencies exactly once, dependencies first, and installing again changes nothing.", "quantifier": "all acyclic feature tables and request lists", "why_tests_cant": "All graphs.", "anchors": ["modularcalculator/modularcalculator.py:ModularCalculator.install_features"]}
{"id": "C41", "title": "Ordering hints are respected", "statement": "When a feature that must come after another is installed together with it, it is installed after it, also when the other is part of a feature group.", "quantifier": "all feature tables and requests", "why_tests_cant": "All graphs.", "anchors": ["modularcalculator/modularcalculator.py:ModularCalculator.install_features", "modularcalculator/modularcalculator.py:ModularCalculator.add_feature_to_be_installed"]}
{"id": "C42", "title": "Unit conversion is consistent", "statement": "Converting u to v and back gives the original value, converting via a third unit gives the same as converting directly, and converting to the same unit is the identity.", "quantifier": "all units of scale type, all values (exact arithmetic)", "why_tests_cant": "All units and values.", "anchors": ["modularcalculator/services/unitnormaliser.py:UnitNormaliser.unit_conversion", "modularcalculator/objects/units.py:UnitPowerList.convert"]}
{"id": "C43", "title": "Conversion never mixes dimensions", "statement": "A conversion succeeds only between units of the same dimension and raises otherwise.", "quantifier": "all unit lists", "why_tests_cant": "All combinations.", "anchors": ["modularcalculator/services/unitnormaliser.py:UnitNormaliser.unit_conversion"]}
{"id": "C44", "title": "Unit exponents form a group", "statement": "Multiplying, dividing and powering units adds, subtracts and scales exponents; a unit with exponent zero disappears and no unit appears twice.", "quantifier": "all unit lists", "why_tests_cant": "All lists.", "anchors": ["modularcalculator/objects/units.py:AbstractPowerList.add", "modularcalculator/objects/units.py:AbstractPowerList.merge", "modularcalculator/objects/units.py:UnitPowerList.power"]}
{"id": "C45", "title": "Normalising and simplifying units preserves the quantity", "statement": "value times the size of the unit in base units is unchanged by input normalisation and by unit simplification.", "quantifier": "all values and unit lists (exact arithmetic, scale units)", "why_tests_cant": "All lists and all choices of target unit.", "anchors": ["modularcalculator/services/unitnormaliser.py:UnitNormaliser.normalise_inputs", "modularcalculator/services/unitnormaliser.py:UnitNormaliser.simplify_units"]}
{"id": "C46", "title": "Simplification preserves the dimension", "statement": "The dimension of a result is not changed by unit simplification.", "quantifier": "all unit lists", "why_tests_cant": "All lists.", "anchors": ["modularcalculator/services/unitnormaliser.py:UnitNormaliser.simplify_units", "modularcalculator/services/unitnormaliser.py:UnitNormaliser.dedupe"]}
{"id": "C47", "title": "Dimension search is sound and complete", "statement": "The search for parts of a unit with a given dimension returns exactly the sub-powers of the unit list whose dimension is the goal.", "quantifier": "all unit lists with integer powers and all goals", "why_tests_cant": "All combinations.", "anchors": ["modularcalculator/services/unitnormaliser.py:UnitNormaliser.find_units_matching_dimensions"]}
{"id": "C48", "title": "Temperature conversions are inverse to each other", "statement": "Converting a temperature between Kelvin, Celsius and Fahrenheit and back gives the original; relative conversions are linear.", "quantifier": "all temperatures", "why_tests_cant": "All values.", "anchors": ["modularcalculator/features/unitdefinitions/temperature.py"]}
{"id": "C49", "title": "The combined dimension is the sum of the parts", "statement": "The dimension computed for a list of units has, for each base dimension, the sum of the contributions of all units.", "quantifier": "all unit lists", "why_tests_cant": "All lists, including repeated dimensions.", "anchors": ["modularcalculator/objects/units.py:AbstractPowerList.deduplicate", "modularcalculator/services/unitnormaliser.py:UnitNormaliser.unit_normalised_dimensionlist"]}
{"id": "C50", "title": "Ranges contain exactly the arithmetic progression", "statement": "[a..b step s] contains exactly a, a+s, a+2s, ... up to and including b when reached, in order; a step of the wrong sign raises.", "quantifier": "all a, b, s (exact arithmetic)", "why_tests_cant": "All bounds.", "anchors": ["modularcalculator/features/arrays/arrays.py:ArrayElement.value"]}
{"id": "C51", "title": "Range evaluation finishes", "statement": "Evaluating a range always ends.", "quantifier": "all a, b, s at the working precision", "why_tests_cant": "Termination.", "anchors": ["modularcalculator/features/arrays/arrays.py:ArrayElement.value"]}
{"id": "C52", "title": "Array functions meet their specification", "statement": "reverse is an involution, concat appends, count is the length, filter keeps exactly the elements whose flag is true in order, element(a,i) is the i-th element, sort returns an ordered stable permutation.", "quantifier": "all arrays", "why_tests_cant": "All lengths and contents.", "anchors": ["modularcalculator/features/arrays/arrayfunctions.py"]}
{"id": "C53", "title": "Statistics meet their specification", "statement": "sum, mean, min, max, median and stdev return the exact value within the precision, and stdev otherwise the nearest number to it; min and max are elements of the array bounding all others.", "quantifier": "all arrays within the precision", "why_tests_cant": "All lengths.", "anchors": ["modularcalculator/features/numerical/statisticalfunctions.py"]}
{"id": "C54", "title": "Split and join are inverse", "statement": "Joining the parts of a split with the same separator gives the string back, and no part contains the separator.", "quantifier": "all strings, all non-empty separators", "why_tests_cant": "All strings.", "anchors": ["modularcalculator/features/strings/stringarrayfunctions.py"]}
{"id": "C55", "title": "String functions meet their specification", "statement": "Concatenation and repetition have the expected length and characters; comparison operators form a total order; substr returns the requested slice.", "quantifier": "all strings", "why_tests_cant": "All strings.", "anchors": ["modularcalculator/features/strings/strings.py", "modularcalculator/features/strings/stringfunctions.py", "modularcalculator/features/strings/stringcomparison.py"]}
{"id": "C56", "title": "Date arithmetic is consistent", "statement": "Adding a duration and subtracting it gives the original date; the difference of a date and itself plus a duration is the duration.", "quantifier": "all dates and durations in range", "why_tests_cant": "All dates.", "anchors": ["modularcalculator/features/dates/datefunctions.py"]}
{"id": "C57", "title": "Evaluating an expression never changes a variable it does not assign", "statement": "A calculation containing no assignment leaves the value and the display of every variable unchanged. Showing an answer changes neither the variables nor the answers given before.", "quantifier": "all expressions without assignment, all states, and all histories of statements with any settings of unit simplification", "why_tests_cant": "Aliasing depends on shared objects across statements.", "anchors": ["modularcalculator/objects/operators.py:Operation.call", "modularcalculator/features/numerical/statisticalfunctions.py", "modularcalculator/features/arrays/arrayfunctions.py", "modularcalculator/engine.py:Engine.finalize", "modularcalculator/features/state/assignment.py:VariableItem.value"]}
{"id": "C58", "title": "calculate raises only calculator errors", "statement": "Whatever the text, calculate either returns a response or raises a CalculatorException; no internal Python error escapes.", "quantifier": "all texts", "why_tests_cant": "All texts.", "anchors": ["modularcalculator/engine.py:Engine.calculate", "modularcalculator/features/arrays/arrays.py"]}
{"id": "C59", "title": "Reset, delete and constants", "statement": "Deleting removes exactly the named variable and raises when it does not exist; reset removes all; constants cannot be assigned.", "quantifier": "all states", "why_tests_cant": "All states.", "anchors": ["modularcalculator/features/state/assignmentfunctions.py", "modularcalculator/features/state/constants.py"]}
{"id": "C60", "title": "Unit lookup is unambiguous", "statement": "A unit name or symbol resolves to at most one unit, names irrespective of case, and registering a second unit with the same name in the same system is rejected.", "quantifier": "all sequences of unit registrations", "why_tests_cant": "All registries.", "anchors": ["modularcalculator/services/unitnormaliser.py:UnitNormaliser.add_unit", "modularcalculator/services/unitnormaliser.py:UnitNormaliser.get_unit"]}
{"id": "C61", "title": "Arithmetic does not depend on the units used", "statement": "Adding, subtracting, multiplying and dividing quantities gives the sum, difference, product and quotient of the quantities, whatever units the operands are given in; dimensions add and subtract under * and /, and + and - are accepted only for equal dimensions.", "quantifier": "all pairs of operands with any units (exact arithmetic)", "why_tests_cant": "All combinations of units and the choices normalisation makes.", "anchors": ["modularcalculator/features/numerical/basicarithmetic.py:BasicArithmeticFeature", "modularcalculator/services/unitnormaliser.py:UnitNormaliser.normalise_inputs", "modularcalculator/objects/operators.py:Operation.call"]}
{"id": "C62", "title": "The regular expression functions agree with each other", "statement": "!~ answers the opposite of =~ and both raise for an invalid pattern; regexcount is the number of elements of regexget; regexget with an index is that element of regexget, counted from 1; regexsub without count replaces as with count 0.", "quantifier": "all texts and patterns", "why_tests_cant": "All texts and patterns.", "anchors": ["modularcalculator/features/strings/regex.py:RegexFeature"]}
{"id": "C63", "title": "An error names the operation that failed, once", "statement": "When an operation fails because its inputs are not allowed, their units cannot be combined or its implementation raises, the user sees 'Could not execute NAME with parameters: ...' with the inputs as written and the reason; an error that already names an operation is passed on unchanged by the operations around it.", "quantifier": "all operations, inputs and failures", "why_tests_cant": "All operations nested in all ways, failing for all reasons.", "anchors": ["modularcalculator/objects/operators.py:Operation.call", "modularcalculator/features/numerical/advancedarithmetic.py:AdvancedArithmeticFeature.op_number_integer_divide"]}
{"id": "C64", "title": "The result takes the number type of the first typed operand", "statement": "The number an operation returns is shown in the number type (hexadecimal, percent, ...) of the first operand that has one, and in the type its implementation chose if none has; operations declared to choose the type themselves keep their choice.", "quantifier": "all operations on numbers and all operands", "why_tests_cant": "All operations and combinations of number types.", "anchors": ["modularcalculator/objects/operators.py:Operation.call", "modularcalculator/objects/operators.py:Operation.convert_numbers"]}
{"id": "C65", "title": "Comparisons answer the order of the quantities", "statement": "< > <= >= == != answer the order of the operands: they agree with each other, never contradict the exact order, are exact for numbers of at most the working precision, and compare quantities with units by size, raising if the dimensions differ; not negates.", "quantifier": "all pairs of numbers and quantities", "why_tests_cant": "All pairs of numbers and units.", "anchors": ["modularcalculator/features/boolean/booleans.py:BooleansFeature", "modularcalculator/objects/number.py:Number.__lt__"]}
{"id": "C66", "title": "Rounding functions and integer functions are exact", "statement": "floor, ceil and round to n places give the greatest number with n places not above, the least not below, and the nearest one (ties away from zero), in the base the number is shown in; abs, fact, gcd, lcm, % and \\ have their mathematical meaning, and reject arguments that are not whole (or negative) where these make no sense.", "quantifier": "all numbers and numbers of places within the precision", "why_tests_cant": "All numbers, bases and places.", "anchors": ["modularcalculator/features/numerical/numericalfunctions.py:NumericalFunctionsFeature", "modularcalculator/features/numerical/advancedarithmetic.py:AdvancedArithmeticFeature"]}
{"id": "C67", "title": "Units written next to values mean what they should", "statement": "A unit written after a value is given to that value, units written next to each other are multiplied, / between two units divides the units and anywhere else divides values, and two values next to each other are multiplied.", "quantifier": "all sequences of operands, units and operators", "why_tests_cant": "All sequences and neighbourhoods.", "anchors": ["modularcalculator/engine.py:Engine.execute"]}
{"id": "C68", "title": "Every shipped unit can be written with each of its names and symbols", "statement": "Every name of every shipped unit, in any letter case, and every symbol finds exactly that unit, whichever systems are preferred; a name with a US and a UK meaning finds the unit of the preferred system; and such a text in an expression is read as that unit and not as an operator, a constant, a number or another unit.", "quantifier": "all shipped units with all prefixes, all their names and symbols, all letter cases, all preferences, all texts around the unit", "why_tests_cant": "426 units with about 1300 names and symbols, each of which may be the start of, or start with, the name of an operator, a constant or another unit, in any letter case and context.", "anchors": ["modularcalculator/features/unitdefinitions/", "modularcalculator/services/unitnormaliser.py:UnitNormaliser.get_unit", "modularcalculator/features/units/units.py:UnitsFeature.parse_units"]}
{"id": "C69", "title": "An expression is read as the words it is written with", "statement": "If a text is built from numbers, strings, truth values, operators, constants, units, unit systems, number types, variables, bracketed expressions, function calls, calls of function pointers, inline functions and arrays with ranges and steps, with any spaces and comments between them, and no word runs on into what follows it and no variable directly in an array starts with the word step (see C84), then parsing the text gives exactly those items in that order and reaches the end of the text; complete lines give separate statements; no text is the written form of two different sequences of items.", "quantifier": "every text that the grammar of words, brackets, calls, functions and arrays produces, at every nesting depth and length, every function table, every memory of earlier parses", "why_tests_cant": "The reading of a word depends on about sixty operators and thousands of unit names that could start or continue at the same place, on what was read before and on what follows; a test sees one combination.", "anchors": ["modularcalculator/engine.py: parse", "modularcalculator/features/structure", "modularcalculator/features/numerical/decimalnumbers.py", "modularcalculator/features/units/units.py: parse_units", "modularcalculator/features/state/assignment.py: parse_var"]}
{"id": "C70", "title": "Names that are not reserved can be used for variables", "statement": "A name (a letter or underscore followed by letters, digits and underscores) that is not itself an operator, truth value, constant, unit, unit system or number type is read as one variable.", "quantifier": "every name", "why_tests_cant": "There are infinitely many names, and thousands of reserved words that may be at the start of one.", "anchors": ["modularcalculator/features/state/assignment.py: parse_var", "modularcalculator/features/state/constants.py: parse_constant", "modularcalculator/features/units/units.py: parse_units", "modularcalculator/features/units/systems.py: parse_unitsystems"]}
{"id": "C71", "title": "Calculating a text gives what the expression means", "statement": "For a text that is a written expression (C69), `calculate` gives exactly one result, which is the meaning of the expression, finalized: a bracket means what is inside it, a call means what the function gives for the meanings of its arguments, and operands with operators mean what the documented table of precedence makes of them. What the words, operators and functions do is given; they must leave the calculator's state alone.", "quantifier": "every written expression, at every nesting depth and length, every meaning of its words, operators and functions that the calculator's own agree with, every state of the calculator", "why_tests_cant": "Reading and evaluating interact for infinitely many nestings of brackets, calls and operators; a test sees one of them.", "anchors": ["modularcalculator/engine.py: calculate, parse, execute", "modularcalculator/features/structure/functions.py: FunctionItem.value", "modularcalculator/features/structure/innerexpressions.py: InnerExpressionItem.value", "modularcalculator/objects/items.py"]}
{"id": "C72", "title": "Arithmetic and texts are exact from the written line to the answer", "statement": "For a written expression of decimal numbers, truth values, texts in quotes, variables holding them, arithmetic, comparison and logical operators, the operators on texts (`+$`, `*$`, `<$`, `<=$`, `>$`, `>=$`, `==$`, `!=$` and the ones that ignore capitals), `then`/`else`, brackets and calls of `abs`, `floor`, `ceil`, `round` (also to decimal places), `fact`, `gcd`, `lcm`, `length`, `lower`, `upper`, `lstrip`, `rstrip`, `strip`, `find`, `replace` and `substr`, `calculate` gives one result that is exactly the number, truth value or text that arithmetic with fractions and the documented functions of texts give, and changes no variable, provided that each number an operator or function is applied to is a fraction of at most k digits above and below the line, where 3k+1 is at most the precision.", "quantifier": "every such expression, at every nesting depth and length, every precision p and every k with 3k+1 ≤ p, every values of the variables", "why_tests_cant": "There are infinitely many expressions and numbers; rounding shows only for some of them.", "anchors": ["modularcalculator/engine.py: calculate", "modularcalculator/features/numerical/basicarithmetic.py", "modularcalculator/features/numerical/advancedarithmetic.py", "modularcalculator/features/boolean/booleans.py: op_number_lessthan, op_boolean_and, op_boolean_conditional", "modularcalculator/objects/number.py: Number", "modularcalculator/features/numerical/numericalfunctions.py", "modularcalculator/features/structure/functions.py: FunctionItem.value", "modularcalculator/features/strings/strings.py: parse_string, op_string_add, op_string_multiply", "modularcalculator/features/strings/stringfunctions.py", "modularcalculator/features/strings/stringcomparison.py"]}
{"id": "C73", "title": "Programs with variables compute what they say, line by line", "statement": "For a text of lines, each of them blank, an expression as in C72, an assignment `x = e`, `x ||= e` to a variable that is set, a compound assignment `x += e` (also -=, *=, /=, ^=, %=, \\=), `x++` or `x--`, with spaces and comments anywhere, `calculate` gives one result per line: no value for a blank line, the value of the expression, or the value assigned. Each line sees the variables as the lines before left them; at the end every variable holds what it was last given, and variables that do not occur in the text and the rest of the calculator are unchanged. The right-hand side of an assignment is evaluated as a whole first, whatever operators it has.", "quantifier": "every such program of any number of lines, every expression in it at every length and nesting depth, every precision p and every k with 3k+1 ≤ p, every state of the calculator before", "why_tests_cant": "Programs are unbounded sequences of lines whose meaning depends on the history of the variables; tests run a few of them.", "anchors": ["modularcalculator/engine.py: calculate, execute", "modularcalculator/features/state/assignment.py: op_set, op_set_if_empty, VariableItem.value", "modularcalculator/features/state/assignmentoperators.py: assignment_operator", "modularcalculator/features/structure/terminator.py: parse_terminator", "modularcalculator/features/layout.py"]}
{"id": "C74", "title": "Conversions between shipped units follow the international definitions", "statement": "A text that names a shipped unit (a name in any letter case, or a symbol) finds a unit, and converting a number from one such unit to another multiplies it by the quotient of the sizes which the SI brochure, IEC 80000-13, the yard and pound agreement and the laws on volumes give to these texts; it is an error if the units measure different quantities. The same holds for products of powers of units, and the temperature scales convert as they are defined.", "quantifier": "all pairs of shipped units and all their names and symbols, all numbers, all products of integer powers of shipped units, every order of preferred systems", "why_tests_cant": "426 units under over a thousand names and symbols give almost a million pairs, times all numbers; a wrong factor in one unit shows only in conversions with that unit.", "anchors": ["modularcalculator/features/unitdefinitions", "modularcalculator/services/unitnormaliser.py:unit_conversion,get_unit,add_unit,add_prefixed_unit", "modularcalculator/objects/units.py:UnitDefinition.convert"]}
{"id": "C75", "title": "format writes a quantity as a sum of units", "statement": "format(value) and format(value, system) write the value with the units of the system (for format(value), of the first system in the order of preference that its unit belongs to). The parts add up exactly to the value; they come largest unit first; of every unit without a prefix but the smallest there is a whole number, and what the parts after it hold is less than one of it. A part is given in the largest unit of its kind of which there is at least one. If the system has units for what is measured, format never fails; if it has none, it reports an error.", "quantifier": "all numbers (negative, zero, fractions), all shipped units but temperatures, all systems, all compound units that are simplified to a single unit", "why_tests_cant": "The division depends on the value, the unit and the system, with carries between up to seven units and changes of prefix in between; the claim is about all numbers.", "anchors": ["modularcalculator/features/units/unitfunctions.py:func_format,find_first_unit_prefix_at_least_one", "modularcalculator/services/unitnormaliser.py:get_system,get_preferred_system,simplify_units"]}
{"id": "C76", "title": "An answer is shown in the unit that was asked for, and is the quantity that was computed", "statement": "The answer of 'x to unit' is shown with exactly the units asked for, whatever units the calculator would have chosen, and it is the same quantity as x. An answer without 'to' is shown as the same quantity, in an array element by element. Asking for a unit does not change how other lines are shown. compact(x) is the same quantity as x. An answer that is shown again is shown the same.", "quantifier": "all numbers, all units (products of powers), all registries, all answers including nested arrays, all states of the unit objects", "why_tests_cant": "The unit an answer is shown in depends on a flag on the unit object, which is shared with the item or variable the unit came from; the claim is about all units and all histories of that object.", "anchors": ["modularcalculator/features/units/units.py:op_unit_conversion", "modularcalculator/engine.py:finalize", "modularcalculator/objects/units.py:UnitPowerList.no_simplify", "modularcalculator/features/units/unitfunctions.py:GeneralUnitFunctionsFeature.func_compact"]}
{"id": "C77", "title": "A statement may be broken over lines after an operator, or before else", "statement": "An expression written over several lines, broken after operators that need something on their right or before `else`, is answered exactly as if it were written on one line, whatever the calculator read before. In a program of several statements, each on one or more lines, every statement is answered in order and leaves the variables as the one-line program would.", "quantifier": "all expressions and programs of the documented grammar, all places after such operators and before `else`, all states of the parser's memory of the last incomplete text", "why_tests_cant": "Whether a line break ends the statement is decided by executing the unfinished statement with stand-in operators, and by a memory of the last text that failed; the claim is about every expression, every break and every history of that memory.", "anchors": ["modularcalculator/features/structure/terminator.py:parse_terminator", "modularcalculator/engine.py:execute", "modularcalculator/engine.py:calculate"]}
{"id": "C78", "title": "A text that cannot be read is rejected as a whole, at the mistake", "statement": "If some part of a text cannot be read (a character nothing starts with, two operands side by side, a bracket, call or string that is not closed, a closing bracket that closes nothing, at any depth of brackets and calls and after any lines written as in C69), calculate raises a parsing error whose message names the mistake, whose rest is the text from the mistake on and whose items are the text before it. No statement of the text is run and no variable changes, not even for the lines before the mistake. If anything is run, every character of the text belongs to a statement that was read.", "quantifier": "all texts with such a mistake, at all depths of brackets and calls, after any number of complete lines, from every state; for the last part all texts", "why_tests_cant": "The mistake can be anywhere in an arbitrarily long and deep text, and the claim is that nothing before it takes effect, from every state.", "anchors": ["modularcalculator/engine.py:calculate", "modularcalculator/engine.py:parse", "modularcalculator/features/structure/innerexpressions.py:parse_inner_expr", "modularcalculator/features/structure/functions.py:parse_function", "modularcalculator/features/strings/strings.py:parse_string", "modularcalculator/features/numerical/decimalnumbers.py:parse_number"]}
{"id": "C79", "title": "An expression with units is read as it is written: units first, then values with units, then the rest", "statement": "Calculating a written expression with units gives exactly what its reading means. Units next to each other are multiplied and units with / between them divided before anything else except powers and prefixes; the result belongs to the value before it (5 km/s is 5 of the unit km/s, and 5 km/s*2 h is a product of two quantities); then values next to each other are multiplied; then come * and / and the other operators as documented, with brackets and calls at any depth. A / is a division of quantities unless both neighbouring operands are units. No expression has two readings.", "quantifier": "all written expressions with units (any length and nesting), all meanings of words, operators and functions, all states", "why_tests_cant": "Which operator is applied first depends on the whole expression, because the engine rescans it after every application; the claim is about every length, order and nesting.", "anchors": ["modularcalculator/engine.py:execute", "modularcalculator/engine.py:is_unit", "modularcalculator/features/units/units.py:UnitsFeature.install", "modularcalculator/features/units/units.py:parse_units"]}
{"id": "C80", "title": "An answer with units is never wrong", "statement": "Whatever is calculated with numbers and units that are not temperatures, by + - * / ^ to and the comparisons, by writing units next to values and to each other, and with brackets at any depth: if the expression means a quantity by the ordinary rules of calculating with quantities (amounts of the same dimension are added, subtracted and compared, dimensions multiply with amounts, powers have plain numbers as exponents, a unit written after a value is a factor), then the calculator either reports an error or answers with one value that is this quantity, in whatever units it shows it, and changes nothing. Shown amounts have the dimension of the quantity.", "quantifier": "all written expressions of decimal numbers, units, the operators and brackets, any length and nesting; all unit registries whose sizes are positive and whose multi-units agree with their dimensions; all policies which units are simplified; all states", "why_tests_cant": "Each operator normalises units in its own way and the last step rewrites the unit of the answer; the claim is about every combination of units, operators and nesting.", "anchors": ["modularcalculator/engine.py:calculate", "modularcalculator/engine.py:finalize", "modularcalculator/objects/operators.py:Operation.call", "modularcalculator/features/numerical/basicarithmetic.py", "modularcalculator/features/boolean/booleans.py", "modularcalculator/features/units/units.py:op_unit_conversion", "modularcalculator/services/unitnormaliser.py"]}
{"id": "C81", "title": "What the calculator writes for a unit can be typed back", "statement": "The name the calculator writes for a unit made of any number of units with powers (singular, plural or symbols, with `/`, brackets and `^` where needed), typed alone or after a number as an answer shows it, is read back as the same unit: the same units with the same powers.", "quantifier": "every non-empty list of different shipped units with powers of at most six decimals, every number that can be shown exactly, singular, plural and symbols, every state of the calculator, every setting of the preferred systems", "why_tests_cant": "There are infinitely many units made of the shipped ones, and the names of units contain names of operators, constants and other units.", "anchors": ["modularcalculator/objects/units.py: UnitPowerList.name, get_name, plural, singular, symbol", "modularcalculator/features/units/units.py", "modularcalculator/services/unitnormaliser.py: get_unit"]}
{"id": "C82", "title": "Functions written in a program compute what they say and leave no trace", "statement": "In a program whose lines may also define functions in braces (on one line or on several), store them in variables, choose between them, hand them over as arguments and call them with @name(...), every line is answered with what it means: a call is the last answer of the lines of the function with PARAM1, PARAM2 and so on standing for the arguments, evaluated from left to right, and the other variables as they are where the call stands. Whatever the lines of the function assign, to parameters, to other variables or to the variable that holds the function, after the call every variable is what it was before.", "quantifier": "every program text of the written grammar, every nesting of braces, brackets and calls, every number of arguments and lines, every state of the variables, every precision, all numbers within the digits the precision allows, and every nesting of calls that fits on the stack", "why_tests_cant": "The lines of a function are executed by the same engine on the same variables as the program, so whether a call leaves a trace depends on the whole program around it; tests try a few bodies.", "anchors": ["modularcalculator/features/structure/inlinefunctions.py:InlineFunctionsPointerHandler.do_function", "modularcalculator/features/structure/inlinefunctions.py:InlineFunctionItem", "modularcalculator/features/structure/functionpointers.py:FunctionPointerItem.value", "modularcalculator/engine.py:Engine.calculate", "modularcalculator/engine.py:Engine.execute"]}
{"id": "C83", "title": "Programs with arrays compute what they say", "statement": "A program may write arrays ([a, b, c], [a..b], [a..b step s], mixed) of numbers, truth values, texts and functions, keep them in variables, pass them on and return them from functions. It is answered line by line with what the lines mean: operators, the functions of numbers and texts and functions written in the program are applied to the rows of their array arguments, with scalars taking part in every row; sum, min, max, mean, median, mode, sort, count, reverse, concat, element, filter and join act on arrays as a whole, split makes an array of a text; an array of functions is called function by function; a range is the arithmetic progression from its start to its end. Elements are computed from left to right, each where the one before left off, up to the first that fails. Evaluating an expression leaves every variable as it was.", "quantifier": "every program of the written grammar, every nesting of arrays, calls and functions, every length of arrays and ranges there is room for, every state of the calculator, all numbers short enough for the precision", "why_tests_cant": "Arrays combine with operators, functions, user functions, ranges, variables and each other to unlimited depth and length; each test fixes one such combination.", "anchors": ["modularcalculator/features/arrays/arrays.py: parse_array, ArrayItem, ArrayElement", "modularcalculator/objects/operators.py: OperationDefinition.call", "modularcalculator/features/arrays/arrayfunctions.py", "modularcalculator/features/structure/functionpointers.py: FunctionPointerItem.value", "modularcalculator/features/structure/inlinefunctions.py: do_function", "modularcalculator/features/strings/stringarrayfunctions.py", "modularcalculator/features/numerical/statisticalfunctions.py: func_sum, func_min, func_max"]}
{"id": "C84", "title": "A variable can be written as an element of an array", "statement": "If a name is read as a variable, then the array with this name as its only element is read as an array with this variable.", "quantifier": "every name that is read as a variable", "why_tests_cant": "Names are unlimited; what matters is whether one of the words that mean something in arrays is at their start.", "anchors": ["modularcalculator/features/arrays/arrays.py: parse_array_step", "modularcalculator/features/state/assignment.py: parse_var", "modularcalculator/features/layout.py"]}
{"id": "C85", "title": "Every shipped function can be called by its name", "statement": "No two functions that the calculator ships have the same name, and the name of each, written before an opening bracket, is read as this function's name: name(a, b, ...) calls the function of that name with the parameters written, whichever other function names begin with the same letters (exp and expm1, sin and sinh, sp_y0 and sp_yn).", "quantifier": "every function of every feature that the calculator ships, every list of parameter expressions", "why_tests_cant": "There are more than three hundred names and a parser that takes the longest identifier; a test calls some of them with some parameters, not all with all.", "anchors": ["modularcalculator/features/structure/functions.py: FunctionsFeature.parse_function", "modularcalculator/features/numerical/specialfunctions.py: add_func, format_func_name", "modularcalculator/features/numerical/trigonometryfunctions.py"]}
{"id": "C86", "title": "Trigonometric and special functions are the library's functions of the given values", "statement": "A trigonometric or special function applied to numbers answers exactly the number the mathematical library answers for the floats nearest to those numbers, in the order written (for a function with several outputs, the output its name tells); with another number of parameters, or when the library fails or answers with an infinity or NaN, the calculation ends with an error. Parameters that are not whole numbers are not altered first. An angle given with a unit means that angle.", "quantifier": "every trigonometric and special function, all lists of numbers, all libraries", "why_tests_cant": "There are hundreds of functions and infinitely many parameters; a test compares a few values.", "anchors": ["modularcalculator/features/numerical/specialfunctions.py: add_func, doFunction, func_int_params", "modularcalculator/features/numerical/trigonometryfunctions.py", "modularcalculator/services/unitnormaliser.py: normalise_inputs"]}
{"id": "C87", "title": "log answers the logarithm", "statement": "log(x) of a positive number is its natural logarithm and log(x, b) its logarithm to the base b, up to rounding in the last digits of the working precision; a number that is not positive, and a base that is not positive or is one, end with an error. Amounts with units have no logarithm.", "quantifier": "all positive numbers, all bases, all working precisions of at least two digits, every correctly rounded Decimal.ln", "why_tests_cant": "The rounding errors of numerator, denominator, base and quotient add up differently for every number; a test compares some values to some digits.", "anchors": ["modularcalculator/objects/number.py: Number.log", "modularcalculator/features/numerical/numericalfunctions.py: func_log"]}
{"id": "C88", "title": "An operation that requires a dimension takes exactly the units of that dimension", "statement": "Where an operation requires one of its numbers to have a given physical dimension - a time to be added to a date, an area to be handed to an external function - it accepts a number exactly when its unit has that dimension, whatever units it is written in and in whatever order they are multiplied, and otherwise fails without doing anything.", "quantifier": "for all sets of registered units and dimensions, all requirements, and all products of powers of units", "why_tests_cant": "The units a user can write are unbounded products of powers; which of them have a given dimension is decided by adding up exponents through derived dimensions, and only some orders and some dimensions go wrong.", "anchors": ["modularcalculator/services/unitnormaliser.py: check_unit_dimensions", "modularcalculator/objects/operators.py: validate", "modularcalculator/features/dates/dateoperators.py: DateOperatorsFeature", "modularcalculator/features/dates/datefunctions.py: DateFunctionsFeature", "modularcalculator/features/structure/externalfunctions.py: ExternalFunctionsFeature"]}
{"id": "C89", "title": "A date formatted for reading shows the right weekday and the whole moment", "statement": "dateformat applied to any date of the years 1 to 9999 answers with its weekday, day, month name and year, followed by the time unless it is midnight, the microseconds unless they are zero, and the offset from UTC if it is known. The weekday is the true one of the calendar, two different moments are never shown alike, and now answers with a text that is read as the moment the clock shows.", "quantifier": "for all moments of the years 1 to 9999 with microseconds and any offset from UTC, and for all states of the clock", "why_tests_cant": "There are 3652059 days and many more moments; a mistake in the calendar or in the choice of the format can concern a single century, month or time of day.", "anchors": ["modularcalculator/features/dates/datefunctions.py: func_dateformat, func_now, default_options", "modularcalculator/features/dates/dates.py: correct_format_for_date, string_to_date, date_to_string"]}
{"id": "C90", "title": "Every preset can be loaded at any time, and a larger one offers all that a smaller one does", "statement": "Each listed preset loads without error, in a new calculator and after any history of other installations; afterwards exactly the features present before, those of the preset and what they need are installed. Each preset offers everything the presets listed before it offer, the largest installs every shipped feature and no other, and an unknown preset is refused without changing anything.", "quantifier": "for all presets and all names that are not presets, and all histories of installations", "why_tests_cant": "What a preset meets depends on everything installed before it, in any order; tests load presets into new calculators.", "anchors": ["modularcalculator/modularcalculator.py: load_preset, list_presets, install_features", "modularcalculator/features/presets.py: presets"]}
{"id": "C91", "title": "Changing the notation of a number changes nothing but its looks", "statement": "hex, oct, bin, dec, scientific (without places) and `as` give the same number with the same unit, whatever notation it had before; after any chain of conversions the last one decides how the number is shown; and what is then shown is read by the calculator as that number in that notation, when it can be written exactly. scientific with a number of places rounds the number to the nearest one with one significant digit more than that, and keeps its unit. base writes a number as a text that is read as that number. (`as arbitrarybase` fails for every number, a number typed as 10z5 cannot be shown at all, and base(0xFF, 10) answers the text 10z0xFF: these parts are disproved.)", "quantifier": "all numbers, units, texts that are numbers, notations, chains of conversions, precisions and orders in which the number types were installed", "why_tests_cant": "the claim ranges over chains of conversions of any length and over all numbers", "anchors": ["modularcalculator/features/numerical/decimalfunction.py: DecimalFunctionFeature.func_dec", "modularcalculator/features/numerical/hexadecimalnumbers.py: HexadecimalNumericalRepresentation", "modularcalculator/features/numerical/arbitrarybasenumbers.py: ArbitraryBaseNumericalRepresentation", "modularcalculator/features/numerical/numericalrepresentation.py: NumericalRepresentationFeature.op_as", "modularcalculator/objects/number.py: Number.to_string"]}
{"id": "C92", "title": "The constants are right", "statement": "e, pi and tau are the mathematical constants, correctly rounded to fifty decimal places; tau is exactly twice pi; shown with any number of places they are right to half a unit of the last place (and one unit of the fiftieth), and with the default settings what is shown is the decimal with thirty places nearest to the mathematical constant. The speed of light, the constant of Planck and standard gravity have exactly their defined values, and the constant of gravitation its published one, with units of the right dimension. (e and tau are off by one in the fiftieth place: that part is disproved for them.)", "quantifier": "all constants, working precisions of at least 51 digits and numbers of places shown; against the real numbers e and pi of Mathlib", "why_tests_cant": "a test compares digits with digits that someone copied; here the digits are compared with the real numbers themselves, for every display precision", "anchors": ["modularcalculator/features/numerical/numericalconstants.py: NumericalConstantsFeature", "modularcalculator/features/units/unitconstants.py: UnitConstantsFeature.install", "modularcalculator/features/state/constants.py: ConstantItem", "modularcalculator/objects/number.py: Number.to_string"]}
{"id": "C93", "title": "Powers and exp agree with the real numbers", "statement": "For a positive x and any exponent y, x ^ y differs from the real power only in the last digits of the working precision, with the unit of x raised to y, and fails only if the decimal library cannot give a power. exp(x) is the exponential function of x to the working precision.", "quantifier": "all positive numbers, all exponents and all working precisions", "why_tests_cant": "Every base and exponent: the error has to be bounded through all the roundings of fractions.", "anchors": ["modularcalculator/objects/number.py:Number.__pow__", "modularcalculator/features/numerical/numericalfunctions.py:NumericalFunctionsFeature", "modularcalculator/features/numerical/basicarithmetic.py:BasicArithmeticFeature"]}
{"id": "C94", "title": "Whole division and remainder fit together", "statement": "x is (x \\ y) * y + x % y for all numbers x and y other than 0, with a remainder smaller than y in size, and x \\ y is x / y without its fraction, as the description of \\ says.", "quantifier": "all pairs of numbers with at most a third of the digits of the working precision", "why_tests_cant": "All pairs of numbers.", "anchors": ["modularcalculator/features/numerical/advancedarithmetic.py:AdvancedArithmeticFeature", "modularcalculator/objects/number.py:Number.__mod__"]}
{"id": "C95", "title": "The settings for numbers hold for the calculator they were made for", "statement": "A calculation works with the number of digits, shows the number of decimal places and rounds in the way its calculator was last asked for, whatever other calculators were made and set in the same process and in whichever thread the calculation runs. A setting that is refused changes nothing.", "quantifier": "all histories of making calculators and setting their digits, places and rounding, over any number of calculators and threads", "why_tests_cant": "Precision and rounding are kept per thread and places per process, not per calculator; whether a calculator's own settings are in force depends on the whole history of every other calculator and thread.", "anchors": ["modularcalculator/numericalengine.py:NumericalEngine", "modularcalculator/objects/number.py:Number.set_precision", "modularcalculator/objects/number.py:Number.set_rounding"]}
{"id": "C96", "title": "Statistics of quantities", "statement": "The sum of an array of quantities, whatever units they are written in, is what adding its elements with + gives. The mean and the median are the mean and the median of the quantities, in the unit of the first. The minimum and the maximum are elements as they were written, below or above which no other lies, and sort puts the elements in the order of the quantities. Temperatures count as points on their scale. Quantities of different dimensions, or with and without a unit, are refused.", "quantifier": "all arrays of quantities, all registries of units whose sizes are powers of a positive scale, all unit lists", "why_tests_cant": "Arrays of any length mixing any units of the registry.", "anchors": ["modularcalculator/features/numerical/statisticalfunctions.py:StatisticalFunctionsFeature.func_sum", "modularcalculator/features/numerical/statisticalfunctions.py:StatisticalFunctionsFeature.func_mean", "modularcalculator/features/numerical/statisticalfunctions.py:StatisticalFunctionsFeature.func_min", "modularcalculator/features/numerical/statisticalfunctions.py:StatisticalFunctionsFeature.func_max", "modularcalculator/features/numerical/statisticalfunctions.py:StatisticalFunctionsFeature.func_median", "modularcalculator/features/arrays/arrayfunctions.py:ArrayFunctionsFeature.func_array_sort", "modularcalculator/services/unitnormaliser.py:UnitNormaliser.normalise_inputs"]}
{"id": "C97", "title": "The work on units comes to an end", "statement": "Every calculation with units ends: bringing the operands of an operation to common units, and simplifying the unit of an answer, stop after finitely many steps, with an answer or an error, whatever the numbers, the units and their powers are.", "quantifier": "all numbers, all lists of units with any rational powers, all registries with proper dimensions, any number of operands", "why_tests_cant": "A loop that does not end on some unit is only found by trying that unit; there are infinitely many units with powers.", "anchors": ["modularcalculator/services/unitnormaliser.py:UnitNormaliser.normalise_inputs", "modularcalculator/services/unitnormaliser.py:UnitNormaliser.normalise_from_left", "modularcalculator/services/unitnormaliser.py:UnitNormaliser.simplify_units"]}
{"id": "C98", "title": "What is shown in another base is the number cut off after the places", "statement": "A number shown in binary (without a width), octal, hexadecimal or any base from 2 to 36 other than ten is a minus sign if it is negative, the prefix, a whole part without zeros in front, and at most the set number of places without a zero at the end. The number written is never larger in size than the number itself, and less than one in the last place away from it: it is cut off, not rounded. What is shown can be typed in again, and is then that number.", "quantifier": "every fraction small enough for the working precision, every number of places, every base from 2 to 36 other than ten, every precision", "why_tests_cant": "Whether the digits cut off are right, and whether the text can be read, depends on the number, the base and the places together; a test sees only the few numbers chosen, mostly ones that end in that base.", "anchors": ["modularcalculator/features/numerical/bases.py:BasesFeature.dec_to_base", "modularcalculator/features/numerical/bases.py:BasesFeature.number_add_prefix", "modularcalculator/features/numerical/binarynumbers.py:BinaryNumericalRepresentation", "modularcalculator/features/numerical/octalnumbers.py:OctalNumericalRepresentation", "modularcalculator/features/numerical/hexadecimalnumbers.py:HexadecimalNumericalRepresentation", "modularcalculator/features/numerical/arbitrarybasenumbers.py:ArbitraryBaseNumericalRepresentation"]}
{"id": "C99", "title": "repr of a number makes the same number", "statement": "The text repr gives for a number in lowest terms is a call of Number with texts, readable in one way only, that makes a number with the same numerator and denominator, however long they are and whatever precision is set when it is evaluated. Different numbers therefore have different texts. (The display type of a number is not part of the text.)", "quantifier": "every number in lowest terms, of any size and sign, and every precision", "why_tests_cant": "Numbers and precisions are unbounded, and rounding in the constructor would show only for numbers longer than the precision at the time.", "anchors": ["modularcalculator/objects/number.py: Number.__repr__, Number.__init__"]}
