{
 "C01": {
  "note": "",
  "status": "proved"
 },
 "C02": {
  "note": "Exactness is proved under explicit digit bounds; C02_beyond_precision shows a bound is needed.",
  "status": "proved"
 },
 "C03": {
  "note": "",
  "status": "proved"
 },
 "C04": {
  "note": "",
  "status": "proved"
 },
 "C05": {
  "note": "",
  "status": "proved"
 },
 "C06": {
  "note": "False of the code in general (C06_hash_violation); proved for numbers whose decimal quotient fits the precision.",
  "status": "partial"
 },
 "C07": {
  "note": "False of the code for operands of different signs (C07_law_violation); proved when the quotient is not negative. C07_floordiv and C07_mod give the exact result of each operator for all signs.",
  "status": "partial"
 },
 "C08": {
  "note": "Non-integer powers are an external function.",
  "status": "proved"
 },
 "C09": {
  "note": "Exact under explicit digit bounds; C09_floor_beyond_precision shows a bound is needed.",
  "status": "proved"
 },
 "C10": {
  "note": "",
  "status": "proved"
 },
 "C11": {
  "note": "Values that round to zero from below print as -0, and values with more digits than the context cannot be printed; both are proved as violations with witnesses. The partial theorem covers every other value.",
  "status": "partial"
 },
 "C12": {
  "note": "",
  "status": "proved"
 },
 "C13": {
  "note": "Integers in every base; numbers with a fraction in every base but ten, whose decimal form is C10.",
  "status": "proved"
 },
 "C14": {
  "note": "Positional value proved for every base. Validation is false of the code for the text 0 (C14_base_range_violation) and for base ten (C14_base_ten_violation, C14_base_ten_error_violation); proved for the other bases.",
  "status": "partial"
 },
 "C15": {
  "note": "Binary proved. Hexadecimal and octal keep the width only without leading zeros (C15_leading_zero_violation).",
  "status": "partial"
 },
 "C16": {
  "note": "False for literals whose digits contain the prefix text, such as 36z36z1 (C16_prefix_violation, C16_empty_violation); proved for all others.",
  "status": "partial"
 },
 "C17": {
  "note": "Default symbol E. Explicit digit bounds.",
  "status": "proved"
 },
 "C18": {
  "note": "Proved: bit-by-bit meaning of &, |, ^^, shifts and ~ at the operands' width. Not true of the code: `~` on a zero that carries no width (decimal literal 0) raises a raw ValueError; C18_not_zero_violation is the witness.",
  "status": "partial"
 },
 "C19": {
  "note": "C19_lossless/C19_nested: any parsers obeying the contract Spec.Ok; C19_shipped: the shipped parsers obey it (shipped_ok), any names, any precision.",
  "status": "proved"
 },
 "C20": {
  "note": "A nesting bound of the text's length plus one always suffices (C20_finishes) and no larger bound changes the result (C20_bound_irrelevant). C20_outcome: items, a parsing error at a position in the text, or the Python exception of a literal's conversion (10zab raises decimal.InvalidOperation).",
  "status": "proved"
 },
 "C21": {
  "note": "Statement amended to what the code does: only symbols made of letters only are protected. C21_underscore shows 'ending in a letter' would be false (IMPLICIT_MULTIPLY).",
  "status": "proved"
 },
 "C22": {
  "note": "C22_string: any quote and escape characters that differ; C22_expression: the whole expression under the shipped parsers.",
  "status": "proved"
 },
 "C23": {
  "note": "All texts and trees; for parsed items also that highlighting never fails and gives one fragment per leaf.",
  "status": "proved"
 },
 "C24": {
  "note": "Parsing errors of every text (C24_parsing); execution errors in a statement and, by truncation of the item, in a bracket (C24_execution, C24_execution_inside). The item lists of FunctionItem.value with skipped empty arguments are not modelled.",
  "status": "proved"
 },
 "C25": {
  "note": "False as stated: C25_violation (3 %⏎4 then 3%⏎4). C25_history_partial: equal to a fresh calculator unless the remembered line is a sublist of the expression.",
  "status": "partial"
 },
 "C26": {
  "note": "For every operator table of the general form and every tree the table dictates; C26_shipped instantiates it with the shipped table. Operators in the tree are state-free; the unit operators are outside the tree grammar.",
  "status": "proved"
 },
 "C27": {
  "note": "Each rewrite shortens the list, so an explicit bound on the rewrites suffices; the result is one operand, or an error.",
  "status": "proved"
 },
 "C28": {
  "note": "Proved for all item lists. At text level it fails in one place: f( ) passes an empty argument and fails where f() is valid (C28_blank_argument_violation).",
  "status": "partial"
 },
 "C29": {
  "note": "Proved for inputs the operation does not spread over arrays, for and/or/xor/then, and for whole expressions. False when the other operand is an empty array: the result is an empty array and the error is lost (C29_empty_array_violation).",
  "status": "partial"
 },
 "C30": {
  "note": "Any operation, nesting and number of inputs, with the state threaded through the applications; an element's failure is an element. Also the form sum(1,2,3) = sum([1,2,3]).",
  "status": "proved"
 },
 "C31": {
  "note": "Rejection with unchanged state, and independence of the implementation from inputs that are not allowed, arrays included. C31_arguments: at the level of expressions, a function is not called when one of its arguments failed, and later arguments are not evaluated.",
  "status": "proved"
 },
 "C32": {
  "note": "Success, failure position, results kept, state kept, and prefix independence, for any statement executor.",
  "status": "proved"
 },
 "C33": {
  "note": "Assignment, ||=, failing assignments, and x = e inside the operator engine. The result shows the value as it was before casts of array elements, for values whose elements carry no pending cast (what an operation returns).",
  "status": "proved"
 },
 "C34": {
  "note": "Proved for every assigning operator and for whole calculations whose functions do not write variables. False for reset() and delete(x): they change variables in stateless mode (witnesses).",
  "status": "partial"
 },
 "C35": {
  "note": "Proved for bodies with at least one statement whose statements do not raise outside calculate, and for external functions. False for the empty body {}: the parameters stay set (witness).",
  "status": "partial"
 },
 "C36": {
  "note": "Invariant over any history of calculations with any mix of operators, functions, user functions, reset and delete. About the value of the variable itself; an array stored in a variable may have error elements (C36_element_note).",
  "status": "proved"
 },
 "C37": {
  "note": "Proved for a number on the right whose number type is none or that of the result. False for arrays on the right (successive updates) and other number types (witnesses).",
  "status": "partial"
 },
 "C38": {
  "note": "For every layout without repeated symbols and every addition history; the tables also give the same answer to every calculation. Includes the shipped layout.",
  "status": "proved"
 },
 "C39": {
  "note": "",
  "status": "proved"
 },
 "C40": {
  "note": "For every acyclic, closed feature table, groups included, and every history of successful requests; the shipped table is one. Cycles recurse forever, and an unknown name raises KeyError and leaves features marked (C40_cycle_note, C40_unknown_note).",
  "status": "proved"
 },
 "C41": {
  "note": "False when the other feature comes in through a group (C41_group_violation). Proved otherwise, and always for the shipped features (C41_shipped).",
  "status": "partial"
 },
 "C42": {
  "note": "Exact arithmetic; powers of unit sizes are assumed to obey the exponent laws (Lawful), which is proved for real powers of positive sizes.",
  "status": "proved"
 },
 "C43": {
  "note": "Proved for lists in which no base dimension recurs after its powers cancelled (Steady), which is what deduplicate handles correctly. For other lists the claim is false: C43_wrong_dimension_violation, C43_same_dimension_violation.",
  "status": "partial"
 },
 "C44": {
  "note": "Proved for numbers with units, and for bare units when something is left. Bare units that cancel completely (metres/metres) raise: C44_units_cancel_violation.",
  "status": "partial"
 },
 "C45": {
  "note": "Normalisation: all operands (the loops end: C97_normalise). Simplification: all lists without temperature units, whose absolute conversion is not proportional, for runs of the loop that finish (C97 shows a unit for which it does not).",
  "status": "partial"
 },
 "C46": {
  "note": "The replacement of groups always keeps the dimension. The final merging of units of the same dimension (dedupe) does not: C46_dimension_violation, C46_error_violation; proved for the lists it handles correctly (DedupeSafe).",
  "status": "partial"
 },
 "C47": {
  "note": "For integer powers, as stated; goals are non-empty, as they are in the code.",
  "status": "proved"
 },
 "C48": {
  "note": "",
  "status": "proved"
 },
 "C49": {
  "note": "False for lists in which a base dimension recurs after its powers cancelled: deduplicate removes the wrong entry (C49_dimension_violation, C49_repeated_violation). Proved for all other lists.",
  "status": "partial"
 },
 "C50": {
  "note": "C50_range, C50_default_step, C50_wrong_sign on grids within the precision. Not as stated: without a step, start and end in different units of one dimension raise (C50_mixed_units_violation) although the end can be reached; a zero step gives an empty result (C50_zero_step).",
  "status": "partial"
 },
 "C51": {
  "note": "False as stated: C51_violation, C51_stuck_violation (the step is lost to rounding). C51_finishes_partial: ends for bounds and steps on a grid within the precision.",
  "status": "partial"
 },
 "C52": {
  "note": "All of the statement except that index 0 and negative indices are not errors but count from the end (C52_element_violation).",
  "status": "partial"
 },
 "C53": {
  "note": "Exact within the precision; mean with one rounding in general. stdev: the variance is computed exactly and the result is the number of that precision nearest to its root, assuming this of the square root of Python's library, which is a parameter (C53_stdev).",
  "status": "proved"
 },
 "C54": {
  "note": "Proved for separators that are strings, in both directions (back only for one-character separators, where it is true). A separator that is not a string, such as a number, works in split but raises in join (C54_number_separator_violation).",
  "status": "partial"
 },
 "C55": {
  "note": "Concatenation, repetition, length, the comparisons, find, replace, rstrip and strip as stated. lstrip raises for characters that are not a string, substr wraps around for ends far before the text and raises for negative ends of values that are not strings (violations).",
  "status": "partial"
 },
 "C56": {
  "note": "Adding and then subtracting any duration gives the original date, texts are read and written faithfully for the whole calendar, differences are symmetric, mixed offsets and overflow raise. Exactness of addition and difference is proved for durations below 2^32 seconds or in whole seconds; beyond that the seconds are rounded to a float (C56_large_violation). Years below 1000 with an offset that has seconds are written with too few digits on platforms where strftime does not pad (C56_year_violation). dateformat and now are C89.",
  "status": "partial"
 },
 "C57": {
  "note": "Numbers are heap objects whose display type can be overwritten. Values of variables never change (all operations without effects, arrays included). The display stays for all operations that return new objects or set no type, for element with an untyped index and for min/max of numbers of one type; it changes for element(x, 0b10) and min(x) with mixed types (violations). Harmless operations are shown to agree with the value-based model used elsewhere. Finalizing in place is modelled with shared lists (Model/Share): over any session the variables it does not assign and the earlier answers are untouched with unit simplification off (C57_shown); with it on, every element of an array stays the same quantity (C57_shown_partial; missing: temperatures) but its unit is overwritten (C57_shown_violation: x = [5 seconds^-1] becomes hertz).",
  "status": "partial"
 },
 "C58": {
  "note": "With the shipped operator table, if literals, variables and functions raise only calculator errors then so does calculate, except for a function argument that is an exception other than an ExecuteException: AttributeError. C58_argument_violation exhibits abs(element(1/[0], 1)). Operations raise only calculator errors whatever their implementation does, provided their inputs can be written in the message. The engine's own raw exceptions (operator missing from the table, several items left) are proved unreachable. C58_reading_partial: a text is read or rejected with a ParsingException, unless it contains 10z or a z, digits and a z (OddBase in Spec/Reading); C58_reading_violation: 1 + 10zab and max(36z36z, 2) raise InvalidOperation and IndexError. C58_text_partial puts reading and the engine together, from the text. Numbers too large for the decimal library (1E99999999999999999999) are outside the model, and ranges with ends that are not numbers ([true..5]) raise raw errors in their operand.",
  "status": "partial"
 },
 "C59": {
  "note": "Proved for delete of a variable not holding an array, for missing variables, reset and constants. False for arrays: delete(x) is spread over the elements and may delete other variables (witness).",
  "status": "partial"
 },
 "C60": {
  "note": "Lookup is a function of the registrations, as stated. A second unit with the same name is not rejected but silently replaces the first (C60_duplicate_violation); only members of ambiguous units are checked.",
  "status": "partial"
 },
 "C61": {
  "note": "Every result that is computed is right. Some products and quotients raise instead: C61_product_violation.",
  "status": "partial"
 },
 "C62": {
  "note": "The module re is a parameter.",
  "status": "proved"
 },
 "C63": {
  "note": "As stated, except that an internal error of Python inside an inner operation is named by the outer one again (C63_twice_violation): 1 \\ 0 names two operations.",
  "status": "partial"
 },
 "C64": {
  "note": "For operations on numbers; the first type among the elements is used for arrays of numbers (C53, C54).",
  "status": "proved"
 },
 "C65": {
  "note": "Comparisons with units are of the values the normaliser gives. C65_levels: these are in the order of the levels, for units proportional to a base unit and for temperatures (points on their scale). C65_compound_violation: a unit with a temperature inside (metre/Celsius against metre/kelvin) is compared wrongly, as the offset of the scale is added to it. That other dimensions raise is proved for the unit lists C43 covers.",
  "status": "partial"
 },
 "C66": {
  "note": "Within the precision. Quantities with units: abs, fact, floor, ceil and round keep the unit; gcd, lcm, % and \\ work on the measures the unit normaliser gives (C66_*_units), which are the measures of the two quantities in the unit of the result for units proportional to a base unit (C66_measures, C66_remainder), and raise when there is no common unit. \\ is the floor of the quotient; that its description says otherwise is C94. C66_notation: with the number types of the calculator, rounding is to places of the notation the number is written in (binary, octal, hexadecimal and arbitrary digits, digits before the percent sign), and the answer keeps that notation and the unit.",
  "status": "proved"
 },
 "C67": {
  "note": "Which operator is applied at each position is proved for every level and neighbourhood; that the operators are applied in that order in every expression with units, and hence what the expression means, is C79_expression.",
  "status": "proved"
 },
 "C68": {
  "note": "Finding is proved in full over the whole shipped table. Reading is proved for every name and symbol except as and GΩ, for which it is false: as is read as the operator, and GΩ (gigaohm) as the constant G followed by the ohm (C68_read_violation_as, C68_read_violation_gigaohm). In an expression the unit must be followed by the end of the text or an ASCII separator other than - . and (.",
  "status": "partial"
 },
 "C69": {
  "note": "Spec: Spec/Written.lean, a grammar of words (what may follow each), brackets, calls, function pointers, inline functions and arrays. C69_read, C69_statements, C69_unambiguous for the calculator with everything installed. Variables directly in arrays must not start with 'step', see C84. Not in the grammar: literals in other bases; their lexers are covered by C16, C17, C19 and C20.",
  "status": "proved"
 },
 "C70": {
  "note": "Proved for every name of letters that is not reserved (C70_letters_partial) and for every name where no reserved word at the start ends before a character that such a word may end at (C70_names_partial). False in general: e_1 is read as the constant e and the variable _1, si_size as the unit system si and a variable, and m2 cannot be read (C70_violation*).",
  "status": "partial"
 },
 "C71": {
  "note": "C71_expression joins the theorems about the parser (C69) and about the engine (C22 and others). Arrays, inline functions and function pointers are not part of the expressions.",
  "status": "proved"
 },
 "C72": {
  "note": "C72_arithmetic. Powers are whole powers whose numerator and denominator stay below 10^k. The limit on the digits is what exactness needs: see C02 and C05 for what happens beyond it. For floor, ceil and round the variables hold decimal numbers that are not percentages (places are counted in the base a number is shown in: C66). Texts come from Spec/Texts: capitals are turned only in ASCII texts (str.lower/upper of other characters is a parameter), and a whole number stands for its digits where a text is expected, for decimal numbers. Numbers written in other ways, other functions and units are not part of these expressions.",
  "status": "proved"
 },
 "C73": {
  "note": "C73_program. Spec/Program states what lines mean. That the lines are complete (terminator.py's fake execution) is proved, not assumed. No variable holds an error at the start (C36 proves that none ever does); `||=` on an unset variable is C33_if_empty; variables may hold texts; numbers with units and functions other than those of C72 are not in this fragment.",
  "status": "proved"
 },
 "C74": {
  "note": "Proved for all shipped units but the parsec, the degree, the acre, the pound-force per square inch and the US dram, and for all texts but the symbols of kibi units. Those are violations: the US dram is half its size (16 instead of 8 in a US fluid ounce), acre and psi are rounded, parsec and degree are (necessarily) rational approximations, and the kibibyte is kiB instead of KiB. The definitions (Spec/International.lean) were written from the standards, each unit in terms of others; powers of sizes are a parameter with the usual laws (shown for real powers). C74_registry shows that the suppositions of C42-C46, C48 and C61 hold of the shipped units.",
  "status": "partial"
 },
 "C75": {
  "note": "Proved for all shipped units but temperatures, in exact arithmetic: success, the division (Spec/Format.lean: Divides, WrittenAs) and the sum. For temperatures the claim is false (C75_temperature_violation): format(20 Celsius) is '20 Celsius, 273.15 kelvin', because the rest of zero degrees Celsius is converted to kelvin as a temperature and not as a difference. A value of zero gives the empty text. Numbers in the text are rounded for display (C63); this theorem is about the numbers before display.",
  "status": "partial"
 },
 "C76": {
  "note": "Proved: the unit and the quantity of 'to' (units proportional to their base units; temperatures are C48), and that finalizing an answer keeps its shape and every quantity but temperatures. That other lines do not change is false for the unit object that is asked for (C76_others_violation): after u = seconds^-1 the line '5 u' shows 5 hertz, and after '3 hertz to u', which assigns nothing, it shows 5 seconds^-1, because the flag is set on the object in the variable. For all other units it is proved (C76_others_partial). compact (C76_compact_partial, C76_compact_bare) is the same quantity, but for temperatures, and an error without a unit. Answers in one unit to a positive power, temperatures too, are shown unchanged (C76_one_unit), and compact leaves them (C76_compact_one). Showing an answer again shows the same if there was nothing to merge in the end (C76_again_partial, C76_again_answer_partial); else it can change (C76_again_violation: 5 seconds^-1 hours^-1 is shown in seconds^-2, and that in hertz^2).",
  "status": "partial"
 },
 "C77": {
  "note": "C77_expression: an expression broken after operators or before 'else', with any memory of the parser, gives the answer of the one-line reading. C77_program_partial: programs (C73) with broken statements, if no text before a break is, with its spaces removed, the same as a whole statement that another statement follows. That condition is needed: C77_violation shows '3 %' break '4' then '3%' then '5' is rejected, because the memory of the text that was incomplete is compared without spaces.",
  "status": "partial"
 },
 "C78": {
  "note": "C78_rejected for any parser of incomplete statements, C78_program for the shipped one, C78_whole for all texts, C78_foreign lists the characters nothing starts with. The mistakes are those of Spec/Unreadable; arrays, inline functions and pointers before or around a mistake are not covered by C78_rejected (C78_whole covers them).",
  "status": "proved"
 },
 "C79": {
  "note": "The grammar with units is Spec/UnitPhrase; C79_expression is about calculating a text, C79_unambiguous says that readings are unique. A product or quotient by * or / that is a unit is covered only if both operands are units, which is what op_number_multiply and op_number_divide give; the value of a quantity (UNIT_ASSIGNMENT) and of an implicit product is not a bare unit. What the operators do is a parameter here (see C71, C72).",
  "status": "proved"
 },
 "C80": {
  "note": "C80_sound_partial: text in, answer out, against a separate calculus of quantities (Spec/Physics) in which no units are left. The amount is right for every answer; the dimension is proved when the units of answers are not simplified, and is false in general (C46_dimension_violation). Numbers are exact here (rounding is C08-C10), temperatures are C48, some quantities that exist are reported as errors (C43, C44, C61 violations). The converse is false in one place: the unit of the exponent of a unit is ignored, so metre^(2 minutes) gives metre^2 although it means nothing (C80_exponent_violation).",
  "status": "partial"
 },
 "C81": {
  "note": "Proved for names as written in answers (get_name, singular, plural, symbol). False, and proved so: with negative_powers=True and units in front, `meter/seconds^-1` is read as meter times second; the symbols `as` and `GΩ` are not read as units; a third as a power is written in decimals and is not a third when read.",
  "status": "partial"
 },
 "C82": {
  "note": "C82_program: from the text to the answers, line by line, with what the variables hold afterwards; C82_expression: one line, with the state unchanged. Calls may be nested to any depth d that fits on the stack (depth is a parameter of the model, d ≤ depth). Functions are first-class: they can be stored, passed on and chosen between. Operands are numbers, truth values, texts and functions; functions in files are a parameter (C37).",
  "status": "proved"
 },
 "C83": {
  "note": "Spec: Spec/Lists.lean. C83_program and C83_expression go from text to answers, with the parser (C69), the engine, the operations (C61, C62, C76), the rules for arrays (C21, C50, C52) and functions (C82). Arrays in arrays, arrays of units, ranges with units (C50) and errors in elements are not in the meaning. The conditions on the size of numbers and on the room for ranges are those of Spec/Lists.lean. element with index 0 or below, filter with more flags than elements, and stdev are not in the meaning (C52, C53); mean, median and mode are in it for decimal numbers, and mean where it has few enough places to be exact. C83_order and C83_order_fails are about elements that change the state (Spec/ArrayOrder.lean), for elements without ranges.",
  "status": "proved"
 },
 "C84": {
  "note": "Violated by the code: a name that starts with the letters 'step' ends the element, since parse_array_step compares only the first four characters and is tried before parse_var; [stepsize] is rejected with 'Parsing error in array' (C84_violation, for every such name). C84_variable_partial: all other names are read as they should.",
  "status": "partial"
 },
 "C85": {
  "note": "The table of names and parameter counts is generated from /repo by tools/funcs.py; distinctness and readability are facts about the whole table, the call theorem holds for all parameter texts.",
  "status": "proved"
 },
 "C86": {
  "note": "Proved for all shipped special functions given floats and all trigonometric functions of numbers without unit, and that library failures and wrong parameter counts are errors. Violated in two ways: sp_kn, sp_bdtrc, sp_bdtri and sp_nbdtri truncate every parameter to a whole number, so sp_kn(1, 0.5) is sp_kn(1, 0) (C86_integers_violation); and a trigonometric function ignores the unit of an angle and gives it to its answer, so sin(180 degrees) is the sine of 180 radians, in degrees (C86_angle_violation). The library (math, scipy.special) and the conversions between Decimal and float are parameters.",
  "status": "partial"
 },
 "C87": {
  "note": "Proved against Real.log and Real.logb of Mathlib, for every ln that rounds the real logarithm to p digits (such an ln is shown to exist): the absolute error is at most 26 units of the last digit of log num + log den, with a base 37 units of that divided by |log b|. Violated in three ways: the logarithm is taken as a difference, so that near one no digit of the answer need be right, although the argument has no more digits than the precision (C87_digits_violation); the base is made a float, so log(0.1, 0.1) is off from 1 by more than 1e-18 whatever the precision (C87_base_violation); and an amount with a unit gets the logarithm of its number, with the unit (C87_unit_violation). C87_base_partial and C87_call_base_partial are for bases that are floats. A base <= 0 ends with a NameError, as ExecutionException is not imported in number.py.",
  "status": "partial"
 },
 "C88": {
  "note": "Proved: whatever the check accepts has the required dimension (C88_accepted_partial); a required power of one base dimension is accepted exactly for the units of that dimension (C88_one_dimension_partial), for the shipped units and the times added to dates C88_time_partial; an operation is not applied to a number of another dimension and changes nothing (C88_refused, C88_date_refuses_partial). The code violates the rest: a derived dimension such as area or energy is accepted for no unit at all, because the unit's dimensions are broken down to base dimensions and the required ones are not (C88_derived_violation); and a required product is compared with the order in which the unit's factors are written (C88_order_violation). The hypothesis Steady excludes the units for which the dimension itself is computed wrongly (C49).",
  "status": "partial"
 },
 "C89": {
  "note": "For the default formats and English names (the calculator does not set a locale). datetime.now() is a parameter; now needs a year that is written with four digits (every year from 1000 on).",
  "status": "proved"
 },
 "C90": {
  "note": "Over the table of shipped features of C40. What each feature's own install does is not modelled.",
  "status": "proved"
 },
 "C91": {
  "note": "The positive parts are proved in full (C91_convert, C91_as, C91_scientific, C91_last_wins, C91_places, C91_shown, C91_base). Partial because the code violates three parts of the statement: C91_arbitrary_violation, C91_ten_violation and C91_base_ten_violation.",
  "status": "partial"
 },
 "C92": {
  "note": "C92_close: all three within one unit of the fiftieth place; C92_nearest_partial: pi is correctly rounded; false for the others (C92_e_violation: e is cut off; C92_tau_violation: tau is twice the rounded pi). C92_tau, C92_shown, C92_default and C92_physical as stated. G is a measured constant (CODATA 2014) and has no defined value.",
  "status": "partial"
 },
 "C93": {
  "note": "C93_power bounds the error of ^ by (150 + 10 |y log x|) units of the last of p digits, relative to the power. exp is right only to about fifty digits (C93_exp_partial), since it raises the stored e, which has 51 digits: C93_exp_violation. The powers of the decimal library are a parameter, assumed right to one unit in the last place where they answer (AnswersPowers); powers_exist shows the assumption can be met.",
  "status": "partial"
 },
 "C94": {
  "note": "True when the quotient is not negative, or whole (C94_partial). For all others false: \\ takes the floor while % has the sign of x, so the two give x - y (C94_violation, for every such pair; -7 \\ 2 is -4 and -7 % 2 is -1).",
  "status": "partial"
 },
 "C95": {
  "note": "C95_alone_partial: with one calculator in one thread, and sizes decimal takes, every history leaves the calculation with exactly what was last asked for. C95_refresh: from every state of the process, setting a calculator's digits (or places) makes this thread work with its settings again. C95_other_threads: what other threads do never changes a thread's digits or rounding. The full statement is false of the code, for three reasons, each proved: C95_two_violation (making a second calculator resets the first one's places; shown on 1/3, with C95_two_violation_otherwise for comparison), C95_thread_violation (a calculator used in another thread than it was made in works with 28 digits, rounding halves to even) and C95_refused_violation (a refused size is remembered, and every later setting of places is refused).",
  "status": "partial"
 },
 "C96": {
  "note": "C96_sum_adds_partial: without temperatures the sum is what + gives, for every array (and an error exactly when + is one). C96_temperature_violation: with temperatures it is not, since the sum takes [20 Celsius, 1 kelvin] as points on the scale and + as a difference. C96_sum_partial, C96_mean, C96_min_max, C96_sort and C96_median run the registered functions on a whole array whose elements the normaliser brings to one unit, and say what they answer of the levels (points on the scale, Spec/Levels), for numbers within the working precision. C96_mixed_partial: a different dimension (for the unit lists C43 covers) or a missing unit is an error. Units with a temperature inside a compound are left out: see C65_compound_violation.",
  "status": "partial"
 },
 "C97": {
  "note": "C97_normalise: bringing operands to common units ends for every registry with proper dimensions (C97_shipped: the registry of the calculator), so + - * / on quantities end (C97_operations). C97_simplify_violation: simplification does not, on nautical miles^0.5 meters seconds^-2 with the shipped units, whatever the number; C97_reached: the operations of 10 * nautical miles^0.5 * meters / seconds^2 give that unit. C97_simplify_partial: it ends where the registry has no multi-units and the negative powers that come up are whole. It is not a matter of broken powers: C97_whole_violation is 10 * nautical miles * meters / seconds^2, for which the calculator never answers, however sizes are compared.",
  "status": "partial"
 },
 "C98": {
  "note": "C98_cut and C98_prefixed: the digits are the number cut off (CutOff in Spec/BasesCut), for every base, sign and number of places, whenever the fraction fits the precision (FitsBase). C98_reads_back_partial: the text shown is read as a number at most as large and less than one in the last place away, for all four representations (base 36 is left out there, because a digit Z can be taken for the prefix, C16). The last sentence fails as stated: C98_point_violation shows that every number whose fraction part is there but shorter than one in the last place is shown with a point and nothing after it (0b1.), which is no literal.",
  "status": "partial"
 },
 "C99": {
  "note": "Spec/Repr.lean says what a call of Number with quoted texts is; C99_repr, C99_different. Every number the calculator makes from whole numbers within the precision is in lowest terms (C01).",
  "status": "proved"
 }
}