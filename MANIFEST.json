{
 "claims": [
  {
   "property": "C01",
   "status": "proved",
   "theorems": [
    "MC.Props.C01_lowest_terms",
    "MC.Props.C01_decimal_pair",
    "MC.Props.C01_literal",
    "MC.Props.C01_unique",
    "MC.Props.C01_den_pos",
    "MC.Props.C01_zero_denominator"
   ],
   "note": ""
  },
  {
   "property": "C02",
   "status": "proved",
   "theorems": [
    "MC.Props.C02_add_exact",
    "MC.Props.C02_sub_exact",
    "MC.Props.C02_mul_exact",
    "MC.Props.C02_div_exact",
    "MC.Props.C02_neg_exact",
    "MC.Props.C02_abs_exact",
    "MC.Props.C02_exact_digits",
    "MC.Props.C02_div_mul_cancel",
    "MC.Props.C02_div_by_zero",
    "MC.Props.C02_beyond_precision"
   ],
   "note": "Exactness is proved under explicit digit bounds; C02_beyond_precision shows a bound is needed."
  },
  {
   "property": "C03",
   "status": "proved",
   "theorems": [
    "MC.Props.C03_nearest",
    "MC.Props.C03_exact",
    "MC.Props.C03_half_unit",
    "MC.Props.C03_tie",
    "MC.Props.C03_monotone",
    "MC.Props.C03_symmetric"
   ],
   "note": ""
  },
  {
   "property": "C04",
   "status": "proved",
   "theorems": [
    "MC.Props.C04_add_comm",
    "MC.Props.C04_mul_comm"
   ],
   "note": ""
  },
  {
   "property": "C05",
   "status": "proved",
   "theorems": [
    "MC.Props.C05_exact_digits",
    "MC.Props.C05_trichotomy",
    "MC.Props.C05_derived",
    "MC.Props.C05_equivalence",
    "MC.Props.C05_transitive",
    "MC.Props.C05_sound",
    "MC.Props.C05_exact",
    "MC.Props.C05_separation"
   ],
   "note": ""
  },
  {
   "property": "C06",
   "status": "partial",
   "theorems": [
    "MC.Props.C06_hash_violation",
    "MC.Props.C06_hash_partial"
   ],
   "note": "False of the code in general (C06_hash_violation); proved for numbers whose decimal quotient fits the precision."
  },
  {
   "property": "C07",
   "status": "partial",
   "theorems": [
    "MC.Props.C07_floordiv",
    "MC.Props.C07_mod",
    "MC.Props.C07_law_partial",
    "MC.Props.C07_law_violation",
    "MC.Props.C07_zero_divisor",
    "MC.Props.C07_divmod_partial"
   ],
   "note": "False of the code for operands of different signs (C07_law_violation); proved when the quotient is not negative. C07_floordiv and C07_mod give the exact result of each operator for all signs."
  },
  {
   "property": "C08",
   "status": "proved",
   "theorems": [
    "MC.Props.C08_integer_power",
    "MC.Props.C08_exponent_sum",
    "MC.Props.C08_zero_base"
   ],
   "note": "Non-integer powers are an external function."
  },
  {
   "property": "C09",
   "status": "proved",
   "theorems": [
    "MC.Props.C09_floor",
    "MC.Props.C09_ceil",
    "MC.Props.C09_trunc",
    "MC.Props.C09_round",
    "MC.Props.C09_round_idempotent",
    "MC.Props.C09_integers",
    "MC.Props.C09_floor_beyond_precision"
   ],
   "note": "Exact under explicit digit bounds; C09_floor_beyond_precision shows a bound is needed."
  },
  {
   "property": "C10",
   "status": "proved",
   "theorems": [
    "MC.Props.C10_read_back",
    "MC.Props.C10_read_back_any",
    "MC.Props.C10_same_text"
   ],
   "note": ""
  },
  {
   "property": "C11",
   "status": "partial",
   "theorems": [
    "MC.Props.C11_well_formed_partial",
    "MC.Props.C11_showable_iff",
    "MC.Props.C11_showable",
    "MC.Props.C11_zero",
    "MC.Props.C11_sign",
    "MC.Props.C11_minus_zero_violation",
    "MC.Props.C11_unshowable_violation"
   ],
   "note": "Values that round to zero from below print as -0, and values with more digits than the context cannot be printed; both are proved as violations with witnesses. The partial theorem covers every other value."
  },
  {
   "property": "C12",
   "status": "proved",
   "theorems": [
    "MC.Props.C12_as_fraction"
   ],
   "note": ""
  },
  {
   "property": "C13",
   "status": "proved",
   "theorems": [
    "MC.Props.C13_round_trip",
    "MC.Props.C13_integers",
    "MC.Props.C13_injective",
    "MC.Props.C13_hex",
    "MC.Props.C13_oct",
    "MC.Props.C13_arbitrary_base",
    "MC.Props.C13_bin"
   ],
   "note": "Integers in every base; numbers with a fraction in every base but ten, whose decimal form is C10."
  },
  {
   "property": "C14",
   "status": "partial",
   "theorems": [
    "MC.Props.C14_positional",
    "MC.Props.C14_validated_partial",
    "MC.Props.C14_base_range_partial",
    "MC.Props.C14_base_range_violation",
    "MC.Props.C14_base_ten_violation",
    "MC.Props.C14_base_ten_error_violation",
    "MC.Props.C14_hex_literal",
    "MC.Props.C14_oct_literal",
    "MC.Props.C14_bin_literal",
    "MC.Props.C14_literal_partial"
   ],
   "note": "Positional value proved for every base. Validation is false of the code for the text 0 (C14_base_range_violation) and for base ten (C14_base_ten_violation, C14_base_ten_error_violation); proved for the other bases."
  },
  {
   "property": "C15",
   "status": "partial",
   "theorems": [
    "MC.Props.C15_binary_width",
    "MC.Props.C15_hex_partial",
    "MC.Props.C15_oct_partial",
    "MC.Props.C15_leading_zero_violation"
   ],
   "note": "Binary proved. Hexadecimal and octal keep the width only without leading zeros (C15_leading_zero_violation)."
  },
  {
   "property": "C16",
   "status": "partial",
   "theorems": [
    "MC.Props.C16_value_partial",
    "MC.Props.C16_prefix_violation",
    "MC.Props.C16_empty_violation"
   ],
   "note": "False for literals whose digits contain the prefix text, such as 36z36z1 (C16_prefix_violation, C16_empty_violation); proved for all others."
  },
  {
   "property": "C17",
   "status": "proved",
   "theorems": [
    "MC.Props.C17_percent_value",
    "MC.Props.C17_exp_value",
    "MC.Props.C17_percent_round_trip",
    "MC.Props.C17_exp_round_trip"
   ],
   "note": "Default symbol E. Explicit digit bounds."
  },
  {
   "property": "C18",
   "status": "partial",
   "theorems": [
    "MC.Props.C18_bits",
    "MC.Props.C18_bits_determine",
    "MC.Props.C18_shifts",
    "MC.Props.C18_not",
    "MC.Props.C18_not_unsized",
    "MC.Props.C18_not_zero_violation",
    "MC.Props.C18_not_negative",
    "MC.Props.C18_not_literal"
   ],
   "note": "Proved: bit-by-bit meaning of &, |, ^^, shifts and ~ at the operands' width. Not true of the code: `~` on a zero that carries no width (decimal literal 0) raises a raw ValueError; C18_not_zero_violation is the witness."
  },
  {
   "property": "C19",
   "status": "proved",
   "theorems": [
    "MC.Props.C19_lossless",
    "MC.Props.C19_nested",
    "MC.Props.C19_shipped"
   ],
   "note": "C19_lossless/C19_nested: any parsers obeying the contract Spec.Ok; C19_shipped: the shipped parsers obey it (shipped_ok), any names, any precision."
  },
  {
   "property": "C20",
   "status": "proved",
   "theorems": [
    "MC.Props.C20_finishes",
    "MC.Props.C20_bound_irrelevant",
    "MC.Props.C20_outcome"
   ],
   "note": "A nesting bound of the text's length plus one always suffices (C20_finishes) and no larger bound changes the result (C20_bound_irrelevant). C20_outcome: items, a parsing error at a position in the text, or the Python exception of a literal's conversion (10zab raises decimal.InvalidOperation)."
  },
  {
   "property": "C21",
   "status": "proved",
   "theorems": [
    "MC.Props.C21_longest",
    "MC.Props.C21_none",
    "MC.Props.C21_underscore"
   ],
   "note": "Statement amended to what the code does: only symbols made of letters only are protected. C21_underscore shows 'ending in a letter' would be false (IMPLICIT_MULTIPLY)."
  },
  {
   "property": "C22",
   "status": "proved",
   "theorems": [
    "MC.Props.C22_string",
    "MC.Props.C22_expression"
   ],
   "note": "C22_string: any quote and escape characters that differ; C22_expression: the whole expression under the shipped parsers."
  },
  {
   "property": "C23",
   "status": "proved",
   "theorems": [
    "MC.Props.C23_highlight",
    "MC.Props.C23_statements",
    "MC.Props.C23_parsed"
   ],
   "note": "All texts and trees; for parsed items also that highlighting never fails and gives one fragment per leaf."
  },
  {
   "property": "C24",
   "status": "proved",
   "theorems": [
    "MC.Props.C24_position",
    "MC.Props.C24_parsing",
    "MC.Props.C24_restored",
    "MC.Props.C24_restored_inside",
    "MC.Props.C24_execution",
    "MC.Props.C24_execution_inside"
   ],
   "note": "Parsing errors of every text (C24_parsing); execution errors in a statement and, by truncation of the item, in a bracket (C24_execution, C24_execution_inside). The item lists of FunctionItem.value with skipped empty arguments are not modelled."
  },
  {
   "property": "C25",
   "status": "partial",
   "theorems": [
    "MC.Props.C25_history_partial",
    "MC.Props.C25_violation"
   ],
   "note": "False as stated: C25_violation (3 %\u23ce4 then 3%\u23ce4). C25_history_partial: equal to a fresh calculator unless the remembered line is a sublist of the expression."
  },
  {
   "property": "C26",
   "status": "proved",
   "theorems": [
    "MC.Props.C26_precedence",
    "MC.Props.C26_tree_exists",
    "MC.Props.C26_unambiguous",
    "MC.Props.C26_shipped",
    "MC.Props.C26_grammar",
    "MC.Props.C26_operands"
   ],
   "note": "For every operator table of the general form and every tree the table dictates; C26_shipped instantiates it with the shipped table. Operators in the tree are state-free; the unit operators are outside the tree grammar."
  },
  {
   "property": "C27",
   "status": "proved",
   "theorems": [
    "MC.Props.C27_bound",
    "MC.Props.C27_finishes",
    "MC.Props.C27_one_result"
   ],
   "note": "Each rewrite shortens the list, so an explicit bound on the rewrites suffices; the result is one operand, or an error."
  },
  {
   "property": "C28",
   "status": "partial",
   "theorems": [
    "MC.Props.C28_spaces",
    "MC.Props.C28_insert",
    "MC.Props.C28_calculate",
    "MC.Props.C28_blank_argument_violation"
   ],
   "note": "Proved for all item lists. At text level it fails in one place: f( ) passes an empty argument and fails where f() is valid (C28_blank_argument_violation)."
  },
  {
   "property": "C29",
   "status": "partial",
   "theorems": [
    "MC.Props.C29_ordinary_partial",
    "MC.Props.C29_empty_array_violation",
    "MC.Props.C29_shortcut",
    "MC.Props.C29_needed",
    "MC.Props.C29_needed_fails",
    "MC.Props.C29_then",
    "MC.Props.C29_expression"
   ],
   "note": "Proved for inputs the operation does not spread over arrays, for and/or/xor/then, and for whole expressions. False when the other operand is an empty array: the result is an empty array and the error is lost (C29_empty_array_violation)."
  },
  {
   "property": "C30",
   "status": "proved",
   "theorems": [
    "MC.Props.C30_elementwise",
    "MC.Props.C30_row_unique",
    "MC.Props.C30_lengths",
    "MC.Props.C30_collect"
   ],
   "note": "Any operation, nesting and number of inputs, with the state threaded through the applications; an element's failure is an element. Also the form sum(1,2,3) = sum([1,2,3])."
  },
  {
   "property": "C31",
   "status": "proved",
   "theorems": [
    "MC.Props.C31_arguments",
    "MC.Props.C31_rejects",
    "MC.Props.C31_only_allowed",
    "MC.Props.C31_prepared"
   ],
   "note": "Rejection with unchanged state, and independence of the implementation from inputs that are not allowed, arrays included. C31_arguments: at the level of expressions, a function is not called when one of its arguments failed, and later arguments are not evaluated."
  },
  {
   "property": "C32",
   "status": "proved",
   "theorems": [
    "MC.Props.C32_success",
    "MC.Props.C32_failure",
    "MC.Props.C32_failure_reported",
    "MC.Props.C32_prefix",
    "MC.Props.C32_answer",
    "MC.Props.C32_error_value"
   ],
   "note": "Success, failure position, results kept, state kept, and prefix independence, for any statement executor."
  },
  {
   "property": "C33",
   "status": "proved",
   "theorems": [
    "MC.Props.C33_assign",
    "MC.Props.C33_if_empty",
    "MC.Props.C33_failed",
    "MC.Props.C33_expression"
   ],
   "note": "Assignment, ||=, failing assignments, and x = e inside the operator engine. The result shows the value as it was before casts of array elements, for values whose elements carry no pending cast (what an operation returns)."
  },
  {
   "property": "C34",
   "status": "partial",
   "theorems": [
    "MC.Props.C34_operators",
    "MC.Props.C34_calculation_partial",
    "MC.Props.C34_reset_violation",
    "MC.Props.C34_delete_violation"
   ],
   "note": "Proved for every assigning operator and for whole calculations whose functions do not write variables. False for reset() and delete(x): they change variables in stateless mode (witnesses)."
  },
  {
   "property": "C35",
   "status": "partial",
   "theorems": [
    "MC.Props.C35_inline_partial",
    "MC.Props.C35_empty_body_violation",
    "MC.Props.C35_external",
    "MC.Props.C35_call"
   ],
   "note": "Proved for bodies with at least one statement whose statements do not raise outside calculate, and for external functions. False for the empty body {}: the parameters stay set (witness)."
  },
  {
   "property": "C36",
   "status": "proved",
   "theorems": [
    "MC.Props.C36_operators",
    "MC.Props.C36_functions",
    "MC.Props.C36_reset",
    "MC.Props.C36_delete",
    "MC.Props.C36_history",
    "MC.Props.C36_body",
    "MC.Props.C36_element_note"
   ],
   "note": "Invariant over any history of calculations with any mix of operators, functions, user functions, reset and delete. About the value of the variable itself; an array stored in a variable may have error elements (C36_element_note)."
  },
  {
   "property": "C37",
   "status": "partial",
   "theorems": [
    "MC.Props.C37_compound_partial",
    "MC.Props.C37_failed",
    "MC.Props.C37_unset",
    "MC.Props.C37_array_violation",
    "MC.Props.C37_type_violation"
   ],
   "note": "Proved for a number on the right whose number type is none or that of the result. False for arrays on the right (successive updates) and other number types (witnesses)."
  },
  {
   "property": "C38",
   "status": "proved",
   "theorems": [
    "MC.Props.C38_table",
    "MC.Props.C38_order",
    "MC.Props.C38_permutation",
    "MC.Props.C38_direction_refused",
    "MC.Props.C38_shipped_layout",
    "MC.Props.C38_shipped_addable"
   ],
   "note": "For every layout without repeated symbols and every addition history; the tables also give the same answer to every calculation. Includes the shipped layout."
  },
  {
   "property": "C39",
   "status": "proved",
   "theorems": [
    "MC.Props.C39_parsers",
    "MC.Props.C39_order",
    "MC.Props.C39_shipped"
   ],
   "note": ""
  },
  {
   "property": "C40",
   "status": "proved",
   "theorems": [
    "MC.Props.C40_result_unique",
    "MC.Props.C40_installs",
    "MC.Props.C40_once",
    "MC.Props.C40_dependencies_first",
    "MC.Props.C40_again",
    "MC.Props.C40_skip_missing",
    "MC.Props.C40_shipped_acyclic",
    "MC.Props.C40_shipped_closed",
    "MC.Props.C40_cycle_note",
    "MC.Props.C40_unknown_note"
   ],
   "note": "For every acyclic, closed feature table, groups included, and every history of successful requests; the shipped table is one. Cycles recurse forever, and an unknown name raises KeyError and leaves features marked (C40_cycle_note, C40_unknown_note)."
  },
  {
   "property": "C41",
   "status": "partial",
   "theorems": [
    "MC.Props.C41_after_partial",
    "MC.Props.C41_group_violation",
    "MC.Props.C41_no_group_partial",
    "MC.Props.C41_shipped"
   ],
   "note": "False when the other feature comes in through a group (C41_group_violation). Proved otherwise, and always for the shipped features (C41_shipped)."
  },
  {
   "property": "C42",
   "status": "proved",
   "theorems": [
    "MC.Props.C42_conversion_value",
    "MC.Props.C42_conversion_back",
    "MC.Props.C42_conversion_via",
    "MC.Props.C42_conversion_same"
   ],
   "note": "Exact arithmetic; powers of unit sizes are assumed to obey the exponent laws (Lawful), which is proved for real powers of positive sizes."
  },
  {
   "property": "C43",
   "status": "partial",
   "theorems": [
    "MC.Props.C43_conversion_partial",
    "MC.Props.C43_same_dimension_partial",
    "MC.Props.C43_missing_unit",
    "MC.Props.C43_wrong_dimension_violation",
    "MC.Props.C43_same_dimension_violation"
   ],
   "note": "Proved for lists in which no base dimension recurs after its powers cancelled (Steady), which is what deduplicate handles correctly. For other lists the claim is false: C43_wrong_dimension_violation, C43_same_dimension_violation."
  },
  {
   "property": "C44",
   "status": "partial",
   "theorems": [
    "MC.Props.C44_multiply",
    "MC.Props.C44_divide",
    "MC.Props.C44_power",
    "MC.Props.C44_cancel",
    "MC.Props.C44_units_partial",
    "MC.Props.C44_units_cancel_violation"
   ],
   "note": "Proved for numbers with units, and for bare units when something is left. Bare units that cancel completely (metres/metres) raise: C44_units_cancel_violation."
  },
  {
   "property": "C45",
   "status": "partial",
   "theorems": [
    "MC.Props.C45_normalise",
    "MC.Props.C45_normalise_dimension",
    "MC.Props.C45_simplify_partial"
   ],
   "note": "Normalisation: all operands (the loops end: C97_normalise). Simplification: all lists without temperature units, whose absolute conversion is not proportional, for runs of the loop that finish (C97 shows a unit for which it does not)."
  },
  {
   "property": "C46",
   "status": "partial",
   "theorems": [
    "MC.Props.C46_replacement",
    "MC.Props.C46_simplify_partial",
    "MC.Props.C46_dimension_violation",
    "MC.Props.C46_error_violation"
   ],
   "note": "The replacement of groups always keeps the dimension. The final merging of units of the same dimension (dedupe) does not: C46_dimension_violation, C46_error_violation; proved for the lists it handles correctly (DedupeSafe)."
  },
  {
   "property": "C47",
   "status": "proved",
   "theorems": [
    "MC.Props.C47_search",
    "MC.Props.C47_one_list_per_goal"
   ],
   "note": "For integer powers, as stated; goals are non-empty, as they are in the code."
  },
  {
   "property": "C48",
   "status": "proved",
   "theorems": [
    "MC.Props.C48_temperature_back",
    "MC.Props.C48_temperature_formulas",
    "MC.Props.C48_relative_linear"
   ],
   "note": ""
  },
  {
   "property": "C49",
   "status": "partial",
   "theorems": [
    "MC.Props.C49_dimension_partial",
    "MC.Props.C49_dimension_violation",
    "MC.Props.C49_repeated_violation",
    "MC.Props.C49_one_sign_partial"
   ],
   "note": "False for lists in which a base dimension recurs after its powers cancelled: deduplicate removes the wrong entry (C49_dimension_violation, C49_repeated_violation). Proved for all other lists."
  },
  {
   "property": "C50",
   "status": "partial",
   "theorems": [
    "MC.Props.C50_range",
    "MC.Props.C50_wrong_sign",
    "MC.Props.C50_default_step",
    "MC.Props.C50_mixed_units_violation",
    "MC.Props.C50_default_step_units",
    "MC.Props.C50_single",
    "MC.Props.C50_failed",
    "MC.Props.C50_zero_step",
    "MC.Props.C50_units_consistent"
   ],
   "note": "C50_range, C50_default_step, C50_wrong_sign on grids within the precision. Not as stated: without a step, start and end in different units of one dimension raise (C50_mixed_units_violation) although the end can be reached; a zero step gives an empty result (C50_zero_step)."
  },
  {
   "property": "C51",
   "status": "partial",
   "theorems": [
    "MC.Props.C51_bound_irrelevant",
    "MC.Props.C51_finishes_partial",
    "MC.Props.C51_stuck_violation",
    "MC.Props.C51_violation"
   ],
   "note": "False as stated: C51_violation, C51_stuck_violation (the step is lost to rounding). C51_finishes_partial: ends for bounds and steps on a grid within the precision."
  },
  {
   "property": "C52",
   "status": "partial",
   "theorems": [
    "MC.Props.C52_concat",
    "MC.Props.C52_reverse",
    "MC.Props.C52_reverse_involution",
    "MC.Props.C52_count",
    "MC.Props.C52_filter",
    "MC.Props.C52_filter_too_many",
    "MC.Props.C52_element",
    "MC.Props.C52_element_violation",
    "MC.Props.C52_element_outside",
    "MC.Props.C52_sort"
   ],
   "note": "All of the statement except that index 0 and negative indices are not errors but count from the end (C52_element_violation)."
  },
  {
   "property": "C53",
   "status": "proved",
   "theorems": [
    "MC.Props.C53_sum",
    "MC.Props.C53_min",
    "MC.Props.C53_max",
    "MC.Props.C53_min_exact",
    "MC.Props.C53_max_exact",
    "MC.Props.C53_mean",
    "MC.Props.C53_mean_exact",
    "MC.Props.C53_median",
    "MC.Props.C53_mode",
    "MC.Props.C53_empty",
    "MC.Props.C53_stdev",
    "MC.Props.C53_stdev_exact",
    "MC.Props.C53_stdev_few"
   ],
   "note": "Exact within the precision; mean with one rounding in general. stdev: the variance is computed exactly and the result is the number of that precision nearest to its root, assuming this of the square root of Python's library, which is a parameter (C53_stdev)."
  },
  {
   "property": "C54",
   "status": "partial",
   "theorems": [
    "MC.Props.C54_split",
    "MC.Props.C54_split_empty",
    "MC.Props.C54_join",
    "MC.Props.C54_join_plain",
    "MC.Props.C54_split_join",
    "MC.Props.C54_join_split",
    "MC.Props.C54_number_separator_violation"
   ],
   "note": "Proved for separators that are strings, in both directions (back only for one-character separators, where it is true). A separator that is not a string, such as a number, works in split but raises in join (C54_number_separator_violation)."
  },
  {
   "property": "C55",
   "status": "partial",
   "theorems": [
    "MC.Props.C55_append",
    "MC.Props.C55_length",
    "MC.Props.C55_length_append",
    "MC.Props.C55_repeat",
    "MC.Props.C55_length_repeat",
    "MC.Props.C55_compare",
    "MC.Props.C55_compare_caseless",
    "MC.Props.C55_total_order",
    "MC.Props.C55_find",
    "MC.Props.C55_find_absent",
    "MC.Props.C55_replace",
    "MC.Props.C55_replace_split_join",
    "MC.Props.C55_replace_empty",
    "MC.Props.C55_lstrip_partial",
    "MC.Props.C55_lstrip_violation",
    "MC.Props.C55_rstrip",
    "MC.Props.C55_strip",
    "MC.Props.C55_substr_rest",
    "MC.Props.C55_substr_partial",
    "MC.Props.C55_substr_violation",
    "MC.Props.C55_substr_number_violation"
   ],
   "note": "Concatenation, repetition, length, the comparisons, find, replace, rstrip and strip as stated. lstrip raises for characters that are not a string, substr wraps around for ends far before the text and raises for negative ends of values that are not strings (violations)."
  },
  {
   "property": "C56",
   "status": "partial",
   "theorems": [
    "MC.Props.C56_reads",
    "MC.Props.C56_writes",
    "MC.Props.C56_add_partial",
    "MC.Props.C56_subtract_partial",
    "MC.Props.C56_add_then_subtract",
    "MC.Props.C56_overflow",
    "MC.Props.C56_difference_partial",
    "MC.Props.C56_difference_symmetric",
    "MC.Props.C56_mixed",
    "MC.Props.C56_add_then_difference_partial",
    "MC.Props.C56_scaling",
    "MC.Props.C56_large_violation",
    "MC.Props.C56_year_violation"
   ],
   "note": "Adding and then subtracting any duration gives the original date, texts are read and written faithfully for the whole calendar, differences are symmetric, mixed offsets and overflow raise. Exactness of addition and difference is proved for durations below 2^32 seconds or in whole seconds; beyond that the seconds are rounded to a float (C56_large_violation). Years below 1000 with an offset that has seconds are written with too few digits on platforms where strftime does not pad (C56_year_violation). dateformat and now are C89."
  },
  {
   "property": "C57",
   "status": "partial",
   "theorems": [
    "MC.Props.C57_operation_values",
    "MC.Props.C57_values",
    "MC.Props.C57_display_partial",
    "MC.Props.C57_harmless",
    "MC.Props.C57_element_partial",
    "MC.Props.C57_min_partial",
    "MC.Props.C57_max_partial",
    "MC.Props.C57_min_violation",
    "MC.Props.C57_element_violation",
    "MC.Props.C57_shown",
    "MC.Props.C57_shown_partial",
    "MC.Props.C57_shown_violation"
   ],
   "note": "Numbers are heap objects whose display type can be overwritten. Values of variables never change (all operations without effects, arrays included). The display stays for all operations that return new objects or set no type, for element with an untyped index and for min/max of numbers of one type; it changes for element(x, 0b10) and min(x) with mixed types (violations). Harmless operations are shown to agree with the value-based model used elsewhere. Finalizing in place is modelled with shared lists (Model/Share): over any session the variables it does not assign and the earlier answers are untouched with unit simplification off (C57_shown); with it on, every element of an array stays the same quantity (C57_shown_partial; missing: temperatures) but its unit is overwritten (C57_shown_violation: x = [5 seconds^-1] becomes hertz)."
  },
  {
   "property": "C58",
   "status": "partial",
   "theorems": [
    "MC.Props.C58_engine_partial",
    "MC.Props.C58_engine_plain_partial",
    "MC.Props.C58_operation_partial",
    "MC.Props.C58_argument_violation",
    "MC.Props.C58_reading_partial",
    "MC.Props.C58_reading_violation",
    "MC.Props.C58_text_partial"
   ],
   "note": "With the shipped operator table, if literals, variables and functions raise only calculator errors then so does calculate, except for a function argument that is an exception other than an ExecuteException: AttributeError. C58_argument_violation exhibits abs(element(1/[0], 1)). Operations raise only calculator errors whatever their implementation does, provided their inputs can be written in the message. The engine's own raw exceptions (operator missing from the table, several items left) are proved unreachable. C58_reading_partial: a text is read or rejected with a ParsingException, unless it contains 10z or a z, digits and a z (OddBase in Spec/Reading); C58_reading_violation: 1 + 10zab and max(36z36z, 2) raise InvalidOperation and IndexError. C58_text_partial puts reading and the engine together, from the text. Numbers too large for the decimal library (1E99999999999999999999) are outside the model, and ranges with ends that are not numbers ([true..5]) raise raw errors in their operand."
  },
  {
   "property": "C59",
   "status": "partial",
   "theorems": [
    "MC.Props.C59_delete_partial",
    "MC.Props.C59_delete_missing",
    "MC.Props.C59_reset",
    "MC.Props.C59_constant",
    "MC.Props.C59_delete_array_violation"
   ],
   "note": "Proved for delete of a variable not holding an array, for missing variables, reset and constants. False for arrays: delete(x) is spread over the elements and may delete other variables (witness)."
  },
  {
   "property": "C60",
   "status": "partial",
   "theorems": [
    "MC.Props.C60_lookup",
    "MC.Props.C60_ambiguous",
    "MC.Props.C60_case_insensitive",
    "MC.Props.C60_second_member_rejected",
    "MC.Props.C60_duplicate_violation"
   ],
   "note": "Lookup is a function of the registrations, as stated. A second unit with the same name is not rejected but silently replaces the first (C60_duplicate_violation); only members of ambiguous units are checked."
  },
  {
   "property": "C61",
   "status": "partial",
   "theorems": [
    "MC.Props.C61_common_unit",
    "MC.Props.C61_multiply_partial",
    "MC.Props.C61_divide_partial",
    "MC.Props.C61_add",
    "MC.Props.C61_subtract",
    "MC.Props.C61_add_dimensions_partial",
    "MC.Props.C61_product_violation"
   ],
   "note": "Every result that is computed is right. Some products and quotients raise instead: C61_product_violation."
  },
  {
   "property": "C62",
   "status": "proved",
   "theorems": [
    "MC.Props.C62_match",
    "MC.Props.C62_count",
    "MC.Props.C62_get",
    "MC.Props.C62_sub"
   ],
   "note": "The module re is a parameter."
  },
  {
   "property": "C63",
   "status": "partial",
   "theorems": [
    "MC.Props.C63_reported",
    "MC.Props.C63_always_named",
    "MC.Props.C63_nested_partial",
    "MC.Props.C63_integer_division",
    "MC.Props.C63_twice_violation"
   ],
   "note": "As stated, except that an internal error of Python inside an inner operation is named by the outer one again (C63_twice_violation): 1 \\ 0 names two operations."
  },
  {
   "property": "C64",
   "status": "proved",
   "theorems": [
    "MC.Props.C64_result_type",
    "MC.Props.C64_own_type"
   ],
   "note": "For operations on numbers; the first type among the elements is used for arrays of numbers (C53, C54)."
  },
  {
   "property": "C65",
   "status": "partial",
   "theorems": [
    "MC.Props.C65_compare",
    "MC.Props.C65_units",
    "MC.Props.C65_normalise_none",
    "MC.Props.C65_quantities",
    "MC.Props.C65_dimensions_partial",
    "MC.Props.C65_not",
    "MC.Props.C65_levels",
    "MC.Props.C65_compound_violation"
   ],
   "note": "Comparisons with units are of the values the normaliser gives. C65_levels: these are in the order of the levels, for units proportional to a base unit and for temperatures (points on their scale). C65_compound_violation: a unit with a temperature inside (metre/Celsius against metre/kelvin) is compared wrongly, as the offset of the scale is added to it. That other dimensions raise is proved for the unit lists C43 covers."
  },
  {
   "property": "C66",
   "status": "proved",
   "theorems": [
    "MC.Props.C66_abs",
    "MC.Props.C66_fact",
    "MC.Props.C66_rounding",
    "MC.Props.C66_negative_places",
    "MC.Props.C66_modulus",
    "MC.Props.C66_gcd_lcm",
    "MC.Props.C66_integer_division",
    "MC.Props.C66_abs_unit",
    "MC.Props.C66_fact_unit",
    "MC.Props.C66_gcd_lcm_units",
    "MC.Props.C66_modulus_units",
    "MC.Props.C66_integer_division_units",
    "MC.Props.C66_no_common_unit",
    "MC.Props.C66_normalise_one",
    "MC.Props.C66_measures",
    "MC.Props.C66_remainder",
    "MC.Props.C66_notation"
   ],
   "note": "Within the precision. Quantities with units: abs, fact, floor, ceil and round keep the unit; gcd, lcm, % and \\ work on the measures the unit normaliser gives (C66_*_units), which are the measures of the two quantities in the unit of the result for units proportional to a base unit (C66_measures, C66_remainder), and raise when there is no common unit. \\ is the floor of the quotient; that its description says otherwise is C94. C66_notation: with the number types of the calculator, rounding is to places of the notation the number is written in (binary, octal, hexadecimal and arbitrary digits, digits before the percent sign), and the answer keeps that notation and the unit."
  },
  {
   "property": "C67",
   "status": "proved",
   "theorems": [
    "MC.Props.C67_division",
    "MC.Props.C67_adjacent",
    "MC.Props.C67_shipped"
   ],
   "note": "Which operator is applied at each position is proved for every level and neighbourhood; that the operators are applied in that order in every expression with units, and hence what the expression means, is C79_expression."
  },
  {
   "property": "C68",
   "status": "partial",
   "theorems": [
    "MC.Props.C68_read_partial",
    "MC.Props.C68_read_next_partial",
    "MC.Props.C68_read_violation_gigaohm",
    "MC.Props.C68_read_violation_as",
    "MC.Props.C68_accepted",
    "MC.Props.C68_names",
    "MC.Props.C68_symbols",
    "MC.Props.C68_two_meanings"
   ],
   "note": "Finding is proved in full over the whole shipped table. Reading is proved for every name and symbol except as and G\u03a9, for which it is false: as is read as the operator, and G\u03a9 (gigaohm) as the constant G followed by the ohm (C68_read_violation_as, C68_read_violation_gigaohm). In an expression the unit must be followed by the end of the text or an ASCII separator other than - . and (."
  },
  {
   "property": "C69",
   "status": "proved",
   "theorems": [
    "MC.Props.C69_read",
    "MC.Props.C69_statements",
    "MC.Props.C69_unambiguous"
   ],
   "note": "Spec: Spec/Written.lean, a grammar of words (what may follow each), brackets, calls, function pointers, inline functions and arrays. C69_read, C69_statements, C69_unambiguous for the calculator with everything installed. Variables directly in arrays must not start with 'step', see C84. Not in the grammar: literals in other bases; their lexers are covered by C16, C17, C19 and C20."
  },
  {
   "property": "C70",
   "status": "partial",
   "theorems": [
    "MC.Props.C70_names_partial",
    "MC.Props.C70_letters_partial",
    "MC.Props.C70_violation_constant",
    "MC.Props.C70_violation_system",
    "MC.Props.C70_violation_unit",
    "MC.Props.C70_violation"
   ],
   "note": "Proved for every name of letters that is not reserved (C70_letters_partial) and for every name where no reserved word at the start ends before a character that such a word may end at (C70_names_partial). False in general: e_1 is read as the constant e and the variable _1, si_size as the unit system si and a variable, and m2 cannot be read (C70_violation*)."
  },
  {
   "property": "C71",
   "status": "proved",
   "theorems": [
    "MC.Props.C71_expression"
   ],
   "note": "C71_expression joins the theorems about the parser (C69) and about the engine (C22 and others). Arrays, inline functions and function pointers are not part of the expressions."
  },
  {
   "property": "C72",
   "status": "proved",
   "theorems": [
    "MC.Props.C72_arithmetic"
   ],
   "note": "C72_arithmetic. Powers are whole powers whose numerator and denominator stay below 10^k. The limit on the digits is what exactness needs: see C02 and C05 for what happens beyond it. For floor, ceil and round the variables hold decimal numbers that are not percentages (places are counted in the base a number is shown in: C66). Texts come from Spec/Texts: capitals are turned only in ASCII texts (str.lower/upper of other characters is a parameter), and a whole number stands for its digits where a text is expected, for decimal numbers. Numbers written in other ways, other functions and units are not part of these expressions."
  },
  {
   "property": "C73",
   "status": "proved",
   "theorems": [
    "MC.Props.C73_program"
   ],
   "note": "C73_program. Spec/Program states what lines mean. That the lines are complete (terminator.py's fake execution) is proved, not assumed. No variable holds an error at the start (C36 proves that none ever does); `||=` on an unset variable is C33_if_empty; variables may hold texts; numbers with units and functions other than those of C72 are not in this fragment."
  },
  {
   "property": "C74",
   "status": "partial",
   "theorems": [
    "MC.Props.C74_registry",
    "MC.Props.C74_convert_partial",
    "MC.Props.C74_products_partial",
    "MC.Props.C74_temperatures",
    "MC.Props.C74_dram_violation",
    "MC.Props.C74_acre_violation",
    "MC.Props.C74_psi_violation",
    "MC.Props.C74_degree_violation",
    "MC.Props.C74_parsec_violation",
    "MC.Props.C74_kibi_violation"
   ],
   "note": "Proved for all shipped units but the parsec, the degree, the acre, the pound-force per square inch and the US dram, and for all texts but the symbols of kibi units. Those are violations: the US dram is half its size (16 instead of 8 in a US fluid ounce), acre and psi are rounded, parsec and degree are (necessarily) rational approximations, and the kibibyte is kiB instead of KiB. The definitions (Spec/International.lean) were written from the standards, each unit in terms of others; powers of sizes are a parameter with the usual laws (shown for real powers). C74_registry shows that the suppositions of C42-C46, C48 and C61 hold of the shipped units."
  },
  {
   "property": "C75",
   "status": "partial",
   "theorems": [
    "MC.Props.C75_system_partial",
    "MC.Props.C75_default_partial",
    "MC.Props.C75_no_units",
    "MC.Props.C75_compound_partial",
    "MC.Props.C75_text",
    "MC.Props.C75_temperature_violation"
   ],
   "note": "Proved for all shipped units but temperatures, in exact arithmetic: success, the division (Spec/Format.lean: Divides, WrittenAs) and the sum. For temperatures the claim is false (C75_temperature_violation): format(20 Celsius) is '20 Celsius, 273.15 kelvin', because the rest of zero degrees Celsius is converted to kelvin as a temperature and not as a difference. A value of zero gives the empty text. Numbers in the text are rounded for display (C63); this theorem is about the numbers before display."
  },
  {
   "property": "C76",
   "status": "partial",
   "theorems": [
    "MC.Props.C76_again_partial",
    "MC.Props.C76_again_answer_partial",
    "MC.Props.C76_again_violation",
    "MC.Props.C76_compact_partial",
    "MC.Props.C76_compact_bare",
    "MC.Props.C76_one_unit",
    "MC.Props.C76_compact_one",
    "MC.Props.C76_to",
    "MC.Props.C76_others_partial",
    "MC.Props.C76_answer_partial",
    "MC.Props.C76_others_violation"
   ],
   "note": "Proved: the unit and the quantity of 'to' (units proportional to their base units; temperatures are C48), and that finalizing an answer keeps its shape and every quantity but temperatures. That other lines do not change is false for the unit object that is asked for (C76_others_violation): after u = seconds^-1 the line '5 u' shows 5 hertz, and after '3 hertz to u', which assigns nothing, it shows 5 seconds^-1, because the flag is set on the object in the variable. For all other units it is proved (C76_others_partial). compact (C76_compact_partial, C76_compact_bare) is the same quantity, but for temperatures, and an error without a unit. Answers in one unit to a positive power, temperatures too, are shown unchanged (C76_one_unit), and compact leaves them (C76_compact_one). Showing an answer again shows the same if there was nothing to merge in the end (C76_again_partial, C76_again_answer_partial); else it can change (C76_again_violation: 5 seconds^-1 hours^-1 is shown in seconds^-2, and that in hertz^2)."
  },
  {
   "property": "C77",
   "status": "partial",
   "theorems": [
    "MC.Props.C77_expression",
    "MC.Props.C77_program_partial",
    "MC.Props.C77_violation"
   ],
   "note": "C77_expression: an expression broken after operators or before 'else', with any memory of the parser, gives the answer of the one-line reading. C77_program_partial: programs (C73) with broken statements, if no text before a break is, with its spaces removed, the same as a whole statement that another statement follows. That condition is needed: C77_violation shows '3 %' break '4' then '3%' then '5' is rejected, because the memory of the text that was incomplete is compared without spaces."
  },
  {
   "property": "C78",
   "status": "proved",
   "theorems": [
    "MC.Props.C78_rejected",
    "MC.Props.C78_program",
    "MC.Props.C78_whole",
    "MC.Props.C78_foreign"
   ],
   "note": "C78_rejected for any parser of incomplete statements, C78_program for the shipped one, C78_whole for all texts, C78_foreign lists the characters nothing starts with. The mistakes are those of Spec/Unreadable; arrays, inline functions and pointers before or around a mistake are not covered by C78_rejected (C78_whole covers them)."
  },
  {
   "property": "C79",
   "status": "proved",
   "theorems": [
    "MC.Props.C79_expression",
    "MC.Props.C79_unambiguous"
   ],
   "note": "The grammar with units is Spec/UnitPhrase; C79_expression is about calculating a text, C79_unambiguous says that readings are unique. A product or quotient by * or / that is a unit is covered only if both operands are units, which is what op_number_multiply and op_number_divide give; the value of a quantity (UNIT_ASSIGNMENT) and of an implicit product is not a bare unit. What the operators do is a parameter here (see C71, C72)."
  },
  {
   "property": "C80",
   "status": "partial",
   "theorems": [
    "MC.Props.C80_sound_partial",
    "MC.Props.C80_exponent_violation"
   ],
   "note": "C80_sound_partial: text in, answer out, against a separate calculus of quantities (Spec/Physics) in which no units are left. The amount is right for every answer; the dimension is proved when the units of answers are not simplified, and is false in general (C46_dimension_violation). Numbers are exact here (rounding is C08-C10), temperatures are C48, some quantities that exist are reported as errors (C43, C44, C61 violations). The converse is false in one place: the unit of the exponent of a unit is ignored, so metre^(2 minutes) gives metre^2 although it means nothing (C80_exponent_violation)."
  },
  {
   "property": "C81",
   "status": "partial",
   "theorems": [
    "MC.Props.C81_answer_partial",
    "MC.Props.C81_unit_partial",
    "MC.Props.C81_symbol_partial",
    "MC.Props.C81_negative_powers_violation",
    "MC.Props.C81_symbol_violation",
    "MC.Props.C81_third_violation"
   ],
   "note": "Proved for names as written in answers (get_name, singular, plural, symbol). False, and proved so: with negative_powers=True and units in front, `meter/seconds^-1` is read as meter times second; the symbols `as` and `G\u03a9` are not read as units; a third as a power is written in decimals and is not a third when read."
  },
  {
   "property": "C82",
   "status": "proved",
   "theorems": [
    "MC.Props.C82_program",
    "MC.Props.C82_expression"
   ],
   "note": "C82_program: from the text to the answers, line by line, with what the variables hold afterwards; C82_expression: one line, with the state unchanged. Calls may be nested to any depth d that fits on the stack (depth is a parameter of the model, d \u2264 depth). Functions are first-class: they can be stored, passed on and chosen between. Operands are numbers, truth values, texts and functions; functions in files are a parameter (C37)."
  },
  {
   "property": "C83",
   "status": "proved",
   "theorems": [
    "MC.Props.C83_order",
    "MC.Props.C83_order_fails",
    "MC.Props.C83_program",
    "MC.Props.C83_expression"
   ],
   "note": "Spec: Spec/Lists.lean. C83_program and C83_expression go from text to answers, with the parser (C69), the engine, the operations (C61, C62, C76), the rules for arrays (C21, C50, C52) and functions (C82). Arrays in arrays, arrays of units, ranges with units (C50) and errors in elements are not in the meaning. The conditions on the size of numbers and on the room for ranges are those of Spec/Lists.lean. element with index 0 or below, filter with more flags than elements, and stdev are not in the meaning (C52, C53); mean, median and mode are in it for decimal numbers, and mean where it has few enough places to be exact. C83_order and C83_order_fails are about elements that change the state (Spec/ArrayOrder.lean), for elements without ranges."
  },
  {
   "property": "C84",
   "status": "partial",
   "theorems": [
    "MC.Props.C84_variable_partial",
    "MC.Props.C84_violation"
   ],
   "note": "Violated by the code: a name that starts with the letters 'step' ends the element, since parse_array_step compares only the first four characters and is tried before parse_var; [stepsize] is rejected with 'Parsing error in array' (C84_violation, for every such name). C84_variable_partial: all other names are read as they should."
  },
  {
   "property": "C85",
   "status": "proved",
   "theorems": [
    "MC.Props.C85_distinct",
    "MC.Props.C85_call"
   ],
   "note": "The table of names and parameter counts is generated from /repo by tools/funcs.py; distinctness and readability are facts about the whole table, the call theorem holds for all parameter texts."
  },
  {
   "property": "C86",
   "status": "partial",
   "theorems": [
    "MC.Props.C86_trig",
    "MC.Props.C86_special_partial",
    "MC.Props.C86_failure",
    "MC.Props.C86_integers",
    "MC.Props.C86_integers_partial",
    "MC.Props.C86_integers_violation",
    "MC.Props.C86_angle_violation",
    "MC.Props.C86_one_input"
   ],
   "note": "Proved for all shipped special functions given floats and all trigonometric functions of numbers without unit, and that library failures and wrong parameter counts are errors. Violated in two ways: sp_kn, sp_bdtrc, sp_bdtri and sp_nbdtri truncate every parameter to a whole number, so sp_kn(1, 0.5) is sp_kn(1, 0) (C86_integers_violation); and a trigonometric function ignores the unit of an angle and gives it to its answer, so sin(180 degrees) is the sine of 180 radians, in degrees (C86_angle_violation). The library (math, scipy.special) and the conversions between Decimal and float are parameters."
  },
  {
   "property": "C87",
   "status": "partial",
   "theorems": [
    "MC.Props.C87_natural",
    "MC.Props.C87_base_partial",
    "MC.Props.C87_domain",
    "MC.Props.C87_digits_violation",
    "MC.Props.C87_base_violation",
    "MC.Props.C87_call_natural",
    "MC.Props.C87_call_base_partial",
    "MC.Props.C87_call_domain",
    "MC.Props.C87_unit_violation"
   ],
   "note": "Proved against Real.log and Real.logb of Mathlib, for every ln that rounds the real logarithm to p digits (such an ln is shown to exist): the absolute error is at most 26 units of the last digit of log num + log den, with a base 37 units of that divided by |log b|. Violated in three ways: the logarithm is taken as a difference, so that near one no digit of the answer need be right, although the argument has no more digits than the precision (C87_digits_violation); the base is made a float, so log(0.1, 0.1) is off from 1 by more than 1e-18 whatever the precision (C87_base_violation); and an amount with a unit gets the logarithm of its number, with the unit (C87_unit_violation). C87_base_partial and C87_call_base_partial are for bases that are floats. A base <= 0 ends with a NameError, as ExecutionException is not imported in number.py."
  },
  {
   "property": "C88",
   "status": "partial",
   "theorems": [
    "MC.Props.C88_accepted_partial",
    "MC.Props.C88_one_dimension_partial",
    "MC.Props.C88_derived_violation",
    "MC.Props.C88_refused",
    "MC.Props.C88_time_partial",
    "MC.Props.C88_date_refuses_partial",
    "MC.Props.C88_order_violation"
   ],
   "note": "Proved: whatever the check accepts has the required dimension (C88_accepted_partial); a required power of one base dimension is accepted exactly for the units of that dimension (C88_one_dimension_partial), for the shipped units and the times added to dates C88_time_partial; an operation is not applied to a number of another dimension and changes nothing (C88_refused, C88_date_refuses_partial). The code violates the rest: a derived dimension such as area or energy is accepted for no unit at all, because the unit's dimensions are broken down to base dimensions and the required ones are not (C88_derived_violation); and a required product is compared with the order in which the unit's factors are written (C88_order_violation). The hypothesis Steady excludes the units for which the dimension itself is computed wrongly (C49)."
  },
  {
   "property": "C89",
   "status": "proved",
   "theorems": [
    "MC.Props.C89_dateformat",
    "MC.Props.C89_distinct",
    "MC.Props.C89_weekday_unique",
    "MC.Props.C89_now"
   ],
   "note": "For the default formats and English names (the calculator does not set a locale). datetime.now() is a parameter; now needs a year that is written with four digits (every year from 1000 on)."
  },
  {
   "property": "C90",
   "status": "proved",
   "theorems": [
    "MC.Props.C90_loads",
    "MC.Props.C90_grows",
    "MC.Props.C90_everything",
    "MC.Props.C90_computing",
    "MC.Props.C90_unknown"
   ],
   "note": "Over the table of shipped features of C40. What each feature's own install does is not modelled."
  },
  {
   "property": "C91",
   "status": "partial",
   "theorems": [
    "MC.Props.C91_one_alone",
    "MC.Props.C91_convert",
    "MC.Props.C91_as",
    "MC.Props.C91_scientific",
    "MC.Props.C91_last_wins",
    "MC.Props.C91_reads_back",
    "MC.Props.C91_shown",
    "MC.Props.C91_arbitrary_violation",
    "MC.Props.C91_ten_violation",
    "MC.Props.C91_two_plain",
    "MC.Props.C91_base",
    "MC.Props.C91_base_ten_violation",
    "MC.Props.C91_places"
   ],
   "note": "The positive parts are proved in full (C91_convert, C91_as, C91_scientific, C91_last_wins, C91_places, C91_shown, C91_base). Partial because the code violates three parts of the statement: C91_arbitrary_violation, C91_ten_violation and C91_base_ten_violation."
  },
  {
   "property": "C92",
   "status": "partial",
   "theorems": [
    "MC.Props.C92_close",
    "MC.Props.C92_tau",
    "MC.Props.C92_nearest_partial",
    "MC.Props.C92_e_violation",
    "MC.Props.C92_tau_violation",
    "MC.Props.C92_shown",
    "MC.Props.C92_default",
    "MC.Props.C92_physical"
   ],
   "note": "C92_close: all three within one unit of the fiftieth place; C92_nearest_partial: pi is correctly rounded; false for the others (C92_e_violation: e is cut off; C92_tau_violation: tau is twice the rounded pi). C92_tau, C92_shown, C92_default and C92_physical as stated. G is a measured constant (CODATA 2014) and has no defined value."
  },
  {
   "property": "C93",
   "status": "partial",
   "theorems": [
    "MC.Props.C93_power",
    "MC.Props.C93_exp_partial",
    "MC.Props.C93_exp_violation"
   ],
   "note": "C93_power bounds the error of ^ by (150 + 10 |y log x|) units of the last of p digits, relative to the power. exp is right only to about fifty digits (C93_exp_partial), since it raises the stored e, which has 51 digits: C93_exp_violation. The powers of the decimal library are a parameter, assumed right to one unit in the last place where they answer (AnswersPowers); powers_exist shows the assumption can be met."
  },
  {
   "property": "C94",
   "status": "partial",
   "theorems": [
    "MC.Props.C94_partial",
    "MC.Props.C94_violation"
   ],
   "note": "True when the quotient is not negative, or whole (C94_partial). For all others false: \\ takes the floor while % has the sign of x, so the two give x - y (C94_violation, for every such pair; -7 \\ 2 is -4 and -7 % 2 is -1)."
  },
  {
   "property": "C95",
   "status": "partial",
   "theorems": [
    "MC.Props.C95_alone_partial",
    "MC.Props.C95_refresh",
    "MC.Props.C95_other_threads",
    "MC.Props.C95_two_violation",
    "MC.Props.C95_two_violation_otherwise",
    "MC.Props.C95_thread_violation",
    "MC.Props.C95_refused_violation"
   ],
   "note": "C95_alone_partial: with one calculator in one thread, and sizes decimal takes, every history leaves the calculation with exactly what was last asked for. C95_refresh: from every state of the process, setting a calculator's digits (or places) makes this thread work with its settings again. C95_other_threads: what other threads do never changes a thread's digits or rounding. The full statement is false of the code, for three reasons, each proved: C95_two_violation (making a second calculator resets the first one's places; shown on 1/3, with C95_two_violation_otherwise for comparison), C95_thread_violation (a calculator used in another thread than it was made in works with 28 digits, rounding halves to even) and C95_refused_violation (a refused size is remembered, and every later setting of places is refused)."
  },
  {
   "property": "C96",
   "status": "partial",
   "theorems": [
    "MC.Props.C96_sum_adds_partial",
    "MC.Props.C96_temperature_violation",
    "MC.Props.C96_mixed_partial",
    "MC.Props.C96_sum_partial",
    "MC.Props.C96_mean",
    "MC.Props.C96_min_max",
    "MC.Props.C96_sort",
    "MC.Props.C96_median"
   ],
   "note": "C96_sum_adds_partial: without temperatures the sum is what + gives, for every array (and an error exactly when + is one). C96_temperature_violation: with temperatures it is not, since the sum takes [20 Celsius, 1 kelvin] as points on the scale and + as a difference. C96_sum_partial, C96_mean, C96_min_max, C96_sort and C96_median run the registered functions on a whole array whose elements the normaliser brings to one unit, and say what they answer of the levels (points on the scale, Spec/Levels), for numbers within the working precision. C96_mixed_partial: a different dimension (for the unit lists C43 covers) or a missing unit is an error. Units with a temperature inside a compound are left out: see C65_compound_violation."
  },
  {
   "property": "C97",
   "status": "partial",
   "theorems": [
    "MC.Props.C97_simplify_violation",
    "MC.Props.C97_reached",
    "MC.Props.C97_normalise",
    "MC.Props.C97_operations",
    "MC.Props.C97_simplify_partial",
    "MC.Props.C97_shipped",
    "MC.Props.C97_whole_violation",
    "MC.Props.C97_whole_reached"
   ],
   "note": "C97_normalise: bringing operands to common units ends for every registry with proper dimensions (C97_shipped: the registry of the calculator), so + - * / on quantities end (C97_operations). C97_simplify_violation: simplification does not, on nautical miles^0.5 meters seconds^-2 with the shipped units, whatever the number; C97_reached: the operations of 10 * nautical miles^0.5 * meters / seconds^2 give that unit. C97_simplify_partial: it ends where the registry has no multi-units and the negative powers that come up are whole. It is not a matter of broken powers: C97_whole_violation is 10 * nautical miles * meters / seconds^2, for which the calculator never answers, however sizes are compared."
  },
  {
   "property": "C98",
   "status": "partial",
   "theorems": [
    "MC.Props.C98_cut",
    "MC.Props.C98_prefixed",
    "MC.Props.C98_reads_back_partial",
    "MC.Props.C98_point_violation"
   ],
   "note": "C98_cut and C98_prefixed: the digits are the number cut off (CutOff in Spec/BasesCut), for every base, sign and number of places, whenever the fraction fits the precision (FitsBase). C98_reads_back_partial: the text shown is read as a number at most as large and less than one in the last place away, for all four representations (base 36 is left out there, because a digit Z can be taken for the prefix, C16). The last sentence fails as stated: C98_point_violation shows that every number whose fraction part is there but shorter than one in the last place is shown with a point and nothing after it (0b1.), which is no literal."
  },
  {
   "property": "C99",
   "status": "proved",
   "theorems": [
    "MC.Props.C99_repr",
    "MC.Props.C99_different"
   ],
   "note": "Spec/Repr.lean says what a call of Number with quoted texts is; C99_repr, C99_different. Every number the calculator makes from whole numbers within the precision is in lowest terms (C01)."
  }
 ]
}
