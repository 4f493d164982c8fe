{
 "claims": [
  {
   "property": "C01",
   "status": "proved",
   "theorems": [
    "Prexel.C01_eval_eq_denote",
    "Prexel.C01_unambiguous"
   ],
   "note": "All contexts, all well-formed trees."
  },
  {
   "property": "C02",
   "status": "proved",
   "theorems": [
    "Prexel.C02_infix_to_rpn_postfix",
    "Prexel.C02_no_grouping"
   ],
   "note": ""
  },
  {
   "property": "C03",
   "status": "proved",
   "theorems": [
    "Prexel.C03_chain"
   ],
   "note": "Operands may be any primary expressions."
  },
  {
   "property": "C04",
   "status": "proved",
   "theorems": [
    "Prexel.C04_infix_to_rpn_never_panics",
    "Prexel.C04_eval_never_panics"
   ],
   "note": "Hypothesis: the registered functions do not panic."
  },
  {
   "property": "C05",
   "status": "proved",
   "theorems": [
    "Prexel.C05_accepted_balanced",
    "Prexel.C05_unbalanced_err"
   ],
   "note": ""
  },
  {
   "property": "C06",
   "status": "proved",
   "theorems": [
    "Prexel.C06_wrap",
    "Prexel.C06_exception"
   ],
   "note": "The exception named in the property is shown to be one."
  },
  {
   "property": "C07",
   "status": "proved",
   "theorems": [
    "Prexel.C07_unknown_rejected"
   ],
   "note": ""
  },
  {
   "property": "C08",
   "status": "proved",
   "theorems": [
    "Prexel.C08_function_parenthesis",
    "Prexel.C08_missing_parenthesis_err",
    "Prexel.C08_custom_call_counterexample"
   ],
   "note": "The third theorem shows why the property is limited to custom_function_call off."
  },
  {
   "property": "C09",
   "status": "proved",
   "theorems": [
    "Prexel.C09_frame"
   ],
   "note": ""
  },
  {
   "property": "C10",
   "status": "proved",
   "theorems": [
    "Prexel.C10_by_value",
    "Prexel.C10_implicit_counterexample"
   ],
   "note": "The second theorem shows why the property is limited to implicit_mul off."
  },
  {
   "property": "C11",
   "status": "partial",
   "theorems": [
    "Prexel.C11_call_arguments_partial",
    "Prexel.C11_call_no_arguments_alone_partial",
    "Prexel.C11_zero_arguments_counterexample"
   ],
   "note": "Proved for one or more arguments anywhere and for zero arguments when the call is the whole expression. The code violates the claim for zero arguments in a larger expression: counterexample proved."
  },
  {
   "property": "C12",
   "status": "partial",
   "theorems": [
    "Prexel.C12_comma_positions_partial",
    "Prexel.C12_empty_middle_counterexample"
   ],
   "note": "First and last positions proved; an empty middle position is accepted by the code: counterexample proved."
  },
  {
   "property": "C13",
   "status": "partial",
   "theorems": [
    "Prexel.C13_operand_count_partial",
    "Prexel.C13_postfix_accepted_counterexample"
   ],
   "note": "The code accepts postfix and prefix order: counterexample proved. What does hold is the operand count."
  },
  {
   "property": "C14",
   "status": "proved",
   "theorems": [
    "Prexel.C14_empty_iff_blank"
   ],
   "note": ""
  },
  {
   "property": "C15",
   "status": "partial",
   "theorems": [
    "Prexel.C15_ascii_no_panic_partial",
    "Prexel.C15_eval_ascii_no_panic_partial",
    "Prexel.C15_panic_cause_partial",
    "Prexel.C15_non_ascii_counterexample",
    "Prexel.C15_stumbles_counterexample"
   ],
   "note": "False in general: the code can panic. ASCII texts never do; the only cause of a panic is a word that begins with a non-ASCII character, is no number, variable or constant, and stands directly before a prefix operator that is not the last word; two counterexamples show that such texts do panic."
  },
  {
   "property": "C16",
   "status": "proved",
   "theorems": [
    "Prexel.C16_split",
    "Prexel.C16_white_space"
   ],
   "note": ""
  },
  {
   "property": "C17",
   "status": "partial",
   "theorems": [
    "Prexel.C17_flatten_partial",
    "Prexel.C17_only_points_lost_partial",
    "Prexel.C17_second_point_counterexample"
   ],
   "note": "The splitter loses a second decimal point: counterexample proved; nothing but points and white space is ever lost."
  },
  {
   "property": "C18",
   "status": "proved",
   "theorems": [
    "Prexel.C18_split_join",
    "Prexel.C18_split_idempotent",
    "Prexel.C18_characters"
   ],
   "note": ""
  },
  {
   "property": "C19",
   "status": "proved",
   "theorems": [
    "Prexel.C19_shape"
   ],
   "note": ""
  },
  {
   "property": "C20",
   "status": "proved",
   "theorems": [
    "Prexel.C20_determined",
    "Prexel.C20_same_word_same_token"
   ],
   "note": ""
  },
  {
   "property": "C21",
   "status": "proved",
   "theorems": [
    "Prexel.C21_sign",
    "Prexel.C21_complex_sign",
    "Prexel.C21_not_lexical_counterexample",
    "Prexel.C21_characters"
   ],
   "note": "For contexts whose operator names can be told apart (Lexical); the second theorem shows why."
  },
  {
   "property": "C22",
   "status": "proved",
   "theorems": [
    "Prexel.C22_words_in_order"
   ],
   "note": ""
  },
  {
   "property": "C23",
   "status": "proved",
   "theorems": [
    "Prexel.C23_text",
    "Prexel.C23_spaced_text",
    "Prexel.C23_complex_text",
    "Prexel.C23_complex_context",
    "Prexel.C23_adjacent_operators_counterexample"
   ],
   "note": "For Lexical contexts and plain expressions; the last theorem shows why."
  },
  {
   "property": "C24",
   "status": "proved",
   "theorems": [
    "Prexel.C24_get_variable",
    "Prexel.C24_set_variable",
    "Prexel.C24_set_variable_succeeds"
   ],
   "note": ""
  },
  {
   "property": "C25",
   "status": "proved",
   "theorems": [
    "Prexel.C25_disjoint",
    "Prexel.C25_not_both"
   ],
   "note": ""
  },
  {
   "property": "C26",
   "status": "proved",
   "theorems": [
    "Prexel.C26_never_replaced",
    "Prexel.C26_add_function",
    "Prexel.C26_add_unary_function",
    "Prexel.C26_add_binary_function"
   ],
   "note": ""
  },
  {
   "property": "C27",
   "status": "partial",
   "theorems": [
    "Prexel.C27_err_unchanged_partial",
    "Prexel.C27_no_panic_partial",
    "Prexel.C27_alias_counterexample"
   ],
   "note": "An alias that exists makes the code panic after earlier aliases were inserted: counterexample proved."
  },
  {
   "property": "C28",
   "status": "partial",
   "theorems": [
    "Prexel.C28_ascii_case_partial",
    "Prexel.C28_only_case_partial",
    "Prexel.C28_non_ascii_counterexample"
   ],
   "note": "Proved for ASCII names; for other letters Hash and Eq disagree: counterexample proved."
  },
  {
   "property": "C29",
   "status": "partial",
   "theorems": [
    "Prexel.C29_debug_refuses_partial",
    "Prexel.C29_characters",
    "Prexel.C29_debug_names_valid_partial",
    "Prexel.C29_release_counterexample",
    "Prexel.C29_alias_counterexample"
   ],
   "note": "Names are only checked in debug builds, aliases never: counterexamples proved."
  },
  {
   "property": "C30",
   "status": "partial",
   "theorems": [
    "Prexel.C30_grouping_set_ignored_partial",
    "Prexel.C30_counterexample"
   ],
   "note": "False of the code: the configured set is never consulted."
  },
  {
   "property": "C53",
   "status": "proved",
   "theorems": [
    "Prexel.C53_operands_in_order",
    "Prexel.C53_operators_conserved"
   ],
   "note": ""
  },
  {
   "property": "C54",
   "status": "partial",
   "theorems": [
    "Prexel.C54_total_order",
    "Prexel.C54_hash_ascii_partial",
    "Prexel.C54_hash_counterexample"
   ],
   "note": "Order and equality proved for all strings; equal strings have equal hashes only for ASCII: counterexample proved."
  },
  {
   "property": "C55",
   "status": "proved",
   "theorems": [
    "Prexel.C55_get_constant"
   ],
   "note": ""
  },
  {
   "property": "C31",
   "status": "proved",
   "theorems": [
    "Prexel.C31_checked",
    "Prexel.C31_unchecked",
    "Prexel.C31_binary",
    "Prexel.C31_decimal",
    "Prexel.C31_complex",
    "Prexel.C31_names",
    "Prexel.C31_no_pi"
   ],
   "note": "Also: without PI and E the constructors panic."
  },
  {
   "property": "C32",
   "status": "proved",
   "theorems": [
    "Prexel.C32_checked",
    "Prexel.C32_unchecked",
    "Prexel.C32_checked_text",
    "Prexel.C32_unchecked_text",
    "Prexel.C32_decimal",
    "Prexel.C32_decimal_text",
    "Prexel.C32_complex"
   ],
   "note": ""
  },
  {
   "property": "C33",
   "status": "proved",
   "theorems": [
    "Prexel.C33_checked_operators",
    "Prexel.C33_checked_mod_partial",
    "Prexel.C33_mod_counterexample"
   ],
   "note": "The two theorems on mod together cover every pair of operands: the exception is named in the property."
  },
  {
   "property": "C34",
   "status": "proved",
   "theorems": [
    "Prexel.C34_exact_or_error",
    "Prexel.C34_no_error",
    "Prexel.C34_text"
   ],
   "note": "Tokens and text."
  },
  {
   "property": "C35",
   "status": "partial",
   "theorems": [
    "Prexel.C35_factorial_partial",
    "Prexel.C35_factorial_counterexample"
   ],
   "note": "A factorial that does not fit panics (debug) or wraps (release): proved for every operand and width."
  },
  {
   "property": "C36",
   "status": "partial",
   "theorems": [
    "Prexel.C36_sum",
    "Prexel.C36_product",
    "Prexel.C36_order_partial",
    "Prexel.C36_order_counterexample"
   ],
   "note": "Exactness proved; an overflow depends on the order: counterexample proved."
  },
  {
   "property": "C37",
   "status": "proved",
   "theorems": [
    "Prexel.C37_max_min",
    "Prexel.C37_unordered"
   ],
   "note": "Second theorem: without a linear order (NaN) the order of the arguments matters."
  },
  {
   "property": "C38",
   "status": "partial",
   "theorems": [
    "Prexel.C38_avg_partial",
    "Prexel.C38_avg_counterexample",
    "Prexel.C38_avg_zeros_counterexample"
   ],
   "note": "avg panics if the number of arguments does not fit the type: counterexample proved in every width."
  },
  {
   "property": "C56",
   "status": "partial",
   "theorems": [
    "Prexel.C56_sign_bracket_partial",
    "Prexel.C56_reaches_end",
    "Prexel.C56_sign_bracket_counterexample"
   ],
   "note": "-(2 + 3) + 4 is -9: the sign takes everything to the end of the group, proved in general."
  },
  {
   "property": "C57",
   "status": "partial",
   "theorems": [
    "Prexel.C57_docs_counterexample",
    "Prexel.C57_other_names_partial"
   ],
   "note": "The feature docs renames truncate and sign: counterexample proved; every other name is unaffected."
  },
  {
   "property": "C58",
   "status": "proved",
   "theorems": [
    "Prexel.C58_abs"
   ],
   "note": ""
  },
  {
   "property": "C59",
   "status": "proved",
   "theorems": [
    "Prexel.C59_unchecked_operators",
    "Prexel.C59_wrap"
   ],
   "note": ""
  },
  {
   "property": "C39",
   "status": "partial",
   "theorems": [
    "Prexel.C39_parse",
    "Prexel.C39_only_digits",
    "Prexel.C39_display",
    "Prexel.C39_round_trip_partial",
    "Prexel.C39_negative_counterexample"
   ],
   "note": "Parsing and printing proved; negative numbers do not read back: counterexample proved for all of them."
  },
  {
   "property": "C40",
   "status": "partial",
   "theorems": [
    "Prexel.C40_bitwise",
    "Prexel.C40_not",
    "Prexel.C40_shift_partial",
    "Prexel.C40_shift_counterexample"
   ],
   "note": "A shift by a negative number or by more than 127 panics (debug): counterexample proved."
  },
  {
   "property": "C60",
   "status": "partial",
   "theorems": [
    "Prexel.C60_same_group_partial",
    "Prexel.C60_reversed_counterexample"
   ],
   "note": "The precedences of the binary context are reversed: proved for any two operators."
  },
  {
   "property": "C41",
   "status": "partial",
   "theorems": [
    "Prexel.C41_keeps_last_partial",
    "Prexel.C41_capacity_partial",
    "Prexel.C41_prompt_history_partial",
    "Prexel.C41_default",
    "Prexel.C41_sized_partial",
    "Prexel.C41_no_room_counterexample"
   ],
   "note": "Proved for every capacity > 0, also for the prompt itself; capacity 0 (--history 0) panics."
  },
  {
   "property": "C42",
   "status": "partial",
   "theorems": [
    "Prexel.C42_in_bounds_partial",
    "Prexel.C42_no_history_counterexample"
   ],
   "note": "Proved for every history size > 0 and every callback that answers; with --history 0 entering a line panics."
  },
  {
   "property": "C43",
   "status": "partial",
   "theorems": [
    "Prexel.C43_result_partial",
    "Prexel.C43_assigned_counterexample",
    "Prexel.C61_keys_are_lines"
   ],
   "note": "A line that assigns to $result by hand overrides it."
  },
  {
   "property": "C44",
   "status": "partial",
   "theorems": [
    "Prexel.C44_evaluated_partial",
    "Prexel.C44_comparison_counterexample"
   ],
   "note": "Lines with = are always taken as assignments, so the comparisons of the binary context cannot be entered."
  },
  {
   "property": "C61",
   "status": "proved",
   "theorems": [
    "Prexel.C61_typed",
    "Prexel.C61_enter",
    "Prexel.C61_keys_are_lines"
   ],
   "note": ""
  },
  {
   "property": "C62",
   "status": "proved",
   "theorems": [
    "Prexel.C62_up",
    "Prexel.C62_down"
   ],
   "note": ""
  },
  {
   "property": "C63",
   "status": "proved",
   "theorems": [
    "Prexel.C63_assign",
    "Prexel.C63_kept",
    "Prexel.C63_only_variables"
   ],
   "note": ""
  },
  {
   "property": "C48",
   "status": "partial",
   "theorems": [
    "Prexel.C48_power_partial",
    "Prexel.C48_power_exact_partial",
    "Prexel.C48_power_counterexample"
   ],
   "note": "For which whole bases and exponents the power is returned is determined exactly; the loop squares once too often, so 10^16 overflows although it fits: counterexample proved."
  },
  {
   "property": "C49",
   "status": "partial",
   "theorems": [
    "Prexel.C49_factorial_partial",
    "Prexel.C49_factorial_counterexample"
   ],
   "note": "All whole numbers except 2; 2! evaluates to 1: counterexample proved."
  },
  {
   "property": "C50",
   "status": "partial",
   "theorems": [
    "Prexel.C50_hyperbolic_partial",
    "Prexel.C50_reciprocal_counterexample",
    "Prexel.C50_csc_zero_counterexample",
    "Prexel.C50_hyperbolic_quotient_partial"
   ],
   "note": "csc, sec, cot are sin, cos, tan: proved for every argument. The hyperbolic ones are reciprocals."
  },
  {
   "property": "C64",
   "status": "proved",
   "theorems": [
    "Prexel.C64_decimal_exact",
    "Prexel.C32_decimal_text"
   ],
   "note": ""
  },
  {
   "property": "C65",
   "status": "partial",
   "theorems": [
    "Prexel.C65_decimal_never_panics_partial",
    "Prexel.C68_ends",
    "Prexel.C65_decimal_panics_counterexample"
   ],
   "note": "Proved for any tokens over + - * / mod, signs and 19 functions; nine panics proved. With half-to-even rounding asin and acos never panic, and acsc and asec do exactly at 0 (C68_ends)."
  },
  {
   "property": "C66",
   "status": "partial",
   "theorems": [
    "Prexel.C66_atan2_partial",
    "Prexel.C66_angle_partial",
    "Prexel.C66_atan2_counterexample"
   ],
   "note": "On the y axis the result is 2 PI instead of PI/2: counterexample proved."
  },
  {
   "property": "C67",
   "status": "proved",
   "theorems": [
    "Prexel.C67_domain"
   ],
   "note": ""
  },
  {
   "property": "C68",
   "status": "partial",
   "theorems": [
    "Prexel.C68_arc_partial",
    "Prexel.C68_ends",
    "Prexel.C68_reciprocal_partial",
    "Prexel.C68_asin_counterexample",
    "Prexel.C68_acot_counterexample"
   ],
   "note": "acsc and asec are correct to 4/10^13; with half-to-even rounding and a float square root close enough they always return there, asin and acos never panic, and acsc and asec panic exactly at 0 (C68_ends). asin(x) and acos(x) are the arcsine and arccosine of x degrees in radians (counterexample); acot is atan for every argument (counterexample)."
  },
  {
   "property": "C69",
   "status": "partial",
   "theorems": [
    "Prexel.C69_special_powers_partial",
    "Prexel.C69_zero_power_counterexample"
   ],
   "note": "0 to a power that is not whole is 1: counterexample proved."
  },
  {
   "property": "C52",
   "status": "partial",
   "theorems": [
    "Prexel.C52_log_partial",
    "Prexel.C52_log_base_counterexample"
   ],
   "note": "log(z) is proved; log(z, b) refuses every real base and uses only the real part of the others: counterexample proved for every context."
  },
  {
   "property": "C70",
   "status": "proved",
   "theorems": [
    "Prexel.C70_exact_arithmetic",
    "Prexel.C70_signs",
    "Prexel.C70_remainder"
   ],
   "note": "Contract Cx.Exact: the component type computes as a field of rationals does; for mod also Cx.Truncates: x % 1 is x without its whole part."
  },
  {
   "property": "C71",
   "status": "proved",
   "theorems": [
    "Prexel.C71_complex_text"
   ],
   "note": ""
  },
  {
   "property": "C72",
   "status": "partial",
   "theorems": [
    "Prexel.C72_reciprocal",
    "Prexel.C72_inverse_counterexample"
   ],
   "note": "The reciprocals are proved; the inverses are wrong in the code (acsc(z) is 1/asin(z)): proved for every argument."
  },
  {
   "property": "C73",
   "status": "partial",
   "theorems": [
    "Prexel.C73_random_partial",
    "Prexel.C73_random_counterexample"
   ],
   "note": "random(a, b) compares with 0 instead of with each other: counterexample proved."
  },
  {
   "property": "C74",
   "status": "proved",
   "theorems": [
    "Prexel.C74_complex_no_panic"
   ],
   "note": ""
  },
  {
   "property": "C51",
   "status": "partial",
   "theorems": [
    "Prexel.C51_wrapped_checked_partial",
    "Prexel.C51_wrapped_unchecked_partial",
    "Prexel.C51_subtraction_counterexample"
   ],
   "note": "Every text agrees with the field type as long as it uses no unchecked subtraction and no factorial: the macro's Sub adds (counterexample for every pair with different sum and difference)."
  },
  {
   "property": "C75",
   "status": "proved",
   "theorems": [
    "Prexel.C75_wider_checked",
    "Prexel.C75_wider_unchecked",
    "Prexel.C75_release_counterexample"
   ],
   "note": "The counterexample shows why unchecked contexts need a debug build."
  },
  {
   "property": "C76",
   "status": "proved",
   "theorems": [
    "Prexel.C76_checked_unchecked",
    "Prexel.C76_floats",
    "Prexel.C76_integers"
   ],
   "note": "Contract Consistent, proved for every integer width; for f64 from the contract that a positive count is not zero."
  },
  {
   "property": "C77",
   "status": "proved",
   "theorems": [
    "Prexel.C77_release_checked",
    "Prexel.C77_release_unchecked"
   ],
   "note": ""
  },
  {
   "property": "C45",
   "status": "proved",
   "theorems": [
    "Prexel.C45_result_iff",
    "Prexel.C45_response"
   ],
   "note": "The outcome of reading the body and the query are arguments; a panic of the handler is a separate outcome, see C81."
  },
  {
   "property": "C46",
   "status": "partial",
   "theorems": [
    "Prexel.C46_order_partial",
    "Prexel.C46_counterexample"
   ],
   "note": "If several variables are refused, which of the errors is reported depends on the order of the hash map (counterexample)."
  },
  {
   "property": "C47",
   "status": "partial",
   "theorems": [
    "Prexel.C47_decimal_partial",
    "Prexel.C47_complex_partial",
    "Prexel.C47_integer_partial",
    "Prexel.C47_binary_partial",
    "Prexel.C47_float_counterexample"
   ],
   "note": "True for four of the five number types; for floats the server lists the decimal functions (counterexample). For aliases and descriptions see C116."
  },
  {
   "property": "C78",
   "status": "proved",
   "theorems": [
    "Prexel.C78_decimal",
    "Prexel.C78_float",
    "Prexel.C78_complex",
    "Prexel.C78_integer",
    "Prexel.C78_binary"
   ],
   "note": "Contract Listing.Readable for the readers of decimals, floats and complex numbers (no listed name is a literal); none is needed for integers and binary numbers."
  },
  {
   "property": "C79",
   "status": "partial",
   "theorems": [
    "Prexel.C79_agree",
    "Prexel.C79_float_partial",
    "Prexel.C79_float_counterexample"
   ],
   "note": "Proved for decimal, complex, integer and binary; for floats only if the expression names none of abs, floor, ceil, trunc, round and signum, which only the server has (counterexample)."
  },
  {
   "property": "C80",
   "status": "partial",
   "theorems": [
    "Prexel.C80_integers_release",
    "Prexel.C80_integers_debug_partial",
    "Prexel.C80_floats_partial",
    "Prexel.C80_unchecked_floats_partial",
    "Prexel.C80_binary_release",
    "Prexel.C80_debug_counterexample"
   ],
   "note": "In debug builds factorials, shifts and unchecked sums panic (counterexample, for every operand that does not fit). Not proved: floats with factorials (C133)."
  },
  {
   "property": "C81",
   "status": "partial",
   "theorems": [
    "Prexel.C81_server_no_panic_partial",
    "Prexel.C81_decimal_no_panic_partial",
    "Prexel.C81_counterexample"
   ],
   "note": "ASCII expressions without the operations that can panic; three requests on which a debug server panics are the counterexample."
  },
  {
   "property": "C82",
   "status": "proved",
   "theorems": [
    "Prexel.C82_one_argument",
    "Prexel.C82_two_arguments",
    "Prexel.C89_area_degrees"
   ],
   "note": "The functions of the mathematical library are opaque; the tables of Spec/Floats.lean say which one each name stands for."
  },
  {
   "property": "C83",
   "status": "partial",
   "theorems": [
    "Prexel.C83_rounding_partial",
    "Prexel.C83_floor_counterexample",
    "Prexel.C83_double_partial",
    "Prexel.C83_double_counterexample"
   ],
   "note": "For IEEE 754 doubles without a contract, and for any floats under one: floor and ceil are wrong closer than 1e-10 to a whole number (counterexample); right everywhere else. Contract F64.Whole."
  },
  {
   "property": "C84",
   "status": "proved",
   "theorems": [
    "Prexel.C84_reciprocal"
   ],
   "note": ""
  },
  {
   "property": "C85",
   "status": "partial",
   "theorems": [
    "Prexel.C85_finite_partial",
    "Prexel.C85_counterexample"
   ],
   "note": "19 functions never return NaN or infinity; sqrt, ln, exp and the hyperbolic functions, and operators, do (counterexample)."
  },
  {
   "property": "C86",
   "status": "proved",
   "theorems": [
    "Prexel.C86_checked",
    "Prexel.C86_unchecked",
    "Prexel.C86_decimal",
    "Prexel.C86_complex"
   ],
   "note": ""
  },
  {
   "property": "C87",
   "status": "proved",
   "theorems": [
    "Prexel.C87_random",
    "Prexel.C87_double",
    "Prexel.C87_overflow_counterexample"
   ],
   "note": "C87_double: IEEE 754 doubles, no contract; if b - a overflows the number is infinite or NaN. C87_random: any floats with Contract F64.Rounds: results that are in range are the exact ones rounded monotonically; a draw is in [0, 1)."
  },
  {
   "property": "C88",
   "status": "partial",
   "theorems": [
    "Prexel.C88_power_partial",
    "Prexel.C88_counterexample",
    "Prexel.C88_double_partial",
    "Prexel.C88_double_counterexample"
   ],
   "note": "Exact up to 2^53; beyond it no power of an odd base is right (counterexample). Contract PowerContract. With IEEE 754 doubles (C88_double_partial) conversions need no contract, and larger powers have an error of at most 2^-52 of the power; contract Libm.Powers for powf."
  },
  {
   "property": "C89",
   "status": "partial",
   "theorems": [
    "Prexel.C89_area_degrees",
    "Prexel.C89_inverse_counterexample"
   ],
   "note": "Counterexample only: asinh, acosh and atanh convert the area to degrees."
  },
  {
   "property": "C90",
   "status": "partial",
   "theorems": [
    "Prexel.C90_sqrt_partial",
    "Prexel.C90_sqrt_ends",
    "Prexel.C90_up_to_15_partial",
    "Prexel.C90_hangs_counterexample",
    "Prexel.C90_squares"
   ],
   "note": "Contract SqrtStart for the f64 start value. Under rounding half to even (contracts TiesToEven, SqrtClose) the loop ends for every decimal up to 15 except exactly two, 3.9720354828415177818323744671 and 4.0000000000000000000000000003, for which it never ends (counterexample); squares of whole numbers below 2^26 are exact. Missing: beyond 15, for which other numbers the loop ends; if it does, the result is right."
  },
  {
   "property": "C91",
   "status": "partial",
   "theorems": [
    "Prexel.C91_cbrt_partial",
    "Prexel.C91_cbrt_small_partial",
    "Prexel.C91_cbrt_negative_partial",
    "Prexel.C91_cbrt_counterexample",
    "Prexel.C91_cbrt_zero_counterexample",
    "Prexel.C91_cbrt_minus_two_counterexample"
   ],
   "note": "Proved for all of (0, 8*10^14] and for [-8*10^14, -3]; below 1 with an absolute error of 36*10^-28 divided by the root. False from 10^15 on (always Overflow), for zero and for -2 (counterexamples). Not covered: between -3 and 0 other than -2, and between 8*10^14 and 10^15 in absolute value."
  },
  {
   "property": "C92",
   "status": "partial",
   "theorems": [
    "Prexel.C92_ln_partial",
    "Prexel.C92_ln_small_partial",
    "Prexel.C92_ln_ends",
    "Prexel.C92_ln_counterexample"
   ],
   "note": "Proved for x >= 1/10, and for every 0 < x < 1 with the error of the cut series. False for 0 < x <= 10^-4: the result is too large by more than 1 (counterexample)."
  },
  {
   "property": "C93",
   "status": "partial",
   "theorems": [
    "Prexel.C93_log_quotient",
    "Prexel.C93_log_ten_partial",
    "Prexel.C93_log_power_partial",
    "Prexel.C93_log_base_partial",
    "Prexel.C93_log_counterexample"
   ],
   "note": "Base 10 proved for x >= 1/10; powers of ten to 25 digits, exact up to 10^3. log(10000) is never 4 (counterexample). Bases other than 10: the quotient of the two logarithms, and its accuracy for x and base >= 1/10 with |ln base| >= 10^-10. Missing: below 1/10, bases closer to 1."
  },
  {
   "property": "C94",
   "status": "partial",
   "theorems": [
    "Prexel.C94_any_angle",
    "Prexel.C94_sin_partial",
    "Prexel.C94_cos_partial",
    "Prexel.C94_tan_partial",
    "Prexel.C94_tan_pole",
    "Prexel.C94_large_counterexample"
   ],
   "note": "Sine and cosine: for every decimal up to 3 * 10^-16 plus 45 units of the 29th digit of the angle, so up to 4 * 10^-16 for angles up to 10^11 degrees; exact multiples also up to 10^11 (exact tangents up to 10^10), tan where the cosine is at least 10^-8. Missing: exactness at larger multiples and tangents of larger angles, where the remainder by the rounded 2 pi loses digits. For the largest angles the claim is false: 18 * 10^27 degrees are a whole number of turns, and the sine computed is at least 1/10, the cosine at most 99/100 (counterexample)."
  },
  {
   "property": "C95",
   "status": "partial",
   "theorems": [
    "Prexel.C95_asinh_partial",
    "Prexel.C95_acosh_partial",
    "Prexel.C95_atanh_partial",
    "Prexel.C95_wide_partial",
    "Prexel.C95_ends_partial",
    "Prexel.C95_counterexample"
   ],
   "note": "asinh from -15 to 28*10^13, acosh from above 1 to 28*10^13 and atanh from -0.93 to 1 are correct to 10^-13, or the square root loop panics. The property is false for asinh from -5000 down, for atanh between -1 and -0.9999, and both asinh and acosh panic from 2^48 on (C95_counterexample). With half-to-even rounding asinh on [-3.7, 3.7] and acosh on (1, 3.9] always return, except at one argument each (two for asinh), where the square root never settles (C95_ends_partial). Missing: the gaps between these ranges."
  },
  {
   "property": "C96",
   "status": "partial",
   "theorems": [
    "Prexel.C96_exp_partial",
    "Prexel.C96_wide_partial",
    "Prexel.C96_exp_ends",
    "Prexel.C96_exp_counterexample",
    "Prexel.C96_large_counterexample"
   ],
   "note": "Proved from -20 to 20 to 16 digits; from -100 to 50 with an error that grows like the square of the result (3 digits left at 50). exp(-10000) is below -1/10, and exp(10000) below -7 instead of an overflow (counterexamples). Missing: above 50, and between -10000 and -100."
  },
  {
   "property": "C97",
   "status": "partial",
   "theorems": [
    "Prexel.C97_hyperbolic_partial",
    "Prexel.C97_wide_partial",
    "Prexel.C97_hyperbolic_counterexample"
   ],
   "note": "Proved from -20 to 20 to 15 digits, and from -50 to 50 with an error that grows with the result. False for large arguments: sinh(10000) and cosh(10000) are below -3, tanh(10000) is wrong by more than 1/100 (counterexample). Missing: which other arguments beyond 50."
  },
  {
   "property": "C98",
   "status": "partial",
   "theorems": [
    "Prexel.C98_power_partial",
    "Prexel.C98_wide_partial",
    "Prexel.C98_zero_counterexample"
   ],
   "note": "Proved for x >= 1/10 and results from e^-19 to e^19; for results from e^-99 to e^49 with an error that grows with the result. 0 ^ 0.5 is 1 (counterexample). Missing: x below 1/10."
  },
  {
   "property": "C99",
   "status": "proved",
   "theorems": [
    "Prexel.C99_rounding"
   ],
   "note": ""
  },
  {
   "property": "C100",
   "status": "partial",
   "theorems": [
    "Prexel.C100_to_radians",
    "Prexel.C100_to_degrees_range_partial",
    "Prexel.C100_to_degrees_sharp_partial",
    "Prexel.C100_to_degrees_counterexample",
    "Prexel.C100_to_radians_partial",
    "Prexel.C100_to_degrees_partial"
   ],
   "note": "to_radians is proved for every decimal, to_degrees up to 1.378 * 10^27. When the result exceeds the range the code panics instead of reporting an overflow (counterexample): the result is right up to 2^96 - 60 degrees and the call panics from 2^96 + 60 on; what happens within 60 of 2^96 is not settled. Up to 10^11 degrees and 10^9 radians the absolute error is proved to be at most 1.5 * 10^-16."
  },
  {
   "property": "C101",
   "status": "proved",
   "theorems": [
    "Prexel.C101_atan"
   ],
   "note": ""
  },
  {
   "property": "C102",
   "status": "partial",
   "theorems": [
    "Prexel.C102_counterexample"
   ],
   "note": "False: acsch, asech and acoth are the reciprocals of asinh, acosh and atanh (counterexample)."
  },
  {
   "property": "C103",
   "status": "partial",
   "theorems": [
    "Prexel.C103_line_partial",
    "Prexel.C103_eval_partial",
    "Prexel.C103_same_session",
    "Prexel.C103_width_counterexample"
   ],
   "note": "Proved for characters one column wide and lines shorter than a row. False for wide and combining characters and for longer lines (counterexample). Terminal: the Tty model."
  },
  {
   "property": "C104",
   "status": "partial",
   "theorems": [
    "Prexel.C104_transcript_partial",
    "Prexel.C104_streams",
    "Prexel.C104_prompt_counterexample"
   ],
   "note": "The transcript is proved, for lines and results that fit in a row. Without colours, entered lines and results cannot be told apart: results are written behind a prompt too (counterexample)."
  },
  {
   "property": "C105",
   "status": "partial",
   "theorems": [
    "Prexel.C105_ends",
    "Prexel.C105_farewell_partial",
    "Prexel.C105_eval_partial",
    "Prexel.C105_row_counterexample"
   ],
   "note": "When a session ends: proved without condition. The farewell: for characters one column wide and lines shorter than a row. False for longer lines: what was typed in the rows above stays (counterexample)."
  },
  {
   "property": "C106",
   "status": "proved",
   "theorems": [
    "Prexel.C106_no_color"
   ],
   "note": ""
  },
  {
   "property": "C107",
   "status": "proved",
   "theorems": [
    "Prexel.C107_replace",
    "Prexel.C107_replace_evaluated",
    "Prexel.C107_replace_by_value",
    "Prexel.C107_texts",
    "Prexel.C107_brackets_needed"
   ],
   "note": "With config.custom_function_call the theorem is not claimed: a function name may then stand without brackets."
  },
  {
   "property": "C108",
   "status": "partial",
   "theorems": [
    "Prexel.C108_checked_partial",
    "Prexel.C108_unchecked_partial",
    "Prexel.C108_server_partial",
    "Prexel.C108_complex_partial",
    "Prexel.C108_variable",
    "Prexel.C108_min_counterexample",
    "Prexel.C108_binary_counterexample",
    "Prexel.C108_float",
    "Prexel.C108_server_float",
    "Prexel.C108_decimal",
    "Prexel.C108_server_decimal",
    "Prexel.C108_complex_double",
    "Prexel.C108_server_complex",
    "Prexel.C108_complex_counterexample"
   ],
   "note": "Proved for integers other than the smallest, for IEEE 754 doubles, for decimals (over the model of rust_decimal), and for complex numbers over doubles neither part of which is minus zero (C108_complex_double, C108_server_complex); for any other number type under the contract that it reads back what it prints (Backend.Reads, Cx.Reads). False for the smallest integer, for binary numbers and for complex numbers with a part that is minus zero, such as the answer to -3 (counterexamples)."
  },
  {
   "property": "C109",
   "status": "partial",
   "theorems": [
    "Prexel.C109_stdout_partial",
    "Prexel.C109_stderr",
    "Prexel.C109_status_counterexample",
    "Prexel.C109_status"
   ],
   "note": "The streams are proved. The exit status is 0 also when the expression is wrong (counterexample); it differs from 0 exactly if the program panics. The text of a panic is not modelled."
  },
  {
   "property": "C110",
   "status": "proved",
   "theorems": [
    "Prexel.C110_table",
    "Prexel.C110_rows",
    "Prexel.C110_colours"
   ],
   "note": "The descriptions are those of C116."
  },
  {
   "property": "C111",
   "status": "proved",
   "theorems": [
    "Prexel.C111_registration",
    "Prexel.C111_cli",
    "Prexel.C111_server"
   ],
   "note": "With the default feature linked-hashmap."
  },
  {
   "property": "C112",
   "status": "proved",
   "theorems": [
    "Prexel.C112_text",
    "Prexel.C112_complex_text",
    "Prexel.C112_text_pure",
    "Prexel.C112_text_rejected",
    "Prexel.C112_order",
    "Prexel.C112_calls",
    "Prexel.C112_once",
    "Prexel.C112_rejected",
    "Prexel.C112_pure"
   ],
   "note": ""
  },
  {
   "property": "C113",
   "status": "partial",
   "theorems": [
    "Prexel.C113_fallback",
    "Prexel.C113_address",
    "Prexel.C113_identified",
    "Prexel.C113_connection",
    "Prexel.C113_clients",
    "Prexel.C113_counterexample",
    "Prexel.C113_cookie_counterexample"
   ],
   "note": "Different addresses never share an identifier, proved for all strings and cookies. False that a client has one limit: the address that actix-web 3 reports includes the port, so each connection has its own (counterexample); without an address, a cookie can name another client's address (counterexample)."
  },
  {
   "property": "C114",
   "status": "partial",
   "theorems": [
    "Prexel.C114_isolated",
    "Prexel.C114_limit_partial",
    "Prexel.C114_refused",
    "Prexel.C114_first",
    "Prexel.C114_counterexample",
    "Prexel.C114_workers",
    "Prexel.C114_workers_counterexample"
   ],
   "note": "At most 199 requests pass in any 60 seconds, and 199 can (counterexample to 100). Refusals and isolation proved. Each worker thread has a store of its own: with n workers, 199 n requests under any scheduling, and 199 n can pass (counterexample for every n). The store of actix-ratelimit and the workers of actix-web are modelled from their documentation."
  },
  {
   "property": "C115",
   "status": "proved",
   "theorems": [
    "Prexel.C115_words",
    "Prexel.C115_longest",
    "Prexel.C115_iff",
    "Prexel.C115_adjacent",
    "Prexel.C115_text",
    "Prexel.C115_complex_text"
   ],
   "note": "Texts with a second point in a number are excluded from C115_longest and C115_iff: the point is lost (C17)."
  },
  {
   "property": "C116",
   "status": "partial",
   "theorems": [
    "Prexel.C116_entries_partial",
    "Prexel.C116_complete",
    "Prexel.C116_server",
    "Prexel.C116_cli",
    "Prexel.C116_panic_counterexample"
   ],
   "note": "Proved for any history without panics, and for the built-in contexts. After a caught panic an entry can show an alias that belongs to another function (counterexample)."
  },
  {
   "property": "C117",
   "status": "partial",
   "theorems": [
    "Prexel.C117_tokens",
    "Prexel.C117_texts_partial",
    "Prexel.C117_names",
    "Prexel.C117_letter_counterexample"
   ],
   "note": "Proved for tokens without condition. As text, for names of functions and operators that begin with an ASCII character which is no unary operator itself, and that are longer than one character or punctuation: after an operator named by a single letter a sign is not recognised (counterexample)."
  },
  {
   "property": "C118",
   "status": "partial",
   "theorems": [
    "Prexel.C118_same_outcome",
    "Prexel.C118_blame",
    "Prexel.C118_unknown",
    "Prexel.C118_unknown_text",
    "Prexel.C118_unknown_partial",
    "Prexel.C118_registration",
    "Prexel.C118_kinds",
    "Prexel.C118_operand_counterexample"
   ],
   "note": "Every message is true of the text, with the full list of messages and when each arises; the first unknown word is named whenever what comes before it could be continued to something that converts (a function name just before it is blamed instead). The message about a missing operand shows the operator instead of the word after it (counterexample). Which of several mistakes is reported is not specified further, `Debug` of numbers and strings and the messages inside functions of the context are parameters."
  },
  {
   "property": "C119",
   "status": "partial",
   "theorems": [
    "Prexel.C119_presets",
    "Prexel.C119_builder",
    "Prexel.C119_removing",
    "Prexel.C119_keeping",
    "Prexel.C119_operators",
    "Prexel.C119_operators_start",
    "Prexel.C119_keeping_counterexample"
   ],
   "note": "All but the last sentence, which is false: with a splitter that keeps white space `2 * -3` is an error (counterexample)."
  },
  {
   "property": "C120",
   "status": "partial",
   "theorems": [
    "Prexel.C120_tokens",
    "Prexel.C120_text",
    "Prexel.C120_factorial_counterexample",
    "Prexel.C120_factorial_hangs"
   ],
   "note": "Proved with the calls of the functions of the context as one round each. What is missing is the work inside the functions: `n!` makes n - 1 rounds over integers in a release build, exponential in the length of the text, and over floats it does not end when n is too large to subtract 1 from (counterexamples); the square root of two decimals does not end either (C90)."
  },
  {
   "property": "C121",
   "status": "proved",
   "theorems": [
    "Prexel.C121_bool",
    "Prexel.C121_u8",
    "Prexel.C121_precedence_counterexample"
   ],
   "note": "The counterexample is to the usual precedences, which the example does not use: `true or true and false` is false."
  },
  {
   "property": "C122",
   "status": "proved",
   "theorems": [
    "Prexel.C122_brackets",
    "Prexel.C122_sign",
    "Prexel.C122_text",
    "Prexel.C122_complex_text",
    "Prexel.C122_sign_counterexample"
   ],
   "note": "The counterexample shows that the condition for leaving out the parentheses is needed: `8 / 2 (4)` is 1."
  },
  {
   "property": "C123",
   "status": "proved",
   "theorems": [
    "Prexel.C123_kinds",
    "Prexel.C123_text",
    "Prexel.C123_calls_counterexample"
   ],
   "note": "Text: default splitter. The counterexample shows the exception for calls."
  },
  {
   "property": "C124",
   "status": "proved",
   "theorems": [
    "Prexel.C124_order",
    "Prexel.C124_lookups"
   ],
   "note": "Values: with two values for the same variable the last one stays (example)."
  },
  {
   "property": "C125",
   "status": "proved",
   "theorems": [
    "Prexel.C125_first_fault",
    "Prexel.C125_text",
    "Prexel.C125_complex_text"
   ],
   "note": "For texts: Lexical contexts and plain expressions, as in C23."
  },
  {
   "property": "C126",
   "status": "partial",
   "theorems": [
    "Prexel.C126_address",
    "Prexel.C126_cookie",
    "Prexel.C126_ids",
    "Prexel.C126_counterexample",
    "Prexel.C126_never_counterexample"
   ],
   "note": "Known addresses and clients that send the cookie: proved. A client without address and cookie is never answered and never gets a cookie (counterexample). actix-web 3 and cookie 0.14 are modelled from their documentation."
  },
  {
   "property": "C127",
   "status": "proved",
   "theorems": [
    "Prexel.C127_single",
    "Prexel.C127_sentence",
    "Prexel.C127_capital",
    "Prexel.C127_letters"
   ],
   "note": "char::is_alphanumeric is a parameter; for C127_capital, white space is not alphanumeric."
  },
  {
   "property": "C128",
   "status": "partial",
   "theorems": [
    "Prexel.C128_fixed_text",
    "Prexel.C128_complex_fixed_text",
    "Prexel.C128_integers",
    "Prexel.C128_random",
    "Prexel.C128_complex_messages",
    "Prexel.C128_counterexample"
   ],
   "note": "All proved, except that what random(a, b) over complex numbers says can be false: it complains of min > max whenever a bound is negative (counterexample). Display of floating-point numbers is a parameter."
  },
  {
   "property": "C129",
   "status": "proved",
   "theorems": [
    "Prexel.C129_tree",
    "Prexel.C129_unique",
    "Prexel.C129_text",
    "Prexel.C129_counterexample"
   ],
   "note": "Existence, uniqueness and value of the tree for every well placed token list, and the converse. The placing rules are local (each token against the one before, brackets by a stack) and mention no tree and no precedence. Calls without arguments are not covered (C11). The counterexample: other lists may also be accepted (C13), without having a tree."
  },
  {
   "property": "C130",
   "status": "proved",
   "theorems": [
    "Prexel.C130_operators",
    "Prexel.nearestDouble_unique"
   ],
   "note": "IEEE 754 binary64 is modelled concretely (Model/Binary64); the nearest double is unique, so the specification determines the result."
  },
  {
   "property": "C131",
   "status": "proved",
   "theorems": [
    "Prexel.C131_exact",
    "Prexel.C131_text",
    "Prexel.C131_counterexample",
    "Prexel.double_tree"
   ],
   "note": "0.1 + 0.2 shows that the condition is needed."
  },
  {
   "property": "C132",
   "status": "proved",
   "theorems": [
    "Prexel.C132_literal"
   ],
   "note": "f64::from_str is modelled by exact rational rounding (Model/DoubleText)."
  },
  {
   "property": "C133",
   "status": "partial",
   "theorems": [
    "Prexel.C133_factorial_partial",
    "Prexel.C133_hangs_counterexample"
   ],
   "note": "Proved for every whole double below 2^53 + 4; from there on the evaluation never ends (counterexample)."
  },
  {
   "property": "C134",
   "status": "partial",
   "theorems": [
    "Prexel.C134_integers",
    "Prexel.C134_floats_partial",
    "Prexel.C134_floats_counterexample",
    "Prexel.C134_binary_counterexample",
    "Prexel.C134_decimals",
    "Prexel.C134_complex_partial",
    "Prexel.C134_complex_counterexample"
   ],
   "note": "Holds for integers and decimals; false for the names nan, inf and infinity over floats, for names such as b1 over binary numbers, and for i, j, nan, inf and infinity with or without an i or j behind over complex numbers (counterexamples, for every such name and context over floats and complex numbers)."
  },
  {
   "property": "C135",
   "status": "proved",
   "theorems": [
    "Prexel.C135_settings",
    "Prexel.C135_order",
    "Prexel.C135_brackets",
    "Prexel.C135_symbols"
   ],
   "note": "The grouping symbols of the configuration have no effect on evaluation (C30)."
  },
  {
   "property": "C136",
   "status": "proved",
   "theorems": [
    "Prexel.C136_error",
    "Prexel.C136_text",
    "Prexel.C136_whole"
   ],
   "note": "IEEE 754 binary64, no contract."
  },
  {
   "property": "C137",
   "status": "proved",
   "theorems": [
    "Prexel.C137_values",
    "Prexel.C137_literal"
   ],
   "note": "i64::from_str_radix and its relatives are modelled digit by digit with the overflow refused."
  },
  {
   "property": "C138",
   "status": "partial",
   "theorems": [
    "Prexel.C138_value_partial",
    "Prexel.C138_expression",
    "Prexel.C138_refused",
    "Prexel.C138_counterexample"
   ],
   "note": "Holds for values of variables. False for expressions: a numeral followed by a letter is evaluated as if a space was between them (proved for every number type and context), so that 2e3 is refused unless e3 is registered and 2e-3 is 2 * E - 3 with implicit multiplication (counterexample)."
  },
  {
   "property": "C139",
   "status": "partial",
   "theorems": [
    "Prexel.C139_display",
    "Prexel.C139_methods",
    "Prexel.C139_symbol_partial",
    "Prexel.C139_symbol_counterexample"
   ],
   "note": "contains_symbol is false for every operator, against its documentation (counterexample). Display of numbers is a parameter."
  },
  {
   "property": "C140",
   "status": "proved",
   "theorems": [
    "Prexel.C140_errors"
   ],
   "note": "The inner error is a text, as everywhere in the crate."
  },
  {
   "property": "C141",
   "status": "proved",
   "theorems": [
    "Prexel.C141_port"
   ],
   "note": "str::parse::<u16> is modelled digit by digit."
  },
  {
   "property": "C142",
   "status": "proved",
   "theorems": [
    "Prexel.C142_builder"
   ],
   "note": "The writer is represented by its prompt."
  },
  {
   "property": "C143",
   "status": "proved",
   "theorems": [
    "Prexel.C143_literal",
    "Prexel.C143_places",
    "Prexel.C143_server"
   ],
   "note": "Over the model of rust_decimal in Model/Decimal96 (96 bits, 28 places, half to even), which is proved to satisfy the contract Dec.Laws and TiesToEven that the other theorems on decimals assume. What is left open there: conversions to and from f64, texts that are not plain numerals."
  },
  {
   "property": "C144",
   "status": "proved",
   "theorems": [
    "Prexel.C144_exact",
    "Prexel.C144_whole"
   ],
   "note": "IEEE 754 binary64 parts; num-complex's formulas for product and quotient are written out from its documentation."
  },
  {
   "property": "C145",
   "status": "partial",
   "theorems": [
    "Prexel.C145_themes",
    "Prexel.C145_leak_counterexample",
    "Prexel.C145_rewrite_err_counterexample"
   ],
   "note": "Proved for every sequence of calls while colours stay on or stay off. Missing: false when colours are switched off and on again between calls (C145_leak_counterexample: the writer keeps colours it did not use), and a line rewritten as an error goes to standard output and is held back there (C145_rewrite_err_counterexample)."
  },
  {
   "property": "C146",
   "status": "proved",
   "theorems": [
    "Prexel.C146_says",
    "Prexel.C146_answer"
   ],
   "note": "How serde_json writes strings is modelled in Model/Json; the grammar of RFC 8259 is in Spec/Json."
  },
  {
   "property": "C147",
   "status": "partial",
   "theorems": [
    "Prexel.C147_understood",
    "Prexel.C147_refused",
    "Prexel.C147_counterexample"
   ],
   "note": "Both directions are proved for all bodies, with the meaning of a body as in Spec/Json (Asks). Missing: text behind the JSON value is not looked at, so that bodies which are no JSON text are answered as well (C147_counterexample); arrays of the three fields and {\"float\": null} as a type are accepted too, and stated so in IsRequest. serde and serde_json are not in the repository and modelled from their documented behaviour."
  },
  {
   "property": "C148",
   "status": "partial",
   "theorems": [
    "Prexel.C148_nearest",
    "Prexel.C148_text",
    "Prexel.C148_variable",
    "Prexel.C148_close",
    "Prexel.C148_counterexample"
   ],
   "note": "Proved for numbers of at most 15 digits with a power of ten between -22 and 22 (decimals: at most 13), and within four parts in 2^53 for digits that fit in 64 bits and powers from -300 to 288. Missing: false for more digits (C148_counterexample: 9007199254740993 becomes 9007199254740992, although the type is integer); minus zero as a decimal is left to rust_decimal."
  },
  {
   "property": "C149",
   "status": "proved",
   "theorems": [
    "Prexel.C149_literal",
    "Prexel.C149_server",
    "Prexel.C149_counterexample"
   ],
   "note": "C149_counterexample shows that it does not extend to the results of sums."
  },
  {
   "property": "C150",
   "status": "proved",
   "theorems": [
    "Prexel.C150_only",
    "Prexel.C150_type",
    "Prexel.C150_otherwise",
    "Prexel.C150_bare",
    "Prexel.C150_get"
   ],
   "note": "The query as `application/x-www-form-urlencoded`, specified in Spec/Query (parts, first equals sign, plus, percent); the crate serde_urlencoded is modelled from its documentation."
  },
  {
   "property": "C151",
   "status": "proved",
   "theorems": [
    "Prexel.C151_checked",
    "Prexel.C151_unchecked",
    "Prexel.C151_complex",
    "Prexel.C151_decimal",
    "Prexel.C151_exact",
    "Prexel.C151_double"
   ],
   "note": "That decimals panic where the written expression is refused is stated (and is why C65 is partial)."
  },
  {
   "property": "C152",
   "status": "proved",
   "theorems": [
    "Prexel.C152_listing",
    "Prexel.C152_total"
   ],
   "note": "What the entries themselves are: C47, C111, C116."
  },
  {
   "property": "C153",
   "status": "proved",
   "theorems": [
    "Prexel.C153_checked",
    "Prexel.C153_unchecked",
    "Prexel.C153_decimal",
    "Prexel.C153_complex",
    "Prexel.C153_binary",
    "Prexel.C153_counts",
    "Prexel.C153_counts_decimal",
    "Prexel.C153_counts_complex"
   ],
   "note": "The tables of culprits are in Spec/Culprits.lean. Number types of the checked and unchecked context: any whose machine arithmetic gives a number or panics (Num.NeverRefuses; proved for all integer widths and for floats)."
  },
  {
   "property": "C154",
   "status": "proved",
   "theorems": [
    "Prexel.C154_constants",
    "Prexel.C154_decimal_text",
    "Prexel.C154_float_text"
   ],
   "note": "The digits of rust_decimal's own constants (re-exported under these names) are taken from its source documentation."
  },
  {
   "property": "C155",
   "status": "partial",
   "theorems": [
    "Prexel.C155_partial",
    "Prexel.C155_reorders_counterexample",
    "Prexel.C155_calls_counterexample",
    "Prexel.C155_value_counterexample"
   ],
   "note": "The documentation of rpn_eval is false: a list with an operand behind a binary operator never passes unchanged, a list with an argument count is refused, and `2 3 + 4 *` gives 14. It holds where all operands come first and the operators descend."
  },
  {
   "property": "C156",
   "status": "proved",
   "theorems": [
    "Prexel.C156_sorted",
    "Prexel.C156_by_key",
    "Prexel.C156_contains"
   ],
   "note": "Vec::sort of the standard library is modelled by the stable merge sort of Lean's library (contract: both are stable sorts, and there is only one)."
  },
  {
   "property": "C157",
   "status": "proved",
   "theorems": [
    "Prexel.C157_exact",
    "Prexel.C157_aggregates",
    "Prexel.C157_big_factorial",
    "Prexel.C157_big_decimal"
   ],
   "note": "The number type is any that meets Num.Unbounded; BigDecimal (crate bigdecimal, from its documentation) is proved to."
  },
  {
   "property": "C158",
   "status": "proved",
   "theorems": [
    "Prexel.C158_sqrt",
    "Prexel.C158_exact",
    "Prexel.C158_square",
    "Prexel.C158_monotone",
    "Prexel.TakenFor.unique"
   ],
   "note": "IEEE 754 binary64, no contract: Rust guarantees that f64::sqrt is the nearest double."
  },
  {
   "property": "C159",
   "status": "proved",
   "theorems": [
    "Prexel.C159_fraction",
    "Prexel.C159_half",
    "Prexel.gamma_three_halves"
   ],
   "note": "IEEE 754 binary64; C159_half under the contracts Libm.Powers (t^1 is t) and Libm.Exponentials (exp within 2^-51)."
  },
  {
   "property": "C160",
   "status": "partial",
   "theorems": [
    "Prexel.C160_floats_partial",
    "Prexel.C160_zero_counterexample",
    "Prexel.C160_cut_counterexample"
   ],
   "note": "The sign of zero is 1, and -1 for minus zero, although the description says 0; numbers less than 1e-10 below a whole number are truncated to it (counterexamples). The rest is proved for all finite doubles."
  },
  {
   "property": "C161",
   "status": "partial",
   "theorems": [
    "Prexel.C161_rounding_partial",
    "Prexel.C161_sign",
    "Prexel.C161_odd_counterexample",
    "Prexel.C161_greatest_counterexample"
   ],
   "note": "Proved up to 2^53; in general the result is the nearest double. Beyond 2^53 odd integers are changed, and the greatest integer overflows (counterexamples). C161_sign holds for all integers and says that the sign of 0 is 1, not 0."
  },
  {
   "property": "C162",
   "status": "proved",
   "theorems": [
    "Prexel.C162_sine",
    "Prexel.C162_right_angles",
    "Prexel.C162_tangent",
    "Prexel.C162_pole"
   ],
   "note": "IEEE 754 binary64; contract Libm.Circular: sin, cos and tan of the platform are within 2^-52 (tan: 2^-51 of the result)."
  },
  {
   "property": "C163",
   "status": "proved",
   "theorems": [
    "Prexel.C163_arcs",
    "Prexel.C163_outside",
    "Prexel.C163_arctangent",
    "Prexel.C163_angle",
    "Prexel.C163_known"
   ],
   "note": "IEEE 754 binary64; contract Libm.Arcs: asin, acos, atan and atan2 of the platform are within 2^-51."
  },
  {
   "property": "C164",
   "status": "proved",
   "theorems": [
    "Prexel.C164_ln",
    "Prexel.C164_log",
    "Prexel.C164_base",
    "Prexel.C164_refused",
    "Prexel.C164_base_zero"
   ],
   "note": "IEEE 754 binary64; contract Libm.Logarithms: ln and log10 of the platform are within 2^-52 of the result."
  },
  {
   "property": "C165",
   "status": "proved",
   "theorems": [
    "Prexel.C165_functions",
    "Prexel.C165_reciprocals"
   ],
   "note": "IEEE 754 binary64; contracts Libm.Exponentials and Libm.Hyperbolic: exp, sinh, cosh and tanh of the platform are within 2^-51 of the result."
  },
  {
   "property": "C166",
   "status": "proved",
   "theorems": [
    "Prexel.C166_reciprocals",
    "Prexel.C166_right_angles",
    "Prexel.C166_arcs",
    "Prexel.C166_zero"
   ],
   "note": "IEEE 754 binary64; contracts Libm.Circular, Libm.Arcs and (for zero) Libm.ArcsFar: asin and acos of infinity are NaN, atan of infinity is within 2^-51 of pi/2."
  },
  {
   "property": "C167",
   "status": "proved",
   "theorems": [
    "Prexel.C167_first",
    "Prexel.C167_nan",
    "Prexel.C167_order",
    "Prexel.C167_order_counterexample",
    "Prexel.FirstBest.unique"
   ],
   "note": "IEEE 754 binary64, all doubles. C37 does not apply to floats, because 0 and -0 and NaN are no linear order."
  },
  {
   "property": "C168",
   "status": "proved",
   "theorems": [
    "Prexel.C168_units",
    "Prexel.C168_back",
    "Prexel.C168_back_counterexample"
   ],
   "note": "IEEE 754 binary64. The counterexample: 57.295779508 comes back as 57.29577951308232."
  },
  {
   "property": "C169",
   "status": "proved",
   "theorems": [
    "Prexel.C169_ln_exp",
    "Prexel.C169_ln_exp_counterexample",
    "Prexel.C169_exp_ln",
    "Prexel.C169_atan_tan"
   ],
   "note": "IEEE 754 binary64; contracts Libm.Exponentials, Libm.Logarithms, Libm.Circular, Libm.Arcs. For x below -20 the statement fails (counterexample)."
  },
  {
   "property": "C170",
   "status": "proved",
   "theorems": [
    "Prexel.C170_nan",
    "Prexel.C170_infinity",
    "Prexel.C170_division"
   ],
   "note": "IEEE 754 binary64."
  },
  {
   "property": "C171",
   "status": "proved",
   "theorems": [
    "Prexel.C171_value",
    "Prexel.C171_power",
    "Prexel.C171_sum",
    "Prexel.C171_log"
   ],
   "note": "IEEE 754 binary64; contracts Libm.RealPowers, Libm.Logarithms (for log)."
  },
  {
   "property": "C172",
   "status": "proved",
   "theorems": [
    "Prexel.C172_squares",
    "Prexel.C172_angles",
    "Prexel.C172_quotient"
   ],
   "note": "IEEE 754 binary64; contract Libm.Circular."
  },
  {
   "property": "C173",
   "status": "proved",
   "theorems": [
    "Prexel.C173_areas",
    "Prexel.C173_reciprocals"
   ],
   "note": "IEEE 754 binary64; contract Libm.Areas. That the areas come in degrees is C89."
  },
  {
   "property": "C174",
   "status": "proved",
   "theorems": [
    "Prexel.C174_of_arc",
    "Prexel.C174_arc_of",
    "Prexel.C174_lost"
   ],
   "note": "IEEE 754 binary64; contracts Libm.Circular and Libm.Arcs. That nearly 90 degrees comes back as 90 is part of the property."
  },
  {
   "property": "C175",
   "status": "proved",
   "theorems": [
    "Prexel.C175_log",
    "Prexel.C175_exp"
   ],
   "note": "IEEE 754 binary64; contracts Libm.Logarithms and Libm.Exponentials. `/` is the division sign of the default context; the logarithm is the decimal `log`."
  },
  {
   "property": "C176",
   "status": "proved",
   "theorems": [
    "Prexel.C176_names",
    "Prexel.C176_variable"
   ],
   "note": "For tokens. As text, names such as nan are read as numbers over floats (C134)."
  },
  {
   "property": "C177",
   "status": "proved",
   "theorems": [
    "Prexel.C177_capacity",
    "Prexel.C177_reads",
    "Prexel.C177_push",
    "Prexel.C177_zero",
    "Prexel.C177_changes",
    "Prexel.C177_kept",
    "Prexel.C177_equal",
    "Prexel.C177_order"
   ],
   "note": "The derived hash is not modelled; a &mut is modelled as the function applied to it; derived equality as equality (of element types with a lawful equality)."
  }
 ]
}