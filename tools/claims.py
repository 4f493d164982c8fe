c("C01","proved","C01_eval_eq_denote C01_unambiguous","All contexts, all well-formed trees.")
c("C02","proved","C02_infix_to_rpn_postfix C02_no_grouping","")
c("C03","proved","C03_chain","Operands may be any primary expressions.")
c("C04","proved","C04_infix_to_rpn_never_panics C04_eval_never_panics","Hypothesis: the registered functions do not panic.")
c("C05","proved","C05_accepted_balanced C05_unbalanced_err","")
c("C06","proved","C06_wrap C06_exception","The exception named in the property is shown to be one.")
c("C07","proved","C07_unknown_rejected","")
c("C08","proved","C08_function_parenthesis C08_missing_parenthesis_err C08_custom_call_counterexample","The third theorem shows why the property is limited to custom_function_call off.")
c("C09","proved","C09_frame","")
c("C10","proved","C10_by_value C10_implicit_counterexample","The second theorem shows why the property is limited to implicit_mul off.")
c("C11","partial","C11_call_arguments_partial C11_call_no_arguments_alone_partial C11_zero_arguments_counterexample","Proved for one or more arguments anywhere and for zero arguments when the call is the whole expression. The code violates the claim for zero arguments in a larger expression: counterexample proved.")
c("C12","partial","C12_comma_positions_partial C12_empty_middle_counterexample","First and last positions proved; an empty middle position is accepted by the code: counterexample proved.")
c("C13","partial","C13_operand_count_partial C13_postfix_accepted_counterexample","The code accepts postfix and prefix order: counterexample proved. What does hold is the operand count.")
c("C14","proved","C14_empty_iff_blank","")
c("C15","partial","C15_ascii_no_panic_partial C15_eval_ascii_no_panic_partial C15_panic_cause_partial C15_non_ascii_counterexample C15_stumbles_counterexample","False in general: the code can panic. ASCII texts never do; the only cause of a panic is a word that begins with a non-ASCII character, is no number, variable or constant, and stands directly before a prefix operator that is not the last word; two counterexamples show that such texts do panic.")
c("C16","proved","C16_split C16_white_space","")
c("C17","partial","C17_flatten_partial C17_only_points_lost_partial C17_second_point_counterexample","The splitter loses a second decimal point: counterexample proved; nothing but points and white space is ever lost.")
c("C18","proved","C18_split_join C18_split_idempotent C18_characters","")
c("C19","proved","C19_shape","")
c("C20","proved","C20_determined C20_same_word_same_token","")
c("C21","proved","C21_sign C21_complex_sign C21_not_lexical_counterexample C21_characters","For contexts whose operator names can be told apart (Lexical); the second theorem shows why.")
c("C22","proved","C22_words_in_order","")
c("C23","proved","C23_text C23_spaced_text C23_complex_text C23_complex_context C23_adjacent_operators_counterexample","For Lexical contexts and plain expressions; the last theorem shows why.")
c("C24","proved","C24_get_variable C24_set_variable C24_set_variable_succeeds","")
c("C25","proved","C25_disjoint C25_not_both","")
c("C26","proved","C26_never_replaced C26_add_function C26_add_unary_function C26_add_binary_function","")
c("C27","partial","C27_err_unchanged_partial C27_no_panic_partial C27_alias_counterexample","An alias that exists makes the code panic after earlier aliases were inserted: counterexample proved.")
c("C28","partial","C28_ascii_case_partial C28_only_case_partial C28_non_ascii_counterexample","Proved for ASCII names; for other letters Hash and Eq disagree: counterexample proved.")
c("C29","partial","C29_debug_refuses_partial C29_characters C29_debug_names_valid_partial C29_release_counterexample C29_alias_counterexample","Names are only checked in debug builds, aliases never: counterexamples proved.")
c("C30","partial","C30_grouping_set_ignored_partial C30_counterexample","False of the code: the configured set is never consulted.")
c("C53","proved","C53_operands_in_order C53_operators_conserved","")
c("C54","partial","C54_total_order C54_hash_ascii_partial C54_hash_counterexample","Order and equality proved for all strings; equal strings have equal hashes only for ASCII: counterexample proved.")
c("C55","proved","C55_get_constant","")
c("C31","proved","C31_checked C31_unchecked C31_binary C31_decimal C31_complex C31_names C31_no_pi","Also: without PI and E the constructors panic.")
c("C32","proved","C32_checked C32_unchecked C32_checked_text C32_unchecked_text C32_decimal C32_decimal_text C32_complex","")
c("C33","proved","C33_checked_operators C33_checked_mod_partial C33_mod_counterexample","The two theorems on mod together cover every pair of operands: the exception is named in the property.")
c("C34","proved","C34_exact_or_error C34_no_error C34_text","Tokens and text.")
c("C35","partial","C35_factorial_partial C35_factorial_counterexample","A factorial that does not fit panics (debug) or wraps (release): proved for every operand and width.")
c("C36","partial","C36_sum C36_product C36_order_partial C36_order_counterexample","Exactness proved; an overflow depends on the order: counterexample proved.")
c("C37","proved","C37_max_min C37_unordered","Second theorem: without a linear order (NaN) the order of the arguments matters.")
c("C38","partial","C38_avg_partial C38_avg_counterexample C38_avg_zeros_counterexample","avg panics if the number of arguments does not fit the type: counterexample proved in every width.")
c("C56","partial","C56_sign_bracket_partial C56_reaches_end C56_sign_bracket_counterexample","-(2 + 3) + 4 is -9: the sign takes everything to the end of the group, proved in general.")
c("C57","partial","C57_docs_counterexample C57_other_names_partial","The feature docs renames truncate and sign: counterexample proved; every other name is unaffected.")
c("C58","proved","C58_abs","")
c("C59","proved","C59_unchecked_operators C59_wrap","")
c("C39","partial","C39_parse C39_only_digits C39_display C39_round_trip_partial C39_negative_counterexample","Parsing and printing proved; negative numbers do not read back: counterexample proved for all of them.")
c("C40","partial","C40_bitwise C40_not C40_shift_partial C40_shift_counterexample","A shift by a negative number or by more than 127 panics (debug): counterexample proved.")
c("C60","partial","C60_same_group_partial C60_reversed_counterexample","The precedences of the binary context are reversed: proved for any two operators.")
c("C41","partial","C41_keeps_last_partial C41_capacity_partial C41_prompt_history_partial C41_default C41_sized_partial C41_no_room_counterexample","Proved for every capacity > 0, also for the prompt itself; capacity 0 (--history 0) panics.")
c("C42","partial","C42_in_bounds_partial C42_no_history_counterexample","Proved for every history size > 0 and every callback that answers; with --history 0 entering a line panics.")
c("C43","partial","C43_result_partial C43_assigned_counterexample C61_keys_are_lines","A line that assigns to $result by hand overrides it.")
c("C44","partial","C44_evaluated_partial C44_comparison_counterexample","Lines with = are always taken as assignments, so the comparisons of the binary context cannot be entered.")
c("C61","proved","C61_typed C61_enter C61_keys_are_lines","")
c("C62","proved","C62_up C62_down","")
c("C63","proved","C63_assign C63_kept C63_only_variables","")
c("C48","partial","C48_power_partial C48_power_exact_partial C48_power_counterexample","For which whole bases and exponents the power is returned is determined exactly; the loop squares once too often, so 10^16 overflows although it fits: counterexample proved.")
c("C49","partial","C49_factorial_partial C49_factorial_counterexample","All whole numbers except 2; 2! evaluates to 1: counterexample proved.")
c("C50","partial","C50_hyperbolic_partial C50_reciprocal_counterexample C50_csc_zero_counterexample C50_hyperbolic_quotient_partial","csc, sec, cot are sin, cos, tan: proved for every argument. The hyperbolic ones are reciprocals.")
c("C64","proved","C64_decimal_exact C32_decimal_text","")
c("C65","partial","C65_decimal_never_panics_partial C68_ends C65_decimal_panics_counterexample","Proved for any tokens over + - * / mod, signs and 19 functions; nine panics proved. With half-to-even rounding asin and acos never panic, and acsc and asec do exactly at 0 (C68_ends).")
c("C66","partial","C66_atan2_partial C66_angle_partial C66_atan2_counterexample","On the y axis the result is 2 PI instead of PI/2: counterexample proved.")
c("C67","proved","C67_domain","")
c("C68","partial","C68_arc_partial C68_ends C68_reciprocal_partial C68_asin_counterexample C68_acot_counterexample","acsc and asec are correct to 4/10^13; with half-to-even rounding and a float square root close enough they always return there, asin and acos never panic, and acsc and asec panic exactly at 0 (C68_ends). asin(x) and acos(x) are the arcsine and arccosine of x degrees in radians (counterexample); acot is atan for every argument (counterexample).")
c("C69","partial","C69_special_powers_partial C69_zero_power_counterexample","0 to a power that is not whole is 1: counterexample proved.")
c("C52","partial","C52_log_partial C52_log_base_counterexample","log(z) is proved; log(z, b) refuses every real base and uses only the real part of the others: counterexample proved for every context.")
c("C70","proved","C70_exact_arithmetic C70_signs C70_remainder","Contract Cx.Exact: the component type computes as a field of rationals does; for mod also Cx.Truncates: x % 1 is x without its whole part.")
c("C71","proved","C71_complex_text","")
c("C72","partial","C72_reciprocal C72_inverse_counterexample","The reciprocals are proved; the inverses are wrong in the code (acsc(z) is 1/asin(z)): proved for every argument.")
c("C73","partial","C73_random_partial C73_random_counterexample","random(a, b) compares with 0 instead of with each other: counterexample proved.")
c("C74","proved","C74_complex_no_panic","")
c("C51","partial","C51_wrapped_checked_partial C51_wrapped_unchecked_partial C51_subtraction_counterexample","Every text agrees with the field type as long as it uses no unchecked subtraction and no factorial: the macro's Sub adds (counterexample for every pair with different sum and difference).")
c("C75","proved","C75_wider_checked C75_wider_unchecked C75_release_counterexample","The counterexample shows why unchecked contexts need a debug build.")
c("C76","proved","C76_checked_unchecked C76_floats C76_integers","Contract Consistent, proved for every integer width; for f64 from the contract that a positive count is not zero.")
c("C77","proved","C77_release_checked C77_release_unchecked","")
c("C45","proved","C45_result_iff C45_response","The outcome of reading the body and the query are arguments; a panic of the handler is a separate outcome, see C81.")
c("C46","partial","C46_order_partial C46_counterexample","If several variables are refused, which of the errors is reported depends on the order of the hash map (counterexample).")
c("C47","partial","C47_decimal_partial C47_complex_partial C47_integer_partial C47_binary_partial C47_float_counterexample","True for four of the five number types; for floats the server lists the decimal functions (counterexample). For aliases and descriptions see C116.")
c("C78","proved","C78_decimal C78_float C78_complex C78_integer C78_binary","Contract Listing.Readable for the readers of decimals, floats and complex numbers (no listed name is a literal); none is needed for integers and binary numbers.")
c("C79","partial","C79_agree C79_float_partial C79_float_counterexample","Proved for decimal, complex, integer and binary; for floats only if the expression names none of abs, floor, ceil, trunc, round and signum, which only the server has (counterexample).")
c("C80","partial","C80_integers_release C80_integers_debug_partial C80_floats_partial C80_unchecked_floats_partial C80_binary_release C80_debug_counterexample","In debug builds factorials, shifts and unchecked sums panic (counterexample, for every operand that does not fit). Not proved: floats with factorials (C133).")
c("C81","partial","C81_server_no_panic_partial C81_decimal_no_panic_partial C81_counterexample","ASCII expressions without the operations that can panic; three requests on which a debug server panics are the counterexample.")
c("C82","proved","C82_one_argument C82_two_arguments C89_area_degrees","The functions of the mathematical library are opaque; the tables of Spec/Floats.lean say which one each name stands for.")
c("C83","partial","C83_rounding_partial C83_floor_counterexample C83_double_partial C83_double_counterexample","For IEEE 754 doubles without a contract, and for any floats under one: floor and ceil are wrong closer than 1e-10 to a whole number (counterexample); right everywhere else. Contract F64.Whole.")
c("C84","proved","C84_reciprocal","")
c("C85","partial","C85_finite_partial C85_counterexample","19 functions never return NaN or infinity; sqrt, ln, exp and the hyperbolic functions, and operators, do (counterexample).")
c("C86","proved","C86_checked C86_unchecked C86_decimal C86_complex","")
c("C87","proved","C87_random C87_double C87_overflow_counterexample","C87_double: IEEE 754 doubles, no contract; if b - a overflows the number is infinite or NaN. C87_random: any floats with Contract F64.Rounds: results that are in range are the exact ones rounded monotonically; a draw is in [0, 1).")
c("C88","partial","C88_power_partial C88_counterexample C88_double_partial C88_double_counterexample","Exact up to 2^53; beyond it no power of an odd base is right (counterexample). Contract PowerContract. With IEEE 754 doubles (C88_double_partial) conversions need no contract, and larger powers have an error of at most 2^-52 of the power; contract Libm.Powers for powf.")
c("C89","partial","C89_area_degrees C89_inverse_counterexample","Counterexample only: asinh, acosh and atanh convert the area to degrees.")
c("C90","partial","C90_sqrt_partial C90_sqrt_ends C90_up_to_15_partial C90_hangs_counterexample C90_squares","Contract SqrtStart for the f64 start value. Under rounding half to even (contracts TiesToEven, SqrtClose) the loop ends for every decimal up to 15 except exactly two, 3.9720354828415177818323744671 and 4.0000000000000000000000000003, for which it never ends (counterexample); squares of whole numbers below 2^26 are exact. Missing: beyond 15, for which other numbers the loop ends; if it does, the result is right.")
c("C91","partial","C91_cbrt_partial C91_cbrt_small_partial C91_cbrt_negative_partial C91_cbrt_counterexample C91_cbrt_zero_counterexample C91_cbrt_minus_two_counterexample","Proved for all of (0, 8*10^14] and for [-8*10^14, -3]; below 1 with an absolute error of 36*10^-28 divided by the root. False from 10^15 on (always Overflow), for zero and for -2 (counterexamples). Not covered: between -3 and 0 other than -2, and between 8*10^14 and 10^15 in absolute value.")
c("C92","partial","C92_ln_partial C92_ln_small_partial C92_ln_ends C92_ln_counterexample","Proved for x >= 1/10, and for every 0 < x < 1 with the error of the cut series. False for 0 < x <= 10^-4: the result is too large by more than 1 (counterexample).")
c("C93","partial","C93_log_quotient C93_log_ten_partial C93_log_power_partial C93_log_base_partial C93_log_counterexample","Base 10 proved for x >= 1/10; powers of ten to 25 digits, exact up to 10^3. log(10000) is never 4 (counterexample). Bases other than 10: the quotient of the two logarithms, and its accuracy for x and base >= 1/10 with |ln base| >= 10^-10. Missing: below 1/10, bases closer to 1.")
c("C94","partial","C94_any_angle C94_sin_partial C94_cos_partial C94_tan_partial C94_tan_pole C94_large_counterexample","Sine and cosine: for every decimal up to 3 * 10^-16 plus 45 units of the 29th digit of the angle, so up to 4 * 10^-16 for angles up to 10^11 degrees; exact multiples also up to 10^11 (exact tangents up to 10^10), tan where the cosine is at least 10^-8. Missing: exactness at larger multiples and tangents of larger angles, where the remainder by the rounded 2 pi loses digits. For the largest angles the claim is false: 18 * 10^27 degrees are a whole number of turns, and the sine computed is at least 1/10, the cosine at most 99/100 (counterexample).")
c("C95","partial","C95_asinh_partial C95_acosh_partial C95_atanh_partial C95_wide_partial C95_ends_partial C95_counterexample","asinh from -15 to 28*10^13, acosh from above 1 to 28*10^13 and atanh from -0.93 to 1 are correct to 10^-13, or the square root loop panics. The property is false for asinh from -5000 down, for atanh between -1 and -0.9999, and both asinh and acosh panic from 2^48 on (C95_counterexample). With half-to-even rounding asinh on [-3.7, 3.7] and acosh on (1, 3.9] always return, except at one argument each (two for asinh), where the square root never settles (C95_ends_partial). Missing: the gaps between these ranges.")
c("C96","partial","C96_exp_partial C96_wide_partial C96_exp_ends C96_exp_counterexample C96_large_counterexample","Proved from -20 to 20 to 16 digits; from -100 to 50 with an error that grows like the square of the result (3 digits left at 50). exp(-10000) is below -1/10, and exp(10000) below -7 instead of an overflow (counterexamples). Missing: above 50, and between -10000 and -100.")
c("C97","partial","C97_hyperbolic_partial C97_wide_partial C97_hyperbolic_counterexample","Proved from -20 to 20 to 15 digits, and from -50 to 50 with an error that grows with the result. False for large arguments: sinh(10000) and cosh(10000) are below -3, tanh(10000) is wrong by more than 1/100 (counterexample). Missing: which other arguments beyond 50.")
c("C98","partial","C98_power_partial C98_wide_partial C98_zero_counterexample","Proved for x >= 1/10 and results from e^-19 to e^19; for results from e^-99 to e^49 with an error that grows with the result. 0 ^ 0.5 is 1 (counterexample). Missing: x below 1/10.")
c("C99","proved","C99_rounding","")
c("C100","partial","C100_to_radians C100_to_degrees_range_partial C100_to_degrees_sharp_partial C100_to_degrees_counterexample C100_to_radians_partial C100_to_degrees_partial","to_radians is proved for every decimal, to_degrees up to 1.378 * 10^27. When the result exceeds the range the code panics instead of reporting an overflow (counterexample): the result is right up to 2^96 - 60 degrees and the call panics from 2^96 + 60 on; what happens within 60 of 2^96 is not settled. Up to 10^11 degrees and 10^9 radians the absolute error is proved to be at most 1.5 * 10^-16.")
c("C101","proved","C101_atan","")
c("C102","partial","C102_counterexample","False: acsch, asech and acoth are the reciprocals of asinh, acosh and atanh (counterexample).")
c("C103","partial","C103_line_partial C103_eval_partial C103_same_session C103_width_counterexample","Proved for characters one column wide and lines shorter than a row. False for wide and combining characters and for longer lines (counterexample). Terminal: the Tty model.")
c("C104","partial","C104_transcript_partial C104_streams C104_prompt_counterexample","The transcript is proved, for lines and results that fit in a row. Without colours, entered lines and results cannot be told apart: results are written behind a prompt too (counterexample).")
c("C105","partial","C105_ends C105_farewell_partial C105_eval_partial C105_row_counterexample","When a session ends: proved without condition. The farewell: for characters one column wide and lines shorter than a row. False for longer lines: what was typed in the rows above stays (counterexample).")
c("C106","proved","C106_no_color","")
c("C107","proved","C107_replace C107_replace_evaluated C107_replace_by_value C107_texts C107_brackets_needed","With config.custom_function_call the theorem is not claimed: a function name may then stand without brackets.")
c("C108","partial","C108_checked_partial C108_unchecked_partial C108_server_partial C108_complex_partial C108_variable C108_min_counterexample C108_binary_counterexample C108_float C108_server_float C108_decimal C108_server_decimal C108_complex_double C108_server_complex C108_complex_counterexample","Proved for integers other than the smallest, for IEEE 754 doubles, for decimals (over the model of rust_decimal), and for complex numbers over doubles neither part of which is minus zero (C108_complex_double, C108_server_complex); for any other number type under the contract that it reads back what it prints (Backend.Reads, Cx.Reads). False for the smallest integer, for binary numbers and for complex numbers with a part that is minus zero, such as the answer to -3 (counterexamples).")
c("C109","partial","C109_stdout_partial C109_stderr C109_status_counterexample C109_status","The streams are proved. The exit status is 0 also when the expression is wrong (counterexample); it differs from 0 exactly if the program panics. The text of a panic is not modelled.")
c("C110","proved","C110_table C110_rows C110_colours","The descriptions are those of C116.")
c("C111","proved","C111_registration C111_cli C111_server","With the default feature linked-hashmap.")
c("C112","proved","C112_text C112_complex_text C112_text_pure C112_text_rejected C112_order C112_calls C112_once C112_rejected C112_pure","")
c("C113","partial","C113_fallback C113_address C113_identified C113_connection C113_clients C113_counterexample C113_cookie_counterexample","Different addresses never share an identifier, proved for all strings and cookies. False that a client has one limit: the address that actix-web 3 reports includes the port, so each connection has its own (counterexample); without an address, a cookie can name another client's address (counterexample).")
c("C114","partial","C114_isolated C114_limit_partial C114_refused C114_first C114_counterexample C114_workers C114_workers_counterexample","At most 199 requests pass in any 60 seconds, and 199 can (counterexample to 100). Refusals and isolation proved. Each worker thread has a store of its own: with n workers, 199 n requests under any scheduling, and 199 n can pass (counterexample for every n). The store of actix-ratelimit and the workers of actix-web are modelled from their documentation.")
c("C115","proved","C115_words C115_longest C115_iff C115_adjacent C115_text C115_complex_text","Texts with a second point in a number are excluded from C115_longest and C115_iff: the point is lost (C17).")
c("C116","partial","C116_entries_partial C116_complete C116_server C116_cli C116_panic_counterexample","Proved for any history without panics, and for the built-in contexts. After a caught panic an entry can show an alias that belongs to another function (counterexample).")
c("C117","partial","C117_tokens C117_texts_partial C117_names C117_letter_counterexample","Proved for tokens without condition. As text, for names of functions and operators that begin with an ASCII character which is no unary operator itself, and that are longer than one character or punctuation: after an operator named by a single letter a sign is not recognised (counterexample).")
c("C118","partial","C118_same_outcome C118_blame C118_unknown C118_unknown_text C118_unknown_partial C118_registration C118_kinds C118_operand_counterexample","Every message is true of the text, with the full list of messages and when each arises; the first unknown word is named whenever what comes before it could be continued to something that converts (a function name just before it is blamed instead). The message about a missing operand shows the operator instead of the word after it (counterexample). Which of several mistakes is reported is not specified further, `Debug` of numbers and strings and the messages inside functions of the context are parameters.")
c("C119","partial","C119_presets C119_builder C119_removing C119_keeping C119_operators C119_operators_start C119_keeping_counterexample","All but the last sentence, which is false: with a splitter that keeps white space `2 * -3` is an error (counterexample).")
c("C120","partial","C120_tokens C120_text C120_factorial_counterexample C120_factorial_hangs","Proved with the calls of the functions of the context as one round each. What is missing is the work inside the functions: `n!` makes n - 1 rounds over integers in a release build, exponential in the length of the text, and over floats it does not end when n is too large to subtract 1 from (counterexamples); the square root of two decimals does not end either (C90).")
c("C121","proved","C121_bool C121_u8 C121_precedence_counterexample","The counterexample is to the usual precedences, which the example does not use: `true or true and false` is false.")
c("C122","proved","C122_brackets C122_sign C122_text C122_complex_text C122_sign_counterexample","The counterexample shows that the condition for leaving out the parentheses is needed: `8 / 2 (4)` is 1.")
c("C123","proved","C123_kinds C123_text C123_calls_counterexample","Text: default splitter. The counterexample shows the exception for calls.")
c("C124","proved","C124_order C124_lookups","Values: with two values for the same variable the last one stays (example).")
c("C125","proved","C125_first_fault C125_text C125_complex_text","For texts: Lexical contexts and plain expressions, as in C23.")
c("C126","partial","C126_address C126_cookie C126_ids C126_counterexample C126_never_counterexample","Known addresses and clients that send the cookie: proved. A client without address and cookie is never answered and never gets a cookie (counterexample). actix-web 3 and cookie 0.14 are modelled from their documentation.")
c("C127","proved","C127_single C127_sentence C127_capital C127_letters","char::is_alphanumeric is a parameter; for C127_capital, white space is not alphanumeric.")
c("C128","partial","C128_fixed_text C128_complex_fixed_text C128_integers C128_random C128_complex_messages C128_counterexample","All proved, except that what random(a, b) over complex numbers says can be false: it complains of min > max whenever a bound is negative (counterexample). Display of floating-point numbers is a parameter.")
c("C129", "proved", "C129_tree C129_unique C129_text C129_counterexample", "Existence, uniqueness and value of the tree for every well placed token list, and the converse. The placing rules are local (each token against the one before, brackets by a stack) and mention no tree and no precedence. Calls without arguments are not covered (C11). The counterexample: other lists may also be accepted (C13), without having a tree.")
c("C130","proved","C130_operators nearestDouble_unique","IEEE 754 binary64 is modelled concretely (Model/Binary64); the nearest double is unique, so the specification determines the result.")
c("C131","proved","C131_exact C131_text C131_counterexample double_tree","0.1 + 0.2 shows that the condition is needed.")
c("C132","proved","C132_literal","f64::from_str is modelled by exact rational rounding (Model/DoubleText).")
c("C133","partial","C133_factorial_partial C133_hangs_counterexample","Proved for every whole double below 2^53 + 4; from there on the evaluation never ends (counterexample).")
c("C134","partial","C134_integers C134_floats_partial C134_floats_counterexample C134_binary_counterexample C134_decimals C134_complex_partial C134_complex_counterexample","Holds for integers and decimals; false for the names nan, inf and infinity over floats, for names such as b1 over binary numbers, and for i, j, nan, inf and infinity with or without an i or j behind over complex numbers (counterexamples, for every such name and context over floats and complex numbers).")
c("C135","proved","C135_settings C135_order C135_brackets C135_symbols","The grouping symbols of the configuration have no effect on evaluation (C30).")
c("C136","proved","C136_error C136_text C136_whole","IEEE 754 binary64, no contract.")
c("C137","proved","C137_values C137_literal","i64::from_str_radix and its relatives are modelled digit by digit with the overflow refused.")
c("C138","partial","C138_value_partial C138_expression C138_refused C138_counterexample","Holds for values of variables. False for expressions: a numeral followed by a letter is evaluated as if a space was between them (proved for every number type and context), so that 2e3 is refused unless e3 is registered and 2e-3 is 2 * E - 3 with implicit multiplication (counterexample).")
c("C139","partial","C139_display C139_methods C139_symbol_partial C139_symbol_counterexample","contains_symbol is false for every operator, against its documentation (counterexample). Display of numbers is a parameter.")
c("C140","proved","C140_errors","The inner error is a text, as everywhere in the crate.")
c("C141","proved","C141_port","str::parse::<u16> is modelled digit by digit.")
c("C142","proved","C142_builder","The writer is represented by its prompt.")
c("C143","proved","C143_literal C143_places C143_server","Over the model of rust_decimal in Model/Decimal96 (96 bits, 28 places, half to even), which is proved to satisfy the contract Dec.Laws and TiesToEven that the other theorems on decimals assume. What is left open there: conversions to and from f64, texts that are not plain numerals.")
c("C144","proved","C144_exact C144_whole","IEEE 754 binary64 parts; num-complex's formulas for product and quotient are written out from its documentation.")
c("C145","partial","C145_themes C145_leak_counterexample C145_rewrite_err_counterexample","Proved for every sequence of calls while colours stay on or stay off. Missing: false when colours are switched off and on again between calls (C145_leak_counterexample: the writer keeps colours it did not use), and a line rewritten as an error goes to standard output and is held back there (C145_rewrite_err_counterexample).")
c("C146","proved","C146_says C146_answer","How serde_json writes strings is modelled in Model/Json; the grammar of RFC 8259 is in Spec/Json.")
c("C147","partial","C147_understood C147_refused C147_counterexample","Both directions are proved for all bodies, with the meaning of a body as in Spec/Json (Asks). Missing: text behind the JSON value is not looked at, so that bodies which are no JSON text are answered as well (C147_counterexample); arrays of the three fields and {\"float\": null} as a type are accepted too, and stated so in IsRequest. serde and serde_json are not in the repository and modelled from their documented behaviour.")
c("C148","partial","C148_nearest C148_text C148_variable C148_close C148_counterexample","Proved for numbers of at most 15 digits with a power of ten between -22 and 22 (decimals: at most 13), and within four parts in 2^53 for digits that fit in 64 bits and powers from -300 to 288. Missing: false for more digits (C148_counterexample: 9007199254740993 becomes 9007199254740992, although the type is integer); minus zero as a decimal is left to rust_decimal.")
c("C149","proved","C149_literal C149_server C149_counterexample","C149_counterexample shows that it does not extend to the results of sums.")
c("C150", "proved", "C150_only C150_type C150_otherwise C150_bare C150_get", "The query as `application/x-www-form-urlencoded`, specified in Spec/Query (parts, first equals sign, plus, percent); the crate serde_urlencoded is modelled from its documentation.")
c("C151", "proved", "C151_checked C151_unchecked C151_complex C151_decimal C151_exact C151_double", "That decimals panic where the written expression is refused is stated (and is why C65 is partial).")
c("C152", "proved", "C152_listing C152_total", "What the entries themselves are: C47, C111, C116.")
c("C153","proved","C153_checked C153_unchecked C153_decimal C153_complex C153_binary C153_counts C153_counts_decimal C153_counts_complex","The tables of culprits are in Spec/Culprits.lean. Number types of the checked and unchecked context: any whose machine arithmetic gives a number or panics (Num.NeverRefuses; proved for all integer widths and for floats).")
c("C154","proved","C154_constants C154_decimal_text C154_float_text","The digits of rust_decimal's own constants (re-exported under these names) are taken from its source documentation.")
c("C155","partial","C155_partial C155_reorders_counterexample C155_calls_counterexample C155_value_counterexample","The documentation of rpn_eval is false: a list with an operand behind a binary operator never passes unchanged, a list with an argument count is refused, and `2 3 + 4 *` gives 14. It holds where all operands come first and the operators descend.")
c("C156","proved","C156_sorted C156_by_key C156_contains","Vec::sort of the standard library is modelled by the stable merge sort of Lean's library (contract: both are stable sorts, and there is only one).")
c("C157","proved","C157_exact C157_aggregates C157_big_factorial C157_big_decimal","The number type is any that meets Num.Unbounded; BigDecimal (crate bigdecimal, from its documentation) is proved to.")
c("C158","proved","C158_sqrt C158_exact C158_square C158_monotone TakenFor.unique","IEEE 754 binary64, no contract: Rust guarantees that f64::sqrt is the nearest double.")
c("C159","proved","C159_fraction C159_half gamma_three_halves","IEEE 754 binary64; C159_half under the contracts Libm.Powers (t^1 is t) and Libm.Exponentials (exp within 2^-51).")
c("C160","partial","C160_floats_partial C160_zero_counterexample C160_cut_counterexample","The sign of zero is 1, and -1 for minus zero, although the description says 0; numbers less than 1e-10 below a whole number are truncated to it (counterexamples). The rest is proved for all finite doubles.")
c("C161","partial","C161_rounding_partial C161_sign C161_odd_counterexample C161_greatest_counterexample","Proved up to 2^53; in general the result is the nearest double. Beyond 2^53 odd integers are changed, and the greatest integer overflows (counterexamples). C161_sign holds for all integers and says that the sign of 0 is 1, not 0.")
c("C162","proved","C162_sine C162_right_angles C162_tangent C162_pole","IEEE 754 binary64; contract Libm.Circular: sin, cos and tan of the platform are within 2^-52 (tan: 2^-51 of the result).")
c("C163","proved","C163_arcs C163_outside C163_arctangent C163_angle C163_known","IEEE 754 binary64; contract Libm.Arcs: asin, acos, atan and atan2 of the platform are within 2^-51.")
c("C164","proved","C164_ln C164_log C164_base C164_refused C164_base_zero","IEEE 754 binary64; contract Libm.Logarithms: ln and log10 of the platform are within 2^-52 of the result.")
c("C165","proved","C165_functions C165_reciprocals","IEEE 754 binary64; contracts Libm.Exponentials and Libm.Hyperbolic: exp, sinh, cosh and tanh of the platform are within 2^-51 of the result.")
c("C166","proved","C166_reciprocals C166_right_angles C166_arcs C166_zero","IEEE 754 binary64; contracts Libm.Circular, Libm.Arcs and (for zero) Libm.ArcsFar: asin and acos of infinity are NaN, atan of infinity is within 2^-51 of pi/2.")
c("C167","proved","C167_first C167_nan C167_order C167_order_counterexample FirstBest.unique","IEEE 754 binary64, all doubles. C37 does not apply to floats, because 0 and -0 and NaN are no linear order.")
c("C168","proved","C168_units C168_back C168_back_counterexample","IEEE 754 binary64. The counterexample: 57.295779508 comes back as 57.29577951308232.")
c("C169","proved","C169_ln_exp C169_ln_exp_counterexample C169_exp_ln C169_atan_tan","IEEE 754 binary64; contracts Libm.Exponentials, Libm.Logarithms, Libm.Circular, Libm.Arcs. For x below -20 the statement fails (counterexample).")
c("C170","proved","C170_nan C170_infinity C170_division","IEEE 754 binary64.")
c("C171","proved","C171_value C171_power C171_sum C171_log","IEEE 754 binary64; contracts Libm.RealPowers, Libm.Logarithms (for log).")
c("C172","proved","C172_squares C172_angles C172_quotient","IEEE 754 binary64; contract Libm.Circular.")
c("C173","proved","C173_areas C173_reciprocals","IEEE 754 binary64; contract Libm.Areas. That the areas come in degrees is C89.")
c("C174","proved","C174_of_arc C174_arc_of C174_lost","IEEE 754 binary64; contracts Libm.Circular and Libm.Arcs. That nearly 90 degrees comes back as 90 is part of the property.")
c("C175","proved","C175_log C175_exp","IEEE 754 binary64; contracts Libm.Logarithms and Libm.Exponentials. `/` is the division sign of the default context; the logarithm is the decimal `log`.")
c("C176","proved","C176_names C176_variable","For tokens. As text, names such as nan are read as numbers over floats (C134).")
c("C177","proved","C177_capacity C177_reads C177_push C177_zero C177_changes C177_kept C177_equal C177_order","The derived hash is not modelled; a &mut is modelled as the function applied to it; derived equality as equality (of element types with a lawful equality).")
