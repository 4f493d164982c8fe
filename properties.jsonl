{"id": "C01", "title": "Expressions evaluate to the value of their syntax tree", "statement": "Evaluator::eval_tokens on the tokens of any well-formed expression (numbers, variables, constants, prefix and postfix operators, bracketed groups, function calls with one or more arguments, binary operators, implicit products) returns exactly what evaluating the expression's syntax tree gives: same value, or the same error kind, where the tree is the one dictated by the registered precedences and associativities.", "quantifier": "every context (any number type, any registered operators, functions, precedences, associativities, any config) and every well-formed expression of any size and nesting depth", "why_tests_cant": "The space of expressions and contexts is infinite and mis-parses only show for particular combinations of nesting, precedence and stack contents.", "anchors": ["prexel/src/evaluator.rs: Evaluator::eval_tokens, rpn_eval, infix_to_rpn", "prexel/src/context.rs: Context"]}
{"id": "C02", "title": "infix_to_rpn emits the postfix form of the tree", "statement": "For every well-formed expression, infix_to_rpn returns the postfix traversal of its syntax tree: operands in source order, each operator after its operands, each call as its arguments, then an ArgCount with the number of written arguments, then the function; no grouping symbol or comma survives.", "quantifier": "every context and every well-formed expression", "why_tests_cant": "Output order depends on the whole operator stack; only a structural induction covers all expressions.", "anchors": ["prexel/src/evaluator.rs: infix_to_rpn, shunting_yard::infix_to_rpn"]}
{"id": "C03", "title": "Precedence and associativity decide every flat chain uniquely", "statement": "For every chain `x0 op1 x1 op2 ... opk xk` of registered binary operators (with implicit_mul off) there is exactly one syntax tree that respects the operators' precedence (higher binds tighter) and, between equal precedences, the associativity of the left one; eval_tokens evaluates that tree.", "quantifier": "every context, every chain length, every choice of operators", "why_tests_cant": "Chains of every length and every mix of precedence levels and associativities are needed.", "anchors": ["prexel/src/evaluator.rs: push_binary_function", "prexel/src/function.rs: Precedence, Associativity"]}
{"id": "C04", "title": "Evaluation of tokens never panics", "statement": "eval_tokens and infix_to_rpn return Ok or Err on every token slice whatsoever, malformed ones included, as long as the registered functions themselves do not panic; also with debug assertions on.", "quantifier": "every token list (any order, any contents) and every context", "why_tests_cant": "Index arithmetic and debug_assert in the loop could only fail on particular malformed inputs.", "anchors": ["prexel/src/evaluator.rs: rpn_eval, check_comma_position, push_grouping_close"]}
{"id": "C05", "title": "Accepted input has balanced, matching brackets", "statement": "If eval_tokens returns Ok, the grouping symbols in the input are balanced and every closing symbol closes the most recent open symbol of the same kind; all other inputs give Err.", "quantifier": "every token list and every context", "why_tests_cant": "Unbalanced inputs form an infinite set, and the check is spread over two functions.", "anchors": ["prexel/src/evaluator.rs: push_grouping_close, infix_to_rpn, rpn_eval"]}
{"id": "C06", "title": "Bracketing a whole expression does not change its value", "statement": "If eval_tokens accepts a token list with value v, then the same list wrapped in one pair of matching brackets is accepted with value v; the only exception are lists that begin with an empty pair of brackets.", "quantifier": "every context, every accepted token list, every bracket kind", "why_tests_cant": "Wrapping shifts every position and puts a new bottom on the operator stack; every accepted list is concerned, not just well-formed ones.", "anchors": ["prexel/src/evaluator.rs: infix_to_rpn, check_comma_position"]}
{"id": "C07", "title": "Unknown text is never silently accepted", "statement": "If the token list contains an Unknown token (text that is neither a number nor a registered name) or an ArgCount token supplied by the caller, eval_tokens returns Err.", "quantifier": "every token list containing such a token, every context", "why_tests_cant": "The bad token can be anywhere in any expression.", "anchors": ["prexel/src/evaluator.rs: infix_to_rpn, rpn_eval", "prexel/src/tokenizer.rs: Tokenizer::tokenize"]}
{"id": "C08", "title": "A function name must be followed by an argument list", "statement": "Without custom_function_call, eval_tokens returns Err whenever some function name is not immediately followed by a parenthesis; so Ok implies that every function name is followed by the parenthesis that opens its arguments.", "quantifier": "every token list, every context with custom_function_call off", "why_tests_cant": "The name may occur anywhere in any surrounding expression.", "anchors": ["prexel/src/evaluator.rs: infix_to_rpn"]}
{"id": "C09", "title": "Names that do not occur do not matter", "statement": "Two contexts with the same configuration that agree on every name occurring in a token list (and on `*` when implicit multiplication is on) give the same result for that list.", "quantifier": "every token list, every pair of contexts", "why_tests_cant": "Quantifies over pairs of contexts and all inputs.", "anchors": ["prexel/src/evaluator.rs: rpn_eval, infix_to_rpn"]}
{"id": "C10", "title": "A variable stands for its value", "statement": "Replacing occurrences of variables and constants by the numbers they are bound to does not change the result of eval_tokens, when implicit multiplication is off.", "quantifier": "every token list, every context with implicit_mul off, every set of occurrences", "why_tests_cant": "Substitution must commute with the whole parse for all inputs.", "anchors": ["prexel/src/evaluator.rs: rpn_eval, push_number, infix_to_rpn"]}
{"id": "C11", "title": "A function receives exactly its written arguments", "statement": "A call f(e1,...,ek) with k written arguments, k = 0 included, calls f with exactly the k argument values in written order, wherever the call stands in the expression.", "quantifier": "every context, every function, every k, every surrounding expression", "why_tests_cant": "Argument counting depends on the surrounding stack; every surrounding expression matters.", "anchors": ["prexel/src/evaluator.rs: push_comma, push_grouping_close, rpn_eval"]}
{"id": "C12", "title": "Every argument position is filled", "statement": "An argument list with an empty position, such as f(1,,2), is rejected.", "quantifier": "every context and every token list with two adjacent commas", "why_tests_cant": "All surrounding expressions and argument counts.", "anchors": ["prexel/src/evaluator.rs: check_comma_position, push_comma"]}
{"id": "C13", "title": "Operators sit between operands", "statement": "eval_tokens rejects token lists that are not written in infix order, such as operands before their operator `(2 3 +)`.", "quantifier": "every context and token list", "why_tests_cant": "The set of misordered inputs is infinite.", "anchors": ["prexel/src/evaluator.rs: infix_to_rpn"]}
{"id": "C14", "title": "Blank input is reported as empty", "statement": "eval of a string that is empty or consists only of whitespace returns an error of kind Empty, and no other string is reported so by the tokenizer.", "quantifier": "every string, every context, every splitter", "why_tests_cant": "Every mix of Unicode white space.", "anchors": ["prexel/src/tokenizer.rs: Tokenizer::tokenize"]}
{"id": "C15", "title": "Tokenizing never panics", "statement": "Tokenizer::tokenize returns Ok or Err on every string.", "quantifier": "every string, every context", "why_tests_cant": "Panics hide at particular characters and neighbourhoods.", "anchors": ["prexel/src/tokenizer.rs: is_unary, tokenize"]}
{"id": "C16", "title": "White space only separates", "statement": "Inserting white space at the ends of an expression or at a token boundary, or replacing one run of white space by another, does not change the result of tokenize or eval.", "quantifier": "every pair of strings, every run of white space, every context", "why_tests_cant": "All strings and all insertion points.", "anchors": ["prexel/src/utils/splitter.rs: DefaultSplitter::split_into_tokens, SkipWhitespace", "prexel/src/tokenizer.rs: tokenize"]}
{"id": "C17", "title": "The splitter loses nothing but white space", "statement": "The concatenation of the strings returned by the default splitter is the input with its white space removed.", "quantifier": "every string", "why_tests_cant": "Character loss shows only for particular character sequences.", "anchors": ["prexel/src/utils/splitter.rs: split_into_tokens, SplitNumeric"]}
{"id": "C18", "title": "Splitting is the inverse of joining", "statement": "If every string in a list is a single splitter token, splitting the strings joined by spaces gives back the list; in particular splitting is idempotent.", "quantifier": "every list of strings that are single tokens", "why_tests_cant": "All token lists of all lengths.", "anchors": ["prexel/src/utils/splitter.rs: DefaultSplitter, rules"]}
{"id": "C19", "title": "Splitter tokens have a regular shape", "statement": "Every string returned by the default splitter is non-empty and is a number literal (digits with at most one point), an identifier, a run of operator characters, or a single other character that is not white space.", "quantifier": "every string", "why_tests_cant": "All strings.", "anchors": ["prexel/src/utils/splitter.rs: SplitNumeric, SplitIdentifier, SplitOperator"]}
{"id": "C20", "title": "Name resolution order is fixed", "statement": "A word is a number if it parses, otherwise a variable, otherwise a constant, otherwise a function, otherwise an operator, independently of the order of registration and of its neighbours.", "quantifier": "every string, every context", "why_tests_cant": "All words, contexts and neighbourhoods.", "anchors": ["prexel/src/tokenizer.rs: tokenize"]}
{"id": "C21", "title": "Sign symbols are unary exactly where an operand is expected", "statement": "A symbol registered both as a prefix and as a binary operator (such as - and +) is tokenized as unary at the start of the expression and after an open bracket, a comma or a binary operator, and as binary after a number, variable, constant, closing bracket or postfix operator.", "quantifier": "every string and every context whose operator names can be told apart by their characters: they begin with an ASCII character, one-character names are punctuation and not closing brackets, binary operators do not begin with a symbol that is only unary, postfix operators do and are not binary", "why_tests_cant": "All neighbourhoods and registered names.", "anchors": ["prexel/src/tokenizer.rs: is_unary"]}
{"id": "C22", "title": "Tokenizing keeps every word and its order", "statement": "Without complex numbers, tokenize returns one token per word of the splitter, in order, and each token carries the word it came from (a number token is the parse of its word).", "quantifier": "every string and every context", "why_tests_cant": "All strings.", "anchors": ["prexel/src/tokenizer.rs: tokenize"]}
{"id": "C23", "title": "Text round trip", "statement": "Writing any well-formed expression as text, with its words separated by white space, and evaluating the text gives the value of the expression's syntax tree.", "quantifier": "every context whose names are single words that can be told apart by their characters (as in C21), every well-formed expression without directly repeated purely unary operators such as `3 ! !`", "why_tests_cant": "Composition of splitter, tokenizer, parser and evaluator over all expressions.", "anchors": ["prexel/src/evaluator.rs: Evaluator::eval", "prexel/src/tokenizer.rs: tokenize", "prexel/src/utils/splitter.rs: split_into_tokens"]}
{"id": "C24", "title": "Variables behave as a case-sensitive map", "statement": "After any history of context operations, get_variable(x) returns the value of the last successful set_variable(x, v), and nothing if there was none; set_variable returns the previously bound value; other names are unaffected.", "quantifier": "every history of context operations", "why_tests_cant": "Histories of any length and interleaving.", "anchors": ["prexel/src/context.rs: DefaultContext::set_variable, get_variable"]}
{"id": "C25", "title": "A name is never both a variable and a constant", "statement": "After any history of context operations no variable has the same name, ignoring case, as a constant.", "quantifier": "every history of context operations", "why_tests_cant": "Histories of any length.", "anchors": ["prexel/src/context.rs: add_constant, set_variable"]}
{"id": "C26", "title": "Registering never replaces a function", "statement": "After any history, a function, unary or binary operator that can be looked up stays bound to the same function under the same name; a successful registration makes the function available under its name and all its aliases and changes no other name.", "quantifier": "every history of context operations", "why_tests_cant": "Histories of any length with arbitrary names and aliases.", "anchors": ["prexel/src/context.rs: add_function_as, add_unary_function_as, add_binary_function_as"]}
{"id": "C27", "title": "A refused context operation changes nothing", "statement": "A context operation that does not succeed leaves the context as it was, and refusal is an Err, never a panic.", "quantifier": "every context state and operation", "why_tests_cant": "Every state, name and alias list.", "anchors": ["prexel/src/context.rs: add_function_as, add_unary_function_as, add_binary_function_as, add_constant, set_variable"]}
{"id": "C28", "title": "Functions, operators and constants ignore case", "statement": "Looking up a constant, function or operator by any case variant of its name gives the same result.", "quantifier": "every history and every pair of names equal up to case", "why_tests_cant": "All names and histories; the defect lies in the agreement of Hash and Eq.", "anchors": ["prexel/src/utils/ignore_case_string.rs: IgnoreCaseString", "prexel/src/utils/ignore_case_str.rs: eq_ignore_case, partial_cmp_by", "prexel/src/context.rs: DefaultContext"]}
{"id": "C29", "title": "Invalid names are refused", "statement": "No context operation accepts a name that is blank or contains white space or a control character.", "quantifier": "every history, every name, both build profiles", "why_tests_cant": "All names and both build profiles.", "anchors": ["prexel/src/context.rs: validate::check_token_name"]}
{"id": "C30", "title": "Only configured grouping symbols group", "statement": "A bracket kind that was not added with Config::with_grouping is not treated as a grouping symbol.", "quantifier": "every configuration and every bracket", "why_tests_cant": "All configurations.", "anchors": ["prexel/src/context.rs: Config::get_group_symbol, with_grouping, is_group_open, is_group_close"]}
{"id": "C31", "title": "The built-in contexts can be constructed", "statement": "DefaultContext::with_config_checked and with_config_unchecked never panic: the built-in names and aliases are valid and pairwise different ignoring case, and afterwards every built-in name and alias resolves to its function.", "quantifier": "every configuration, both build profiles, every number type that represents PI and E", "why_tests_cant": "Each unwrap must be shown to succeed for any hash iteration and profile.", "anchors": ["prexel/src/context.rs: with_config_checked, with_config_unchecked", "prexel/src/ops/mod.rs: aliases", "prexel/src/ops/checked.rs"]}
{"id": "C32", "title": "School precedence in the built-in context", "statement": "In the built-in context, `^` binds tighter than `*`, `/`, `mod`, which bind tighter than `+` and `-`; `^` groups to the right, the others to the left; any arithmetic tree written with the brackets these rules require (and with brackets around and behind a sign in front of anything but a number, see 'A sign in front of a bracket') evaluates to its value.", "quantifier": "every arithmetic syntax tree, every number type", "why_tests_cant": "All trees.", "anchors": ["prexel/src/ops/checked.rs: precedence, associativity", "prexel/src/evaluator.rs: push_binary_function"]}
{"id": "C33", "title": "Checked integer arithmetic is exact or an error", "statement": "For integer types, the checked +, -, *, /, mod and unary minus return the exact mathematical result, or Err(Overflow) exactly when it does not fit, or Err(DivisionByZero) exactly when the divisor is zero; they never wrap and never panic. The one exception is MIN mod -1, which is Err(Overflow) although the remainder 0 fits.", "quantifier": "every bit width and every pair of operands", "why_tests_cant": "2^128 operand pairs for i64 alone.", "anchors": ["prexel/src/ops/checked.rs: AddOperator, SubOperator, MulOperator, DivOperator, ModOperator, UnaryMinus", "prexel/src/num.rs: CheckedNum"]}
{"id": "C34", "title": "Checked evaluation never wraps", "statement": "Evaluating any expression over integers built from + - * / mod, signs and brackets in the checked context gives the exact value of the expression over the unbounded integers, or an error.", "quantifier": "every such expression and every bit width", "why_tests_cant": "Arbitrarily deep expressions and intermediate overflows.", "anchors": ["prexel/src/evaluator.rs: eval_tokens", "prexel/src/ops/checked.rs"]}
{"id": "C35", "title": "Factorial is exact or an error", "statement": "n! returns n factorial when it fits the number type, Err(NegativeValue) for negative n, and an error when it does not fit; it never wraps or panics.", "quantifier": "every bit width and every operand", "why_tests_cant": "All operands and widths.", "anchors": ["prexel/src/ops/mod.rs: Factorial", "prexel/src/ops/checked.rs"]}
{"id": "C36", "title": "sum and product are exact or an error", "statement": "sum(args) and product(args) over a checked integer type return the exact sum or product or Err(Overflow), Err(InvalidArgumentCount) without arguments, and do not depend on the order of the arguments.", "quantifier": "every argument list", "why_tests_cant": "Lists of any length and all orders.", "anchors": ["prexel/src/ops/checked.rs: SumFunction, ProdFunction"]}
{"id": "C37", "title": "max and min are the extrema", "statement": "max(args) and min(args) return an argument that is an upper (lower) bound of all arguments, do not depend on the order of the arguments, and return Err(InvalidArgumentCount) for fewer than two arguments.", "quantifier": "every argument list over a linear order", "why_tests_cant": "Lists of any length and order.", "anchors": ["prexel/src/ops/mod.rs: MaxFunction, MinFunction"]}
{"id": "C38", "title": "avg never panics", "statement": "avg(args) returns the sum of the arguments divided by their number or an error; it never panics.", "quantifier": "every argument list and every bit width", "why_tests_cant": "Needs argument lists longer than the type's maximum.", "anchors": ["prexel/src/ops/checked.rs: AvgFunction"]}
{"id": "C39", "title": "Binary numbers print and parse back", "statement": "Parsing the Binary literal b<digits> gives the number with those binary digits, and printing a Binary and parsing it back with prefix b gives the same number.", "quantifier": "every i128 value, every digit string", "why_tests_cant": "2^128 values.", "anchors": ["prexel/src/binary/mod.rs: FromStr for Binary, Display for Binary"]}
{"id": "C40", "title": "Binary operators are the bitwise operators", "statement": "On Binary, &, |, ^, ~ act bitwise, comparisons return one for true and zero for false, << and >> shift for amounts 0..127, and none of them panics.", "quantifier": "every pair of i128 values", "why_tests_cant": "2^256 operand pairs.", "anchors": ["prexel/src/binary/mod.rs: operators"]}
{"id": "C41", "title": "REPL history keeps the last entries", "statement": "After any sequence of pushes a history of capacity cap > 0 holds the last min(n, cap) pushed entries in order; capacity is never exceeded.", "quantifier": "every sequence of pushes, every capacity", "why_tests_cant": "Sequences of any length.", "anchors": ["eval/src/collections/carray.rs: CircularArray::push"]}
{"id": "C42", "title": "REPL line editing never goes out of bounds", "statement": "For any sequence of key events the history cursor stays within the history and no key event panics.", "quantifier": "every sequence of key events", "why_tests_cant": "Unbounded event sequences.", "anchors": ["eval/src/repl/repl.rs: Repl::read_line"]}
{"id": "C43", "title": "$result is the last successful result", "statement": "In the REPL, $result evaluates to the value of the last expression that was evaluated successfully (zero before that), whatever assignments, errors and commands happen in between.", "quantifier": "every sequence of inputs", "why_tests_cant": "Unbounded histories.", "anchors": ["eval/src/repl/mod.rs: eval_loop"]}
{"id": "C44", "title": "Every valid expression can be entered in the REPL", "statement": "An expression that the evaluator accepts is evaluated when it is typed in the REPL.", "quantifier": "every expression, every context", "why_tests_cant": "All expressions, including those whose operators contain =.", "anchors": ["eval/src/repl/mod.rs: eval_loop, eval_assignment", "prexel/src/binary/mod.rs: comparison operators"]}
{"id": "C45", "title": "The server answers with exactly one of result and error", "statement": "Every evaluation response carries either a result or an error, never both, never neither, and carries a result exactly when the library evaluates the expression successfully.", "quantifier": "every request", "why_tests_cant": "All requests.", "anchors": ["prexel-server/src/models/mod.rs: EvaluatedExpression", "prexel-server/src/services/evaluator.rs: eval_expression", "prexel-server/src/endpoints/mod.rs: eval"]}
{"id": "C46", "title": "Request variables are order independent", "statement": "The answer to a request does not depend on the order in which its variables are stored.", "quantifier": "every request and every permutation of its variables", "why_tests_cant": "HashMap iteration order varies per process.", "anchors": ["prexel-server/src/services/evaluator.rs: eval functions"]}
{"id": "C47", "title": "The server lists what it can call", "statement": "Each function, operator and constant listed for a number type can be used in an expression of that number type, and vice versa.", "quantifier": "every number type, every listed name", "why_tests_cant": "Agreement of two independently built contexts.", "anchors": ["prexel-server/src/services/info.rs: functions, operators, constants", "prexel-server/src/services/evaluator.rs"]}
{"id": "C48", "title": "Decimal integer powers are exact or an error", "statement": "checked_powi(x, n) for n >= 0 returns x^n if every intermediate product fits, and an overflow error only if x^n itself does not fit.", "quantifier": "every decimal x and every exponent n", "why_tests_cant": "All bases and exponents.", "anchors": ["prexel/src/decimal/decimal_ext.rs: checked_powi"]}
{"id": "C49", "title": "Decimal factorial is the factorial", "statement": "checked_factorial(n) is n! for every non-negative integral n for which it fits.", "quantifier": "every n", "why_tests_cant": "All n.", "anchors": ["prexel/src/decimal/decimal_ext.rs: checked_factorial"]}
{"id": "C50", "title": "Reciprocal trigonometric functions are reciprocals", "statement": "csc, sec and cot of a decimal are 1/sin, 1/cos and 1/tan.", "quantifier": "every decimal argument", "why_tests_cant": "All arguments.", "anchors": ["prexel/src/decimal/decimal_ext.rs: csc, sec, cot", "prexel/src/decimal/mod.rs"]}
{"id": "C51", "title": "Numbers defined with the macros behave as their field", "statement": "Over a number type defined with impl_checked_num_traits_with_field (or the unchecked macro) every text has the value it has over the type of the field; in particular - subtracts.", "quantifier": "every text, every list of variables and constants, every field type", "why_tests_cant": "All operand pairs of user types.", "anchors": ["prexel/src/numeric_traits/mod.rs: impl_unchecked_num_traits_with_field"]}
{"id": "C52", "title": "log of a complex number to a real base", "statement": "log(z, b) of a complex number z to a real base b returns log b of z, and a base with non-zero imaginary part is refused.", "quantifier": "every z and b", "why_tests_cant": "All argument pairs.", "anchors": ["prexel/src/complex/mod.rs: LogFunction"]}
{"id": "C53", "title": "Conversion to postfix neither loses nor invents tokens", "statement": "Whenever infix_to_rpn succeeds, on any token list, the numbers, variables and constants of the output are those of the input in the same order, and (without implicit products) the operators and functions of the output are those of the input, each as often.", "quantifier": "every token list, malformed ones included, every context", "why_tests_cant": "A token can get lost only for particular stack contents.", "anchors": ["prexel/src/evaluator.rs: infix_to_rpn"]}
{"id": "C54", "title": "Ignore-case comparison is a total order consistent with equality and hash", "statement": "The ordering of IgnoreCaseString is reflexive, antisymmetric up to case, transitive and total; it calls two strings equal exactly when == does; equal strings have equal hashes.", "quantifier": "all strings", "why_tests_cant": "All triples of strings.", "anchors": ["prexel/src/utils/ignore_case_string.rs: Ord, PartialEq, Hash", "prexel/src/utils/ignore_case_str.rs: partial_cmp_by, eq_ignore_case"]}
{"id": "C55", "title": "Constants keep the last value", "statement": "After any history of context operations, get_constant(x) returns the value of the last successful add_constant of x (ignoring case), and nothing if there was none.", "quantifier": "every history of context operations", "why_tests_cant": "Histories of any length.", "anchors": ["prexel/src/context.rs: add_constant, get_constant"]}
{"id": "C56", "title": "A sign in front of a bracket applies to the bracket", "statement": "In the built-in context, -(e) followed by + or - and more is the negated value of e with the rest added or subtracted, as at school.", "quantifier": "every expression e and every continuation", "why_tests_cant": "All expressions and continuations.", "anchors": ["prexel/src/evaluator.rs: push_unary_function, push_binary_function, push_grouping_close"]}
{"id": "C57", "title": "The documentation feature does not change behaviour", "statement": "Building with the feature `docs` changes only documentation: the same names are registered in the built-in contexts, with the same meaning.", "quantifier": "every name, every number type, every configuration", "why_tests_cant": "Needs two builds and all names.", "anchors": ["prexel/src/ops/mod.rs: forward_func_impl"]}
{"id": "C58", "title": "abs is exact or an error", "statement": "abs(x) over a checked integer type is the exact absolute value, Err(Overflow) exactly for the smallest number, and Err(InvalidArgumentCount) for any other number of arguments.", "quantifier": "every bit width, every argument list", "why_tests_cant": "All operands and widths.", "anchors": ["prexel/src/ops/checked.rs: AbsFunction"]}
{"id": "C59", "title": "Unchecked integer arithmetic is machine arithmetic", "statement": "In the unchecked context over integers, + - * and unary minus are exact if the result fits, and otherwise panic in debug builds and wrap around in release builds; / and mod return Err(DivisionByZero) exactly for divisor 0 and panic exactly for MIN and -1.", "quantifier": "every bit width, every pair of operands, both build profiles", "why_tests_cant": "2^128 operand pairs for i64 alone.", "anchors": ["prexel/src/ops/unchecked.rs: AddOperator, SubOperator, MulOperator, DivOperator, ModOperator, UnaryMinus"]}
{"id": "C60", "title": "Binary operators group as in C and Rust", "statement": "In the binary context, shifts bind tighter than comparisons, these tighter than equality tests, then &, then ^, then |, and operators of one kind are evaluated from left to right, as in C and Rust, from whose table the precedences are taken.", "quantifier": "any two operators under any of their names, all operands", "why_tests_cant": "All pairs of names and all operands.", "anchors": ["prexel/src/binary/mod.rs: precedence of the functions in math", "prexel/src/evaluator.rs: push_binary_function"]}
{"id": "C61", "title": "The prompt evaluates what is typed", "statement": "In the REPL, Enter hands over exactly the text typed so far, each Backspace removes the last character, and what is printed and the variables after any keys are those of entering the recorded lines one after the other.", "quantifier": "every sequence of keys", "why_tests_cant": "Key sequences of any length.", "anchors": ["eval/src/repl/repl.rs: run", "eval/src/repl/mod.rs: eval_loop"]}
{"id": "C62", "title": "Up and Down walk through the history", "statement": "After entering a line, pressing Up k times shows the k-th latest entry, Up at the oldest entry changes nothing, and as many Downs lead back to an empty line.", "quantifier": "every history, every k", "why_tests_cant": "Histories of any length.", "anchors": ["eval/src/repl/repl.rs: run"]}
{"id": "C63", "title": "Variables at the prompt", "statement": "Entering name = number gives the variable that value, prints nothing and changes nothing else; the variable keeps the value until a line assigns to it; no line changes constants, functions, operators or the configuration.", "quantifier": "every sequence of lines", "why_tests_cant": "Line sequences of any length.", "anchors": ["eval/src/repl/mod.rs: eval_loop", "prexel/src/context.rs: set_variable"]}
{"id": "C64", "title": "Decimal arithmetic is exact", "statement": "In the decimal context, an expression of sums, differences, products, quotients and signs in which every intermediate result can be represented has exactly its value, and is Err(Overflow) if a divisor is zero.", "quantifier": "every arithmetic tree, every decimals", "why_tests_cant": "Trees of any size over 2^96 * 29 numbers.", "anchors": ["prexel/src/decimal/mod.rs: AddOperator, SubOperator, MulOperator, DivOperator, UnaryMinus", "prexel/src/evaluator.rs: eval_tokens"]}
{"id": "C65", "title": "Evaluating decimals never panics", "statement": "Whatever expression is evaluated in the decimal context, the result is a number or an error, never a panic.", "quantifier": "every token sequence, every decimals, every history of the context", "why_tests_cant": "Token sequences of any length over all decimals.", "anchors": ["prexel/src/decimal/mod.rs: with_config_decimal", "prexel/src/decimal/decimal_ext.rs: DecimalExt"]}
{"id": "C66", "title": "atan(y, x) is the angle of the point", "statement": "In the decimal context, atan(y, x) is the angle of the point (x, y): the arctangent of y / x to the right of the y axis, that plus or minus PI to the left, and PI/2 or -PI/2 on it.", "quantifier": "all decimals y and x", "why_tests_cant": "2^192 pairs.", "anchors": ["prexel/src/decimal/decimal_ext.rs: atan2", "prexel/src/decimal/mod.rs: ATanFunction"]}
{"id": "C67", "title": "Decimal functions refuse arguments outside their domain", "statement": "In the decimal context, sqrt of a negative number, ln and log of a number that is not positive, log to a base that is not positive, acosh below 1, atanh beyond -1 and 1 and the factorial of a negative number are errors.", "quantifier": "all decimals outside the domain", "why_tests_cant": "Most of the 2^96 * 29 * 2 decimals.", "anchors": ["prexel/src/decimal/decimal_ext.rs: checked_sqrt, checked_ln, checked_log, acosh, atanh, checked_factorial"]}
{"id": "C68", "title": "Decimal inverse functions invert", "statement": "In the decimal context acsc, asec and acot are the inverses of csc, sec and cot: acsc(1) is PI/2, acsc(-1) is -PI/2, asec(1) is 0, asec(-1) is PI, acot(0) is PI/2, and acsc and asec refuse numbers between -1 and 1.", "quantifier": "all decimals", "why_tests_cant": "All decimals.", "anchors": ["prexel/src/decimal/mod.rs: ACscFunction, ASecFunction, ACotFunction, impl_arc_trig_rec, impl_checked_arc_trig_rec"]}
{"id": "C69", "title": "Powers of zero and one", "statement": "In the decimal context x ^ 0 is 1, x ^ 1 is x, 1 ^ y is 1, and 0 ^ y is 0 for every positive y.", "quantifier": "all decimals x and y", "why_tests_cant": "All decimals.", "anchors": ["prexel/src/decimal/decimal_ext.rs: checked_powd, checked_powi"]}
{"id": "C70", "title": "Complex arithmetic is exact", "statement": "In the complex context with components that compute exactly, + - * / and the sign are those of the complex numbers; division is refused exactly when the divisor is 0, and a quotient times its divisor is the dividend; z mod w is refused exactly when w is 0, and is otherwise z - w * g where g is z / w with both parts truncated to whole numbers.", "quantifier": "all pairs of complex numbers", "why_tests_cant": "All pairs of pairs of components.", "anchors": ["prexel/src/complex/mod.rs: AddOperator, SubOperator, MulOperator, DivOperator, ModOperator, UnaryMinus"]}
{"id": "C71", "title": "Imaginary literals in text", "statement": "With complex numbers enabled, a number written directly before or after white space from i is an imaginary literal (3i, 3 i), i alone is the imaginary unit, and an arithmetic expression over such literals has its value.", "quantifier": "every arithmetic tree over complex literals, every spacing", "why_tests_cant": "Texts of any length.", "anchors": ["prexel/src/tokenizer.rs: tokenize (next_complex)", "prexel/src/complex/mod.rs: with_config_complex"]}
{"id": "C72", "title": "Reciprocal functions of complex numbers", "statement": "In the complex context csc, sec, cot, csch, sech, coth are the reciprocals of sin, cos, tan, sinh, cosh, tanh wherever these are not 0, and acsc, asec, acot, acsch, asech, acoth are the inverses of csc, sec, cot, csch, sech, coth.", "quantifier": "all complex numbers", "why_tests_cant": "All pairs of components.", "anchors": ["prexel/src/complex/mod.rs: impl_forward_inv, CscFunction, ACscFunction"]}
{"id": "C73", "title": "Bounds of the complex random number", "statement": "In the complex context random(m) has both parts in [0, m) and random(a, b) has both parts in [a, b); a bound that is not real, a negative m and b below a are refused.", "quantifier": "every argument, every generator state", "why_tests_cant": "All draws of the generator.", "anchors": ["prexel/src/complex/mod.rs: RandFunction"]}
{"id": "C74", "title": "Evaluating complex expressions never panics", "statement": "Whatever expression is evaluated in the complex context, and whatever variables and constants were added, the result is a number or an error, never a panic.", "quantifier": "every token sequence, every history of additions", "why_tests_cant": "Token sequences of any length.", "anchors": ["prexel/src/complex/mod.rs: with_config_complex", "prexel/src/evaluator.rs: eval_tokens"]}
{"id": "C75", "title": "A wider integer type gives the same result", "statement": "A text that evaluates to an integer over one integer type (say i32) evaluates to the same integer over a wider one (say i64 or i128), with the same variables and constants; checked contexts in every build (release builds: without factorials), unchecked contexts in debug builds.", "quantifier": "every text, every pair of widths, every list of variables and constants, every splitter", "why_tests_cant": "All texts and all widths; tests compare a few expressions.", "anchors": ["prexel/src/context.rs: DefaultContext::with_config_checked, with_config_unchecked", "prexel/src/num.rs: impl_checked_ops", "prexel/src/evaluator.rs: Evaluator::eval"]}
{"id": "C76", "title": "Checked and unchecked contexts agree", "statement": "A text that names no function only the checked context has (abs, floor, ceil, trunc, round, signum) and that the checked context evaluates has the same value in an unchecked context; for f64 both contexts give the same outcome, errors included.", "quantifier": "every text, number type with the contract, list of variables and constants, build", "why_tests_cant": "All texts over two contexts.", "anchors": ["prexel/src/context.rs: with_config_checked, with_config_unchecked", "prexel/src/ops/checked.rs", "prexel/src/ops/unchecked.rs"]}
{"id": "C77", "title": "Debug and release builds agree", "statement": "Over integers, whatever a debug build evaluates without panicking (a value or an error) a release build evaluates to the same, with valid names.", "quantifier": "every text, width, list of variables and constants", "why_tests_cant": "Tests run in one build at a time and over a few texts.", "anchors": ["prexel/src/context.rs: check_token_name", "prexel/src/num.rs: impl_checked_ops", "prexel/src/evaluator.rs: Evaluator::eval"]}
{"id": "C78", "title": "The command line program lists what it can call", "statement": "Each function, operator and constant the command line program lists for a number type can be written in an expression of that number type and means what it is listed as, and every function, operator and constant an expression can use is listed (up to case).", "quantifier": "every number type, every listed name, every text", "why_tests_cant": "Agreement of two independently built contexts, over all texts.", "anchors": ["eval/src/list.rs: list, list_with_context", "eval/src/eval_expr.rs: EvalExpr::eval"]}
{"id": "C79", "title": "The command line program and the server give the same answers", "statement": "For every expression and number type, eval on the command line prints what the server answers to a request with that expression, that type and no variables.", "quantifier": "every expression, every number type", "why_tests_cant": "All texts; the two programs build their contexts independently, with different configurations.", "anchors": ["eval/src/eval_expr.rs: EvalExpr::eval, CONFIG", "prexel-server/src/services/evaluator.rs: eval_expression, CONFIG"]}
{"id": "C80", "title": "Evaluating machine numbers never panics", "statement": "Whatever expression is evaluated over integers, floats or binary numbers with the functions of a built-in context, and whatever variables and constants were added, the result is a number or an error, never a panic.", "quantifier": "every token sequence, every list of variables and constants, every integer width, debug and release builds", "why_tests_cant": "Token sequences of any length.", "anchors": ["prexel/src/context.rs: with_config_checked, with_config_unchecked", "prexel/src/binary/mod.rs: with_config_binary", "prexel/src/ops/checked.rs", "prexel/src/ops/unchecked.rs", "prexel/src/evaluator.rs: eval_tokens"]}
{"id": "C81", "title": "The server never panics", "statement": "Whatever request the server gets, it answers with a result or an error; the handler never panics.", "quantifier": "every request: expression, number type, variables, build", "why_tests_cant": "All requests.", "anchors": ["prexel-server/src/services/evaluator.rs: eval_expression", "prexel-server/src/endpoints/mod.rs: eval_expression"]}
{"id": "C82", "title": "Functions computed with floating point numbers", "statement": "In the checked and in the unchecked context, each function computed with floating point numbers (square root, logarithms, exponential, angles in degrees, trigonometric, inverse and hyperbolic functions, and the power) gives the value of the function its name stands for, converted to the number type or Overflow if that is impossible; a result (or, for plain functions, an argument) which is not finite is the error NAN; arguments and results of some functions closer to a whole number than 1e-10 are that whole number.", "quantifier": "every number type, argument, context history, build", "why_tests_cant": "All arguments of every number type; the rule for snapping and for NaN has to be the same in thirty functions.", "anchors": ["prexel/src/ops/mod.rs: forward_func_impl, impl_trig, impl_arc_trig, approx", "prexel/src/ops/checked.rs"]}
{"id": "C83", "title": "Rounding functions round", "statement": "Over floats, round(x) is a nearest whole number, floor(x) is the largest whole number at most x and ceil(x) the smallest whole number at least x.", "quantifier": "every finite floating point number, context history", "why_tests_cant": "All floating point numbers; the failing ones are closer than 1e-10 to a whole number.", "anchors": ["prexel/src/ops/mod.rs: approx, forward_func_impl", "prexel/src/ops/checked.rs: FloorFunction, CeilFunction, RoundFunction"]}
{"id": "C84", "title": "Reciprocal functions", "statement": "Over floats, csc, sec, cot, csch, sech and coth of x are the reciprocals of what sin, cos, tan, sinh, cosh and tanh of x evaluate to; csc, sec and cot are refused with NAN exactly where the reciprocal is not finite.", "quantifier": "every floating point number, context history", "why_tests_cant": "All floating point numbers.", "anchors": ["prexel/src/ops/mod.rs: impl_trig, forward_func_impl"]}
{"id": "C85", "title": "NaN and infinity are errors", "statement": "Over floats, no built-in function evaluates to NaN or infinity: such results are the error NAN.", "quantifier": "every function, list of arguments, context history", "why_tests_cant": "All arguments of all functions.", "anchors": ["prexel/src/ops/mod.rs: try_to_float, forward_func_impl, impl_arc_trig", "prexel/src/ops/unchecked.rs"]}
{"id": "C86", "title": "Calls with a wrong number of arguments are refused", "statement": "Each built-in function has a fixed set of argument counts (one; one or two for log and atan; at most two for random; one or more for sum, product and avg; two or more for max and min); a call with another number of arguments is refused with InvalidArgumentCount, in all four contexts with functions, whatever the arguments are.", "quantifier": "every function name, argument list of any length, context history", "why_tests_cant": "Argument lists of any length for about 150 functions.", "anchors": ["prexel/src/ops/mod.rs", "prexel/src/ops/checked.rs", "prexel/src/ops/unchecked.rs", "prexel/src/decimal/decimal_ext.rs", "prexel/src/complex/mod.rs"]}
{"id": "C87", "title": "Random numbers are in their range", "statement": "Over floats, random() is in [0, 1); random(m) is in [0, m] and refused for negative m; random(a, b) is in [a, b] (if b - a does not overflow) and refused for b < a.", "quantifier": "every number drawn, all finite arguments, context history", "why_tests_cant": "All draws of the generator.", "anchors": ["prexel/src/ops/mod.rs: RandFunction"]}
{"id": "C88", "title": "Powers of integers are exact", "statement": "Over integers, x ^ y with y >= 0 is the exact power, or Overflow if it does not fit.", "quantifier": "every integer width, base, exponent, context history", "why_tests_cant": "All pairs of integers; the failing ones are beyond 2^53.", "anchors": ["prexel/src/ops/mod.rs: PowOperator", "prexel/src/ops/checked.rs"]}
{"id": "C89", "title": "Inverse functions invert", "statement": "Over floats, sinh(asinh(x)), cosh(acosh(x)) and tanh(atanh(x)) are x up to rounding, as asinh, acosh and atanh are the inverse functions.", "quantifier": "every floating point number, context history", "why_tests_cant": "All floating point numbers.", "anchors": ["prexel/src/ops/mod.rs: impl_arc_trig"]}
{"id": "C90", "title": "Square roots of decimals", "statement": "In the decimal context, sqrt(x) of a number that is not negative is never an error and differs from the square root by at most 10^-26 times the larger of 1 and the root; sqrt(0) is 0; sqrt of a negative number is Overflow. The evaluation ends. The square root of a square of a whole number is that number.", "quantifier": "every decimal, context history, and every rounding that rust_decimal's contract allows", "why_tests_cant": "All 2^96 mantissas and 29 scales; the error bound involves a real number.", "anchors": ["prexel/src/decimal/decimal_ext.rs: checked_sqrt", "prexel/src/decimal/mod.rs"]}
{"id": "C91", "title": "Cube roots of decimals", "statement": "In the decimal context, cbrt(x) is never an error and agrees with the cube root of x to 25 digits.", "quantifier": "every decimal, context history, and every rounding that rust_decimal's contract allows", "why_tests_cant": "All decimals; the iteration fails only for arguments beyond 10^15 and for zero.", "anchors": ["prexel/src/decimal/decimal_ext.rs: checked_cbrt", "prexel/src/decimal/mod.rs"]}
{"id": "C92", "title": "Natural logarithms of decimals", "statement": "In the decimal context, ln(x) of a positive number is never an error and differs from the natural logarithm by at most 2 * 10^-16; ln(1) is 0; ln of a number that is not positive is Overflow.", "quantifier": "every decimal, context history, and every rounding that rust_decimal's contract allows", "why_tests_cant": "All positive decimals; the failing ones are below 10^-4, and the error bound involves a real number.", "anchors": ["prexel/src/decimal/decimal_ext.rs: checked_ln", "prexel/src/decimal/mod.rs"]}
{"id": "C93", "title": "Logarithms of decimals to a base", "statement": "In the decimal context, log(x, b) is ln(x) / ln(b), log(x) is the logarithm to base 10 and differs from it by at most 10^-16, and log(10^n) is n exactly.", "quantifier": "every decimal and base, context history, and every rounding that rust_decimal's contract allows", "why_tests_cant": "All decimals; the first power of ten that fails is 10^4.", "anchors": ["prexel/src/decimal/decimal_ext.rs: checked_log, checked_ln", "prexel/src/decimal/mod.rs"]}
{"id": "C94", "title": "Sine, cosine and tangent of decimals", "statement": "In the decimal context, sin, cos and tan of a number of degrees differ from the real function by at most 4 * 10^-16 (tan: 10^-15 divided by the square of the cosine); sin and cos are exact at multiples of 90 degrees, tan at multiples of 45 degrees, and tan of an odd multiple of 90 degrees is refused.", "quantifier": "every decimal, context history, and every rounding that rust_decimal's contract allows", "why_tests_cant": "All decimals; the error bound involves real numbers.", "anchors": ["prexel/src/decimal/decimal_ext.rs: checked_sin, checked_cos, checked_tan, to_radians", "prexel/src/decimal/mod.rs"]}
{"id": "C95", "title": "Inverse hyperbolic functions of decimals", "statement": "In the decimal context, asinh, acosh and atanh differ from the real inverse hyperbolic functions by at most 10^-13; acosh below 1 and atanh beyond 1 and -1 are refused.", "quantifier": "every decimal, context history, and every rounding that rust_decimal's contract allows", "why_tests_cant": "All decimals; the error bound involves real numbers.", "anchors": ["prexel/src/decimal/decimal_ext.rs: checked_asinh, checked_acosh, checked_atanh", "prexel/src/decimal/mod.rs"]}
{"id": "C96", "title": "Exponentials of decimals", "statement": "In the decimal context, exp(x) agrees with the exponential of x to 16 digits; exp(0) is 1 and exp(1) is the constant E.", "quantifier": "every decimal, context history, and every rounding that rust_decimal's contract allows", "why_tests_cant": "All decimals; the failing ones are far below zero.", "anchors": ["prexel/src/decimal/decimal_ext.rs: checked_exp", "prexel/src/decimal/mod.rs"]}
{"id": "C97", "title": "Hyperbolic functions of decimals", "statement": "In the decimal context, sinh, cosh and tanh of x agree with the hyperbolic functions of x to 15 digits.", "quantifier": "every decimal, context history, and every rounding that rust_decimal's contract allows", "why_tests_cant": "All decimals; the error bound involves real numbers.", "anchors": ["prexel/src/decimal/decimal_ext.rs: sinh, cosh, tanh", "prexel/src/decimal/mod.rs"]}
{"id": "C98", "title": "Powers of decimals with fractional exponents", "statement": "In the decimal context, x ^ y with a positive x and a y that is not a whole number agrees with the real power up to a relative error of 10^-15 times 1 + |y|; 0 ^ y is 0 for y > 0.", "quantifier": "all pairs of decimals, context history, and every rounding that rust_decimal's contract allows", "why_tests_cant": "All pairs of decimals.", "anchors": ["prexel/src/decimal/decimal_ext.rs: checked_powd", "prexel/src/decimal/mod.rs"]}
{"id": "C99", "title": "Rounding functions of decimals", "statement": "In the decimal context, floor, ceil and truncate of x are exactly the floor, the ceiling and the whole part of x; round is a nearest whole number.", "quantifier": "every decimal, context history", "why_tests_cant": "All decimals.", "anchors": ["prexel/src/decimal/mod.rs: FloorFunction, CeilFunction, TruncateFunction, RoundFunction"]}
{"id": "C100", "title": "Conversion of angles of decimals", "statement": "In the decimal context, to_radians and to_degrees differ from x * pi / 180 and x * 180 / pi by at most 10^-16 plus 4 * 10^-26 times the larger of 1 and the size of x; an angle whose degrees do not fit a decimal is an overflow error.", "quantifier": "every decimal, context history, and every rounding that rust_decimal's contract allows", "why_tests_cant": "All decimals.", "anchors": ["prexel/src/decimal/decimal_ext.rs: to_radians, to_degrees", "prexel/src/decimal/mod.rs"]}
{"id": "C101", "title": "Arctangents of decimals", "statement": "In the decimal context, atan(x) evaluates for every decimal x and differs from the real arctangent of x by at most 3 * 10^-16.", "quantifier": "every decimal, context history, and every rounding that rust_decimal's contract allows", "why_tests_cant": "All decimals; the error bound involves real numbers.", "anchors": ["prexel/src/decimal/decimal_ext.rs: checked_atan", "prexel/src/decimal/mod.rs"]}
{"id": "C102", "title": "Reciprocal inverse hyperbolic functions of decimals", "statement": "In the decimal context, acsch, asech and acoth are the inverse functions of csch, sech and coth: they are asinh, acosh and atanh of 1/x.", "quantifier": "every decimal, context history", "why_tests_cant": "All decimals; the whole domain of asech and acoth is refused.", "anchors": ["prexel/src/decimal/mod.rs: forward_checked_func_inv_impl, impl_checked_trig_rec", "prexel/src/decimal/decimal_ext.rs: checked_inv"]}
{"id": "C103", "title": "The line on the screen is the line that Enter submits", "statement": "At the prompt of the eval program, after any keys, the last row of the terminal shows the prompt followed by exactly the line that Enter would submit, with the cursor behind it.", "quantifier": "every sequence of keys, history size, terminal width, number type, with and without colours", "why_tests_cant": "All key sequences: the row is redrawn from deltas (one character, a backspace, a clear), so that one wrong delta shows only after some histories.", "anchors": ["eval/src/repl/repl.rs: next", "eval/src/repl/repl_writer.rs: rewrite, prompt", "eval/src/writer.rs"]}
{"id": "C104", "title": "The screen is the transcript of the session", "statement": "Above the line that is edited the terminal shows the opening text and then, for each line that was entered and in order, that line and what was printed for it, nothing else and nothing missing; what was entered can be told from what was printed.", "quantifier": "every sequence of keys and every outcome of the entered lines", "why_tests_cant": "All histories of lines, corrections and recalls.", "anchors": ["eval/src/repl/repl.rs: run, next", "eval/src/repl/mod.rs: run_repl", "eval/src/repl/repl_writer.rs"]}
{"id": "C105", "title": "The end of a session", "statement": "A session at the prompt ends exactly when Esc or Ctrl-C is pressed or Enter is pressed on the word exit with any white space around it; what is pressed later is ignored, and the last row then shows the farewell and nothing of what was being typed.", "quantifier": "every sequence of keys, history of lines, terminal width and number type", "why_tests_cant": "All key sequences.", "anchors": ["eval/src/repl/repl.rs: run, next", "eval/src/repl/mod.rs: run_repl"]}
{"id": "C106", "title": "Colours do not change the text", "statement": "With --no-color the session at the prompt is the same: the same results, the same line, and the screen shows the same characters in the same places.", "quantifier": "every sequence of keys, terminal width, character widths, prompt and callback", "why_tests_cant": "All sessions.", "anchors": ["eval/src/writer.rs: write, writeln", "eval/src/repl/repl_writer.rs", "eval/src/repl/mod.rs: run_repl"]}
{"id": "C107", "title": "Equal subexpressions are interchangeable", "statement": "Replacing an expression inside a pair of brackets by another one that evaluates to the same value, or to the same error, or by the number that is its value, changes nothing in the outcome of the whole expression, whatever surrounds it, including surroundings that are rejected.", "quantifier": "every context without custom function calls, every pair of expressions with the same outcome, every list of tokens before and after the brackets", "why_tests_cant": "All expressions and all surroundings: the conversion to postfix order looks at neighbouring tokens and at positions, so that the length and the shape of the part could matter.", "anchors": ["prexel/src/evaluator.rs"]}
{"id": "C108", "title": "Printed results read back", "statement": "The text that is printed for a result can be entered as an expression and evaluates to the same result: for integers of every width in the library, at the prompt, and for every number type at the server, where sending the text of the answer as the expression of the same request gives the same answer.", "quantifier": "every number, width, context history, request and set of variables", "why_tests_cant": "All numbers: the minus sign of a printed number is an operator when it is read, and the digits behind it must be a number on their own.", "anchors": ["prexel/src/tokenizer.rs", "prexel/src/utils/splitter.rs", "prexel/src/ops/checked.rs", "prexel/src/ops/unchecked.rs", "prexel/src/numeric_traits/mod.rs", "prexel-server/src/services/evaluator.rs"]}
{"id": "C109", "title": "The eval command: results to standard output, errors to standard error, exit status", "statement": "The eval command writes the text of the result and a line end to standard output exactly if the library evaluates the expression, and nothing else; an error goes to standard error only. The exit status tells success from failure.", "quantifier": "every number type, expression and colour setting", "why_tests_cant": "All expressions.", "anchors": ["eval/src/main.rs: main", "eval/src/eval_expr.rs: eval_expr", "eval/src/writer.rs: writeln, writeln_err"]}
{"id": "C110", "title": "Tables of the listing commands", "statement": "The commands constants, operators and functions print one row for each entry, in the order of the listing: the name, then the value or description, which begins in the same column in all rows, at least four columns behind every name. Names contain no blanks. With --no-color the text is the same.", "quantifier": "every number type, every text of values and descriptions, both colour settings", "why_tests_cant": "All values and descriptions: the column depends on all names of the table.", "anchors": ["eval/src/list.rs: list, list_constants, list_operators, list_functions, pad_right", "eval/src/main.rs: main"]}
{"id": "C111", "title": "Order and completeness of the listings", "statement": "Names are listed in the order in which they were registered, aliases before the name, and registering never moves other names. The lists of the command line program and of the server for each number type are fixed: exactly the documented names, in the same order in every run.", "quantifier": "every context and every registration; every number type, key hashing, floating point and decimal arithmetic", "why_tests_cant": "All contexts and registration histories; an ordinary hash map would list in a different order in each run.", "anchors": ["prexel/src/context.rs: add_function_as, add_unary_function_as, add_binary_function_as, add_constant", "prexel-server/src/services/info.rs", "eval/src/list.rs: list"]}
{"id": "C112", "title": "Functions with effects are called once, in order", "statement": "Functions and operators may have effects (a counter, a log, a random number generator). Evaluating an expression calls each operator and function in it exactly once, with the values of its operands, operands from left to right and before the operator; after the first failing call nothing more is called, and an expression that cannot be converted calls nothing. Functions without effects leave everything as it is.", "quantifier": "every state, every kind of effect of the registered functions, every well-formed expression and, for the number of calls, every list of tokens", "why_tests_cant": "All expressions and all stateful functions.", "anchors": ["prexel/src/evaluator.rs: rpn_eval", "prexel/src/function.rs"]}
{"id": "C113", "title": "The rate limiter counts the requests of each client", "statement": "Two requests to the server are counted together by the rate limiter exactly if they come from the same client: clients with different addresses never share a limit, whatever cookies they send, and no client has more than one limit.", "quantifier": "every pair of requests: any addresses, ports and cookies", "why_tests_cant": "The identifier is an encoding with its padding removed; that two different addresses never get the same one is a statement about all strings.", "anchors": ["prexel-server/src/middlewares/rate_limiter.rs: get_rate_limit_identifier", "prexel-server/src/main.rs: get_rate_limit_middleware"]}
{"id": "C114", "title": "The rate limit is 100 requests a minute per client", "statement": "Of the requests of one client, at most 100 are answered in any 60 seconds; a request is only refused if 100 requests of that client were answered in the 60 seconds before it; and requests of other clients make no difference.", "quantifier": "every history of requests: any clients, times and interleaving, and every interval of 60 seconds", "why_tests_cant": "Needs all histories: the counter is reset by time, and the worst case lies across two intervals.", "anchors": ["prexel-server/src/main.rs: get_rate_limit_middleware, MAX_REQUESTS, TIME_BETWEEN_REQUESTS"]}
{"id": "C115", "title": "White space may be left out where words do not run together", "statement": "An expression may be typed without spaces: two neighbouring words are read as two words exactly if the first character of the second cannot continue the first (digits and points continue a number, letters, digits and underscores a name, operator characters an operator). So every text is read as the sequence of its longest words, and an expression written with as few spaces as that allows has the value of its syntax tree.", "quantifier": "every text, every list of words, every amount of white space between them; every well-formed expression", "why_tests_cant": "All texts: the end of a word depends on the character behind it, and only an induction over the text covers every way to leave spaces out.", "anchors": ["prexel/src/utils/splitter.rs: DefaultSplitter::split_into_tokens, SplitNumeric, SplitIdentifier, SplitOperator"]}
{"id": "C116", "title": "Listings show truthful aliases and descriptions", "statement": "Every entry that list_functions, list_operators, the help of the eval program or the listing of the server shows carries the aliases and the description of a function registered under that name, and every alias shown can be used in its place. All functions and operators of a context are listed. In the built-in contexts each has a description, and two entries with the same description are names of one function.", "quantifier": "every context and every history of registrations without a panic; every number type of the program and the server", "why_tests_cant": "All registration histories, with refusals and clashes of aliases.", "anchors": ["prexel/src/context.rs: add_function_as, add_unary_function_as, add_binary_function_as, list_functions", "eval/src/list.rs: list", "prexel-server/src/services/info.rs: list_functions, list_operators"]}
{"id": "C117", "title": "All names of a thing are equally good", "statement": "Replacing names in an expression by other names of the same functions, operators, variables or constants (aliases, other letter case) changes neither the value nor the error.", "quantifier": "every expression, every context, every choice of names", "why_tests_cant": "All expressions and all ways to choose the names in them.", "anchors": ["prexel/src/tokenizer.rs: tokenize, is_unary", "prexel/src/evaluator.rs: rpn_eval, infix_to_rpn", "prexel/src/context.rs: add_function_as"]}
{"id": "C118", "title": "Error messages say what is wrong", "statement": "When evaluating a text fails, the text of the error is true of the input: `Expression is empty` only for a blank text, `Invalid token: Unknown(w)` only for the first word that is neither a number nor a registered name, `Function arguments of f ...` only for a function not followed by a parenthesis, `Empty grouping symbols` and the messages about commas and brackets only for such a comma or bracket, and otherwise the error is the one returned by a function or operator that occurs in the text. No text leads to `Variable ... not found` or the like. Refused registrations say what is wrong with the name. Building messages never changes the outcome.", "quantifier": "every text, context, splitter of the given kind, and every registration in every state of a context", "why_tests_cant": "A wrong message shows only for the inputs that reach that branch; tests check the kind of the error, not what it says, and cannot list all texts that fail.", "anchors": ["prexel/src/evaluator.rs:rpn_eval", "prexel/src/evaluator.rs:infix_to_rpn", "prexel/src/tokenizer.rs:tokenize", "prexel/src/error.rs:Error", "prexel/src/context.rs:check_token_name"]}
{"id": "C119", "title": "Splitters made with the builder", "statement": "A splitter made by a chain of builder calls applies its rules in the order in which the calls put them, and removes white space exactly if the last `whitespace` call of the chain asks for it, wherever it stands. Of the crate's rules, in whatever order and number: a splitter that removes white space never yields an empty word or one with white space, loses nothing but white space and the second point of a number, and each word splits to itself; one that keeps white space makes every white space character a word of its own. A character is an operator character of a rule made with `add_operator` and `except` exactly if the last call for it was `add_operator`. Whether white space is removed should not change what an expression means.", "quantifier": "every chain of builder calls, every text", "why_tests_cant": "There is no bound on the chains of calls nor on the texts; tests use the presets.", "anchors": ["prexel/src/utils/splitter.rs:DefaultSplitterBuilder", "prexel/src/utils/splitter.rs:SplitWithOperatorsBuilder", "prexel/src/utils/splitter.rs:DefaultSplitter"]}
{"id": "C120", "title": "The work of an evaluation is proportional to the text", "statement": "Evaluating a text, whether it succeeds or fails, makes a number of loop rounds that is at most a constant times the length of the text, for every text, every context, every number type and every configuration; evaluating given tokens makes at most six rounds per token. No nesting, no number of arguments and no arrangement of precedences makes it quadratic. A call of a function counts as one round.", "quantifier": "every text, token list, context, number type and list of splitter rules", "why_tests_cant": "a test measures one text; a text that makes the stack be scanned again and again would be missed", "anchors": ["prexel/src/evaluator.rs:rpn_eval", "prexel/src/evaluator.rs:infix_to_rpn", "prexel/src/utils/splitter.rs:split_into_tokens", "prexel/src/ops/mod.rs:Factorial"]}
{"id": "C121", "title": "Logical operators of one's own", "statement": "With the context of the logical example (operators `and`, `xor`, `or`, constants `true` and `false`), every logical expression over `true` and `false`, or over numbers from 0 to 255, written with the parentheses that it needs and any white space between the words, evaluates to its truth value (bitwise for numbers); `or` binds tighter than `xor`, `xor` tighter than `and`, and equal operators group to the left.", "quantifier": "every logical expression of every size, every way to space it, both number types, both builds and every hasher", "why_tests_cant": "the example prints three results; the set of expressions is infinite and the precedences matter only in combinations", "anchors": ["prexel/examples/logical_ops.rs: main, AndOperator, OrOperator, XorOperator", "prexel/src/context.rs: DefaultContext::add_binary_function, add_constant", "prexel/src/evaluator.rs: Evaluator::eval"]}
{"id": "C122", "title": "Products without a multiplication sign", "statement": "With `implicit_mul` on, a product written without `*` (after a number or a closing bracket) has the value, error or panic of the same product written with `*` and parentheses around it, in every expression; the parentheses can be left out (a `*` can simply be inserted) unless an operator that binds at least as tightly stands directly before the product.", "quantifier": "every context with a `*`, every expression with any number of such products, nested in any way, as tokens and as text", "why_tests_cant": "tests try eight short expressions; whether inserting `*` is harmless depends on all operators around it", "anchors": ["prexel/src/evaluator.rs: shunting_yard::infix_to_rpn (409-433)", "prexel/src/context.rs: Config::with_implicit_mul"]}
{"id": "C123", "title": "Kinds of brackets", "statement": "The kind of a pair of brackets does not matter: if two texts (or token lists) differ only in the kinds of their brackets and in both every bracket is closed by its own kind, they evaluate alike, including errors; only the brackets of calls must be parentheses unless `custom_function_call` is on.", "quantifier": "every context that does not use brackets as names, every pair of texts or token lists, valid expressions or not", "why_tests_cant": "each test uses a few fixed bracketings; the claim is about all texts and all ways to choose the kinds", "anchors": ["prexel/src/evaluator.rs: shunting_yard::infix_to_rpn, push_grouping_close", "prexel/src/context.rs: Config::get_group_symbol, Grouping", "prexel/src/tokenizer.rs: Tokenizer::tokenize", "prexel/src/utils/splitter.rs: DefaultSplitter"]}
{"id": "C124", "title": "The order of registrations", "statement": "If registrations (functions, operators, constants, variables) all succeed in one order and no two of them give a value to the same variable or constant, then they all succeed in every other order too, and every expression evaluates alike in the contexts they give.", "quantifier": "every list of registrations with any names and aliases, every rearrangement of it, debug and release builds, every later text", "why_tests_cant": "a test tries one or two orders; n registrations have n! orders, and aliases can clash in either direction", "anchors": ["prexel/src/context.rs: DefaultContext::add_function_as, add_unary_function_as, add_binary_function_as, add_constant, set_variable"]}
{"id": "C125", "title": "A well-formed expression fails with the error of its first failing step", "statement": "If an expression can be read, then evaluating it either succeeds or fails with the error, text included, of the first step that fails when operands are evaluated from left to right before their operator or function: the error that the function or operator returns, or for tokens passed directly `Variable ... not found`, `Constant ... not found`, `Function ... not found` for a name that is not registered. Later mistakes are never reported instead.", "quantifier": "every context, well-formed expression and text of it", "why_tests_cant": "Which of several failing parts is reported can be tested for sample expressions only.", "anchors": ["prexel/src/evaluator.rs rpn_eval (125-270)", "prexel/src/evaluator.rs infix_to_rpn (317-448)"]}
{"id": "C126", "title": "Clients without an address are recognised by a cookie", "statement": "A client whose address the server does not know is answered, gets a cookie with an identifier of its own, and as long as it sends the cookie back it is counted by the rate limiter as one client, apart from all others. A client with a known address never gets a cookie, and its cookies make no difference.", "quantifier": "every request, whatever its cookies, every state of the limiter, every UUID", "why_tests_cant": "The server has no tests of its middleware; which cookies a client sends, and in what order, is up to the client.", "anchors": ["prexel-server/src/main.rs: main (38-74), get_rate_limit_middleware", "prexel-server/src/middlewares/rate_limiter.rs: get_rate_limit_identifier, generate_rate_limit_id"]}
{"id": "C127", "title": "The string helpers", "statement": "eq_char(c) holds exactly of the one-character string c, and single_char returns exactly that character; to_sentence_case writes the first letter or digit in capitals and everything else in small letters; to_capital_case does so for each word, words being separated by white space. Only ASCII letters change.", "quantifier": "every string", "why_tests_cant": "The unit tests try a dozen strings, none with capitals after the first letter, punctuation, or letters that are not ASCII.", "anchors": ["prexel/src/utils/extensions/str_ext.rs: StrExt"]}
{"id": "C128", "title": "What the errors of the built-in functions say", "statement": "In a context with the built-in functions, to which only variables and constants were added, an error of any text whose kind is not InvalidInput, InvalidExpression or Empty displays the fixed text of its kind. In particular an expression of sums, differences, products, quotients, remainders and signs over integers ends as the calculation by hand from left to right does: with its value; or with 'Value has overflow' at the first result that does not fit; or with 'Cannot divide by zero' at the first division by zero. The few functions with a message of their own (random, and log over complex numbers) say what is wrong with their arguments.", "quantifier": "any text, number type, context settings, variables and constants", "why_tests_cant": "the error shown depends on which of all the steps of an expression fails first, and on every function it calls; tests compare kinds of single operations", "anchors": ["prexel/src/ops/mod.rs: RandFunction (619-660)", "prexel/src/complex/mod.rs: LogFunction, RandFunction (39-133)", "prexel/src/error.rs: ErrorKind::as_str, Display"]}
{"id": "C129", "title": "Every sensibly written expression has exactly one meaning", "statement": "Call an expression sensibly written if every token is in a possible place: operands where an operand is wanted, operators and commas behind complete operands, commas only directly within the brackets of a function, every bracket closed by its partner, a bracket behind every function name, and (when products without a sign are enabled) factors side by side only after a number or a closing bracket. Then there is exactly one syntax tree which the registered precedences and associativities dictate and which is written with these tokens, and evaluation gives the value of that tree; and conversely the tokens of every such tree are sensibly written.", "quantifier": "every context (any set of operators with any precedences and associativities), every token list, every text", "why_tests_cant": "Whether the rules of precedence leave a gap or an ambiguity for some combination of operators is a statement about all expressions over all operator tables.", "anchors": ["prexel/src/evaluator.rs: infix_to_rpn, rpn_eval", "prexel/src/tokenizer.rs: Tokenizer::tokenize"]}
{"id": "C130", "title": "Float operators are correctly rounded", "statement": "Over floats, in the checked and the unchecked context, for finite x and y: x + y, x - y, x * y and x / y evaluate to the exact result rounded to the nearest double, ties to even, and to the infinity with its sign where the exact result is too large; x mod y and -x are exact; division and mod by zero are refused with DivisionByZero.", "quantifier": "every pair of finite doubles, context history", "why_tests_cant": "2^128 pairs of numbers.", "anchors": ["prexel/src/ops/checked.rs", "prexel/src/ops/unchecked.rs", "prexel/src/ops/mod.rs"]}
{"id": "C131", "title": "Float arithmetic is exact where it can be", "statement": "Over floats, an arithmetic expression of numbers, + - * / and signs, of any size, evaluates to its exact rational value if the exact value of each of its parts is a double; it is refused with DivisionByZero if a divisor is exactly zero. From tokens and from text with any spacing.", "quantifier": "every expression, spacing, context configuration", "why_tests_cant": "Expressions of any size.", "anchors": ["prexel/src/ops/checked.rs", "prexel/src/ops/unchecked.rs", "prexel/src/evaluator.rs", "prexel/src/tokenizer.rs"]}
{"id": "C132", "title": "Float literals are the nearest double", "statement": "Over floats, a numeral (digits, with a fraction or without) evaluates to the double nearest to the number it stands for, whatever is registered in the context.", "quantifier": "every numeral of any length, context", "why_tests_cant": "Numerals of any length; the hard ones are close to the middle between two doubles.", "anchors": ["prexel/src/tokenizer.rs", "prexel/src/utils/splitter.rs"]}
{"id": "C133", "title": "Factorials of floats", "statement": "Over floats, for a whole number n, n! is exact up to 22!, has a relative error of at most n / 2^52 up to 170!, and is infinite beyond; the evaluation ends.", "quantifier": "every whole number that is a double, context history", "why_tests_cant": "2^53 arguments and more, each with its own loop.", "anchors": ["prexel/src/ops/mod.rs: Factorial", "prexel/src/ops/checked.rs", "prexel/src/ops/unchecked.rs"]}
{"id": "C134", "title": "A variable evaluates to its value", "statement": "A name that is bound to a value, entered as an expression, evaluates to the value, for every number type.", "quantifier": "every name of letters, digits and underscores, value, number type, context history", "why_tests_cant": "All names: the names that are also numbers in the number type are shadowed.", "anchors": ["prexel/src/tokenizer.rs", "prexel/src/utils/splitter.rs", "prexel/src/numeric_traits/mod.rs"]}
{"id": "C135", "title": "Chains of configuration calls", "statement": "After any chain of with_implicit_mul, with_complex_number, with_custom_function_call and with_grouping on Config::default() or Config::new(), each option has the value of the last call for it (off without one) and the grouping symbols are those added; chains that agree in the last values evaluate every text and token list alike; f[x] and f{x} are evaluated if the last with_custom_function_call was true and refused otherwise; the opening and closing symbols of a configuration are the three pairs.", "quantifier": "every chain of calls of any length, context, expression and character", "why_tests_cant": "Chains of any length.", "anchors": ["prexel/src/context.rs: Config, Grouping"]}
{"id": "C136", "title": "Rounding errors of floats add up slowly", "statement": "Over floats, an expression of k sums, products and quotients of positive numbers evaluates with a relative error of at most k / 2^52, if no part is below 2^-1021 or above 2^1022; written as text, reading a numeral counts as one more operation. Sums, differences and products of whole numbers with any signs are exact if the magnitude of every part (its value with all signs positive) is at most 2^53, and have an error of at most k / 2^52 of the magnitude up to 2^1000.", "quantifier": "every expression with up to 2^52 operations, spacing, context configuration and history", "why_tests_cant": "Expressions of any size; errors of the parts interact.", "anchors": ["prexel/src/ops/checked.rs", "prexel/src/ops/unchecked.rs", "prexel/src/evaluator.rs", "prexel/src/tokenizer.rs"]}
{"id": "C137", "title": "Which texts are integers", "statement": "A text is read as the value of an integer variable exactly if it is a run of digits with an optional plus or minus sign and the number fits the type, and then it is that number. As an expression, a run of digits evaluates to its number in every integer width, whatever is registered; a number that does not fit is refused as invalid input, unless something else has that name.", "quantifier": "every text of any length, integer width and context", "why_tests_cant": "Texts of any length; the numbers just beyond a width.", "anchors": ["prexel/src/tokenizer.rs", "prexel/src/utils/splitter.rs", "prexel/src/numeric_traits/mod.rs", "prexel-server/src/services/evaluator.rs"]}
{"id": "C138", "title": "Numbers in scientific notation", "statement": "A number in scientific notation such as 1.5e3 is read over floats as the double nearest to the number it stands for, as the value of a variable and as an expression.", "quantifier": "every numeral, exponent, sign, context", "why_tests_cant": "Texts of any length.", "anchors": ["prexel/src/tokenizer.rs", "prexel/src/utils/splitter.rs", "prexel-server/src/services/evaluator.rs", "prexel/src/evaluator.rs"]}
{"id": "C139", "title": "Tokens as values", "statement": "Tokens that differ have different texts (if numbers that differ have); exactly one of the eleven is_ methods holds for a token, the one of its kind; contains_symbol(c) holds exactly for the brackets and the operators whose symbol is c.", "quantifier": "every token, with names of any length, and every character", "why_tests_cant": "Names are arbitrary texts, also such that contain quotes and brackets.", "anchors": ["prexel/src/token.rs: Token, Display, contains_symbol"]}
{"id": "C140", "title": "Errors as values", "statement": "Two errors are equal exactly if their kinds are, whatever they say. An error made with a message says the message and gives it back; an error made from a kind alone says a text that no other kind has, and contains nothing; Error::other has the kind Unknown.", "quantifier": "every kind and message", "why_tests_cant": "Messages are arbitrary texts.", "anchors": ["prexel/src/error.rs: Error, ErrorKind"]}
{"id": "C141", "title": "The port of the server", "statement": "The server listens on the port in the environment variable PORT if that is a number up to 65535, in digits with an optional plus sign, and on port 8000 otherwise.", "quantifier": "every value of the variable", "why_tests_cant": "Texts of any length.", "anchors": ["prexel-server/src/main.rs: main"]}
{"id": "C142", "title": "The builder of the prompt", "statement": "A prompt built with any chain of calls has the prompt, the greeting and the farewell of the last call for each, none without one, and the history size of the last call for it, 100 without one or if that call was with None.", "quantifier": "every chain of calls of any length", "why_tests_cant": "Chains of any length.", "anchors": ["eval/src/repl/repl.rs: ReplBuilder"]}
{"id": "C143", "title": "Decimals are exact in school arithmetic and print with the places they are written with", "statement": "With decimal numbers a literal of at most 28 places and 96 bits evaluates to exactly what it stands for, whatever is registered, and is printed with the same digits and the same number of places (1.10 stays 1.10). The result of sums, differences, products and signs over such literals is exact and printed with the places that school arithmetic gives: the larger number of places for sums and differences, the sum of the places for products, as long as every partial result fits and nothing is combined with zero. So 0.1 + 0.2 is answered with 0.3. The same holds for the answers of the server.", "quantifier": "all numerals, all trees of sums, differences, products and signs over them, all ways to space the text, all contexts for single literals", "why_tests_cant": "the numerals and trees are infinitely many; a test compares a few printed results", "anchors": ["prexel/src/decimal/mod.rs: impl CheckedAdd/CheckedSub/CheckedMul via ops", "prexel/src/tokenizer.rs", "prexel-server/src/services/evaluator.rs: eval_decimal_expression"]}
{"id": "C144", "title": "Complex arithmetic over doubles is exact while it fits", "statement": "With complex numbers whose parts are doubles, an arithmetic expression of sums, differences, products, quotients and signs gives the exact mathematical result if the exact results of all steps are doubles; a divisor that is zero is an error. In particular sums, differences and products of numbers with whole parts are exact as long as the sizes |a| + |b| of the operands, added for sums and multiplied for products, do not exceed 2^53.", "quantifier": "all arithmetic trees over complex numbers with finite double parts, all configurations and further registrations", "why_tests_cant": "the trees and numbers are unbounded; a test compares a few products", "anchors": ["prexel/src/complex/mod.rs: with_config_complex", "prexel/src/ops/mod.rs: unchecked operators", "prexel/src/evaluator.rs"]}
{"id": "C145", "title": "Themes change only colours", "statement": "Whatever is written through a theme of the prompt (a theme built with the builder, the default theme, or no theme), each text reaches the stream of its kind (errors go to standard error, everything else to standard output), unchanged, in the colours that were chosen last for its kind, and nothing that is written afterwards takes over these colours. With colours switched off every text is written without colours.", "quantifier": "all sequences of builder calls, all sequences of calls of the theme with all texts, all states of the terminal, colours on or off", "why_tests_cant": "Colours are kept in the writer between calls, so a leak depends on the order of calls", "anchors": ["eval/src/repl/theme.rs: ReplTheme, SimpleTheme, SimpleThemeBuilder, DefaultTheme, NoTheme", "eval/src/writer.rs: ColorWriter", "eval/src/style.rs: TextStyling, ColoredText"]}
{"id": "C146", "title": "Answers of the server are JSON that says the result or the error", "statement": "Whatever bytes are posted to /eval (as UTF-8), unless evaluating panics, the answer is either the bare result (only if only_result was asked for), or a body that is a valid JSON text: an object with exactly the members result and error, exactly one of them a string and the other null, and the string, read as JSON, is exactly the result or the error message, with whatever quotes, backslashes and control characters it contains. No other reading of the body exists. The status is 400 exactly for bodies that are no request.", "quantifier": "all request bodies, results, error messages and orders of the variables", "why_tests_cant": "messages echo parts of the request, so every text can occur in an answer; a test tries a few characters", "anchors": ["prexel-server/src/endpoints/mod.rs eval", "prexel-server/src/models/mod.rs EvaluatedExpression"]}
{"id": "C147", "title": "Requests are understood however their JSON is written", "statement": "A body posted to /eval is answered as the request that its JSON text means under RFC 8259: white space, escapes (also surrogate pairs, also in the names of members), the order of the members and unknown members make no difference, the last of several values for a variable counts, null is the same as leaving type or variables out; and every body that does not mean a request is refused with status 400.", "quantifier": "all bodies, all ways to write a request", "why_tests_cant": "infinitely many texts mean the same request; tests cover one spelling", "anchors": ["prexel-server/src/endpoints/mod.rs eval", "prexel-server/src/models/mod.rs EvalExpression", "prexel-server/src/models/mod.rs Variable", "prexel-server/src/models/mod.rs NumberType"]}
{"id": "C148", "title": "JSON numbers as variables have the value that is written", "statement": "A variable that is sent as a JSON number has exactly the value that the number's text means: for decimals always, for integers and binaries if it is whole, and for floats the nearest double. It makes no difference whether it is written as a number or, in plain digits, as a string.", "quantifier": "all JSON numbers, all number types", "why_tests_cant": "numbers take a detour through a double and its text; whether that loses digits depends on every digit and exponent", "anchors": ["prexel-server/src/models/mod.rs Variable", "prexel-server/src/services/evaluator.rs eval_decimal_expression", "prexel-server/src/services/evaluator.rs eval_integer_expression"]}
{"id": "C149", "title": "Floats with few digits are shown as written", "statement": "A float literal of at most 15 digits is answered with a numeral for exactly the same number, without an exponent and without digits that were not written.", "quantifier": "all literals of at most 15 digits and 300 places, all contexts", "why_tests_cant": "most decimal fractions are not doubles, so that every literal is rounded twice, when it is read and when it is shown", "anchors": ["prexel/src/tokenizer.rs tokenize", "prexel-server/src/services/evaluator.rs eval_float_expression", "eval/src/eval_expr.rs eval_float_expr"]}
{"id": "C150", "title": "The query decides what the server answers with", "statement": "A request to `/eval` is answered with the bare text of the result exactly if its query gives `only_result` the value `true` and the expression has a result; a listing is that of the number type that the query gives to `type`, and that of the decimals if it gives none. A parameter counts if exactly one part of the query is about its name, names and values being percent-decoded, in any place and whatever else the query says; written twice, misspelt or with another value, it is as if it were not written.", "quantifier": "every query string, every body, every storage order of the variables, every implementation of the number types", "why_tests_cant": "the query is any text; the ways of writing a name and a value, and what may surround them, are unbounded", "anchors": ["prexel-server/src/endpoints/mod.rs: eval, get_operators, get_constants, get_functions, EvalParams, GetFunctions"]}
{"id": "C151", "title": "sum, product and avg mean the expression written out, for every number type", "statement": "sum(x1, ..., xn) and product(x1, ..., xn) have the value of `x1 + ... + xn` and `x1 * ... * xn`, and avg(x1, ..., xn) that of `(x1 + ... + xn) / n` with the number n of the arguments: in the checked, the unchecked and the complex contexts with the same value or the same error; for decimals the same value, and a panic exactly where the expression is refused. Decimal sums and products whose beginnings are all decimals are exact and the average is the exact one, rounded once; likewise for floats whose partial sums are doubles.", "quantifier": "every number type, argument list of one or more numbers of any length, context history", "why_tests_cant": "Argument lists of any length over any number type.", "anchors": ["prexel/src/ops/unchecked.rs: SumFunction, ProdFunction, AvgFunction", "prexel/src/ops/checked.rs: SumFunction, ProdFunction, AvgFunction", "prexel/src/decimal/mod.rs: SumFunction, ProdFunction, AvgFunction"]}
{"id": "C152", "title": "Listings are JSON that says exactly what is registered", "statement": "A request for the functions, the operators or the constants is answered with the status 200 and a JSON text (RFC 8259): an array with one object per entry, in order, with exactly the members `name`, `aliases` and `description` (functions, operators) or `name` and `value` (constants), whatever characters the texts contain; read back it is exactly the list of the context of the number type that the query asks for, and it can be read as no other list. Every query asks for exactly one number type.", "quantifier": "every query string, every implementation of the number types, every content of the listing", "why_tests_cant": "all texts of names, aliases and descriptions, all queries; that nothing else can be read is a statement about all lists", "anchors": ["prexel-server/src/endpoints/mod.rs: get_operators, get_constants, get_functions", "prexel-server/src/services/info.rs: FnInfo, VarInfo"]}
{"id": "C153", "title": "The kind of an error tells which operators and functions can have failed", "statement": "In a context with the built-in operators and functions, to which only variables and constants were added, an error of any text either is of a kind for mistakes in the text (InvalidInput, InvalidExpression, Empty), or the text contains the name of an operator or function that can give that kind: DivisionByZero only with / or mod; NegativeValue only with ! or random; NAN only with a function computed with floats; Overflow only with something that can overflow (for machine numbers and complex numbers never with +, -, * or /); for decimals every failure is an Overflow, also a division by zero, except those of random; for binary numbers there is no other error at all. InvalidArgumentCount is given only if some call has a number of arguments that its function does not take. Zero, PositiveValue and Unknown never occur.", "quantifier": "any text, number type, context settings, variables and constants; every well-formed expression tree", "why_tests_cant": "a test sees the error kinds of the texts it tries; that no text without a division gives DivisionByZero is about all texts and all code paths of some forty functions", "anchors": ["prexel/src/error.rs: ErrorKind", "prexel/src/ops/checked.rs", "prexel/src/ops/unchecked.rs", "prexel/src/ops/mod.rs", "prexel/src/decimal/mod.rs", "prexel/src/decimal/decimal_ext.rs", "prexel/src/complex/mod.rs", "prexel/src/binary/mod.rs", "prexel/src/evaluator.rs: Evaluator::eval"]}
{"id": "C154", "title": "The constants are right to the last place", "statement": "Each of the 25 constants of prexel::decimal::consts is less than one unit of the 28th decimal place away from the number its documentation names, and all but four (E_POW_2, PI_FRACT_3, PI_3_FRACT_2, LN_10) are the decimals with 28 places nearest to it. In the context of decimals the texts PI and E (in any case) evaluate to within half a unit of the 28th place of pi and e, in the contexts of floats to the doubles nearest to pi and e.", "quantifier": "all 25 constants; every configuration and every context built from the decimal or float defaults; every spelling of the two names", "why_tests_cant": "a test compares a constant with another finite decimal, never with the real number it stands for; the distance to pi, e, their logarithms and fractions is a statement about real numbers", "anchors": ["prexel/src/decimal/mod.rs consts", "prexel/src/context.rs DefaultContext::with_config_checked"]}
{"id": "C155", "title": "rpn_eval evaluates tokens in reverse Polish notation", "statement": "As its documentation says, rpn_eval applied to the tokens of an expression in reverse Polish notation gives the value of that expression. (The code takes infix tokens: it first converts its argument with infix_to_rpn.)", "quantifier": "every context without implicit multiplication; every expression tree and its postfix form", "why_tests_cant": "there are infinitely many token lists, and those on which the documentation is right by accident look like evidence for it", "anchors": ["prexel/src/evaluator.rs rpn_eval infix_to_rpn"]}
{"id": "C156", "title": "Sorting adapters sort, stably", "statement": "sorted, sorted_by and sorted_by_key return the items of the iterator in ascending order, items that compare equal in the order in which they came; no other list has this property. contains_some and contains_str are true exactly of a value that is there and equal.", "quantifier": "every list of items, every total order on items or keys", "why_tests_cant": "a test sorts four items of one type; stability and uniqueness concern every list and order", "anchors": ["prexel/src/utils/extensions/iterator_ext.rs", "prexel/src/utils/extensions/option_ext.rs"]}
{"id": "C157", "title": "Numbers of arbitrary precision compute exactly", "statement": "Over a number type whose sums, differences and products are exact and unbounded (such as BigDecimal in the example big_decimal.rs), both built-in contexts give every expression of + - *, signs and ! its exact value, however large; n! is the factorial of every whole n, a factorial of a negative number is NegativeValue; sum and product of one argument or more are exact.", "quantifier": "every such number type, both contexts, whatever else is registered, every expression tree and every list of arguments", "why_tests_cant": "no test computes with numbers of every size; the loop of factorials must end and be exact for every n", "anchors": ["prexel/examples/big_decimal.rs", "prexel/src/ops/mod.rs Factorial", "prexel/src/ops/unchecked.rs", "prexel/src/ops/checked.rs"]}
{"id": "C158", "title": "Square roots of floats", "statement": "Over floats, sqrt(x) for a finite x is the double nearest to the real square root of x (of the whole number next to x if one is closer than 1e-10), and NaN if that is negative. The square root of the square of a double is exact if the square is a double; sqrt(x * x) is |x| also when the square is rounded, for x from 2^-500 to 2^500 whose square is not within 1e-10 of a whole number without being one. The root of a larger number is not smaller.", "quantifier": "every finite double, context configuration and history", "why_tests_cant": "The nearest double to an irrational number, for all 2^63 arguments; sqrt(x * x) = |x| depends on how two roundings interact.", "anchors": ["prexel/src/ops/mod.rs::SqrtFunction", "prexel/src/utils/approx.rs::Approx", "prexel/src/context.rs::DefaultContext::with_config_checked"]}
{"id": "C159", "title": "Factorials of fractions over floats", "statement": "Over floats, the factorial of a fraction x between n and n + 1, for n below 170, is x (x - 1) (x - 2) … (n factors) times f! for the part f behind the point, with a relative error of at most n / 2^52, if f! lies between 1/2 and 2. The factorial of n + 1/2 is Γ(n + 3/2) with a relative error of at most 10^-13.", "quantifier": "every double that is no whole number between 0 and 170; every n below 170; context configuration and history", "why_tests_cant": "Rounding in up to 170 products and in Lanczos' approximation; the gamma function takes values no test can compute exactly.", "anchors": ["prexel/src/ops/mod.rs::Factorial", "prexel/src/utils/gamma.rs::gamma"]}
{"id": "C160", "title": "abs, sign and truncation of floats", "statement": "Over floats, in the checked context and for every finite x: abs(x) is |x|; the sign function is -1, 0 or 1 as x is negative, zero or positive, as its description says; the truncation is x without its fraction.", "quantifier": "every finite double, context configuration and history, with and without documentation", "why_tests_cant": "All 2^64 arguments; minus zero, and numbers next to whole numbers, are easily forgotten.", "anchors": ["prexel/src/ops/mod.rs::SignFunction", "prexel/src/ops/mod.rs::TruncateFunction", "prexel/src/ops/checked.rs::AbsFunction", "prexel/src/descriptions.rs::Description"]}
{"id": "C161", "title": "Rounding functions and sign of integers", "statement": "Over integers, floor(x), ceil(x), round(x) and the truncation are x itself, and the sign is -1, 0 or 1 as x is negative, zero or positive.", "quantifier": "every bit width up to 1022, every integer, context configuration and history, with and without documentation", "why_tests_cant": "The integers pass through floating point numbers, which is right for all small integers that tests use and wrong for large ones.", "anchors": ["prexel/src/ops/mod.rs::FloorFunction", "prexel/src/ops/mod.rs::CeilFunction", "prexel/src/ops/mod.rs::RoundFunction", "prexel/src/ops/mod.rs::TruncateFunction", "prexel/src/ops/mod.rs::SignFunction"]}
{"id": "C162", "title": "Sine, cosine and tangent of floats", "statement": "Over floats, sin, cos and tan take degrees and give the sine, cosine and tangent of the angle up to the rounding of the angle (3e-18 per degree) and of the result, apart from results within 1e-10 of a whole number, which become that number; at multiples of 90 degrees sine and cosine are exactly -1, 0 or 1. At 90 degrees, where there is no tangent, tan is a number above 10^15 and no error.", "quantifier": "every finite angle up to 10^7 degrees (tangent: 10^6, where the cosine is at least 1/1000), context configuration and history; every mathematical library whose functions are accurate to 2^-52", "why_tests_cant": "The errors of the conversion to radians grow with the angle; tests try a handful of small angles.", "anchors": ["prexel/src/ops/mod.rs::SinFunction", "prexel/src/ops/mod.rs::CosFunction", "prexel/src/ops/mod.rs::TanFunction", "prexel/src/utils/approx.rs::Approx"]}
{"id": "C163", "title": "Arcsine, arccosine and arctangent of floats", "statement": "Over floats, asin, acos and atan give the angle in degrees with an error below 10^-13, apart from asin and acos within 1e-10 of a whole number, which are that number: asin(0.5) is 30 and acos(0.5) is 60 exactly. asin and acos of numbers beyond 1 are errors. atan(y, x) is the angle of the point (x, y), 180 degrees or -180 on the axis to the left; atan(0, 0) is an error.", "quantifier": "every finite double, every pair of finite doubles, context configuration and history; every mathematical library whose functions are accurate to 2^-51", "why_tests_cant": "There are 2^64 arguments, and 2^128 points; quadrants, axes and signed zeros are easily confused.", "anchors": ["prexel/src/ops/mod.rs::ASinFunction", "prexel/src/ops/mod.rs::ACosFunction", "prexel/src/ops/mod.rs::ATanFunction", "prexel/src/utils/approx.rs::Approx"]}
{"id": "C164", "title": "Logarithms of floats", "statement": "Over floats, ln(x) is the natural logarithm of what x is taken for (the whole number less than 1e-10 away, otherwise x) and log(x) the decimal logarithm of x, both to 2^-52 of the result; log(x, b) is the logarithm to the base b to 6e-16 of the result. log refuses zero, negative numbers, negative bases and the base 1; ln(0) is minus infinity and ln of a negative number NaN, without an error, and log(x, 0) is 0.", "quantifier": "every finite double (every pair), context configuration and history; every mathematical library whose logarithms are accurate to 2^-52", "why_tests_cant": "The relative error of a quotient of logarithms has to be bounded for numbers next to 1 and for the smallest and largest doubles.", "anchors": ["prexel/src/ops/mod.rs::LnFunction", "prexel/src/ops/mod.rs::LogFunction", "prexel/src/utils/approx.rs::Approx"]}
{"id": "C165", "title": "Exponential and hyperbolic functions of floats", "statement": "Over floats, exp, sinh, cosh and tanh of x are these functions of what x is taken for (the whole number less than 1e-10 away, otherwise x) to 2^-51 of the result, and csch, sech and coth are the reciprocals to 1e-15 of the result. csch(0) and coth(0) are infinite and no errors.", "quantifier": "every finite double that is taken for a number between -600 and 600, context configuration and history; every mathematical library that is accurate to 2^-51", "why_tests_cant": "The results range over 500 orders of magnitude; the errors of the library and of the division have to be bounded for all of them.", "anchors": ["prexel/src/ops/mod.rs::ExpFunction", "prexel/src/ops/mod.rs::SinhFunction", "prexel/src/ops/mod.rs::CoshFunction", "prexel/src/ops/mod.rs::TanhFunction", "prexel/src/utils/approx.rs::Approx"]}
{"id": "C166", "title": "Reciprocal angle functions of floats", "statement": "Over floats, csc, sec and cot of an angle in degrees are 1 divided by the result of sin, cos and tan, rounded once, and an error if that result is 0: at multiples of 90 degrees csc and sec are exactly 1 or -1 or the error NAN. acsc, asec and acot are the arcsine, arccosine and arctangent of the reciprocal, rounded once, in degrees with an error below 10^-13; acsc(0) and asec(0) are errors, acot(0) is 90 exactly (-90 for minus zero).", "quantifier": "all floats, up to 10^7 degrees, and arcs of numbers from 2^-900 to 2^900; every state of the context", "why_tests_cant": "All floats.", "anchors": ["prexel/src/ops/mod.rs: CscFunction, SecFunction, CotFunction, ACscFunction, ASecFunction, ACotFunction", "prexel/src/utils/approx.rs"]}
{"id": "C167", "title": "Greatest and least of floats", "statement": "Over floats, max gives the first of the greatest of its arguments and min the first of the least, infinities included, if the first argument is not NaN; other arguments that are NaN do not count. If the first argument is NaN, so is the result. The order of the arguments matters only for NaN and for 0 and -0.", "quantifier": "all argument lists of floats of two or more, with infinities, NaN and both zeros; every state of the context", "why_tests_cant": "The order of floats is no linear order; all lists.", "anchors": ["prexel/src/ops/mod.rs: MaxFunction, MinFunction"]}
{"id": "C168", "title": "Degrees and radians of floats", "statement": "Over floats, to_radians(x) and to_degrees(x) are x pi / 180 and x 180 / pi of what x is taken for, up to 3e-18 and 1e-14 of it. to_degrees(to_radians(x)) is x up to 4e-16 of it, unless the radians are closer than 1e-10 to a whole number; then up to 7e-9.", "quantifier": "all floats up to 10^7; every state of the context", "why_tests_cant": "All floats.", "anchors": ["prexel/src/ops/mod.rs: ToRadiansFunction, ToDegreesFunction", "prexel/src/utils/approx.rs"]}
{"id": "C169", "title": "Functions of floats undo each other", "statement": "Over floats, ln(exp(x)) is x up to 3e-10 for x from -20 to 600, exp(ln(x)) is x up to 3e-10 of it for positive x up to 2^800, and atan(tan(x)) is x up to 7e-9 plus 1e-13 divided by the square of the cosine, for x between -90 and 90 degrees. Further below it fails: ln(exp(-24)) is minus infinity, because exp(-24) is closer than 1e-10 to zero.", "quantifier": "all floats in these ranges (of what x is taken for); every state of the context", "why_tests_cant": "All floats.", "anchors": ["prexel/src/ops/mod.rs: ExpFunction, LnFunction, TanFunction, ATanFunction", "prexel/src/utils/approx.rs"]}
{"id": "C170", "title": "Infinity and NaN as operands of floats", "statement": "Over floats, an expression of numbers with + - * / mod, signs and parentheses in which NaN occurs gives NaN, or is refused for a division by zero. Infinity as an operand of + - * gives what the extended real numbers give; where these have no value (infinity minus itself, infinity times zero) it gives NaN, never an error. A finite number divided by infinity is zero, and mod infinity it is itself; infinity divided by a number other than zero is infinity with the sign of the quotient, mod it is NaN; infinity by infinity is NaN either way. Infinity by zero is refused.", "quantifier": "all expression trees with these operators, all floats; every state of the context", "why_tests_cant": "All trees and all floats.", "anchors": ["prexel/src/ops/checked.rs", "prexel/src/ops/unchecked.rs", "prexel/src/evaluator.rs"]}
{"id": "C171", "title": "Powers of floats", "statement": "Over floats, x ^ y is never refused. For a positive x it is the real power to 2^-52 of it, for a negative x and a whole y likewise with the sign that the exponent gives; for a negative x and a fraction y it is NaN; x ^ 0 is 1, 0 ^ y is 0 for a positive y and infinite for a negative one. x ^ a * x ^ b and x ^ (a + b) are both x to the sum of a and b, up to 6e-16 and 8e-14 of it. log(x ^ y, x) is y up to 6e-16 of it plus 5e-16 divided by |ln x|.", "quantifier": "all floats x, y, a, b whose powers are between 2^-1022 and 2^1023 (in the laws 2^-900 and 2^900); every state of the context", "why_tests_cant": "All floats.", "anchors": ["prexel/src/ops/mod.rs: PowOperator, LogFunction"]}
{"id": "C172", "title": "Identities of sine and cosine of floats", "statement": "Over floats, sin(x) * sin(x) + cos(x) * cos(x) is 1 up to 7e-10, sin(90 - x) is cos(x) up to 4e-10, and sin(x + 360) and cos(x + 360) are sin(x) and cos(x) up to 4e-10. Where the cosine is at least k >= 1/1000 in size, sin(x) / cos(x) is tan(x) up to 5e-10 / k^2.", "quantifier": "all floats up to 10^7 (for the angles 9 * 10^6, for the tangent 10^6); every state of the context", "why_tests_cant": "All floats.", "anchors": ["prexel/src/ops/mod.rs: SinFunction, CosFunction, TanFunction", "prexel/src/utils/approx.rs"]}
{"id": "C173", "title": "Area functions of floats", "statement": "Over floats, asinh, acosh and atanh give the area in degrees: 180 / pi times the real function, up to 4e-14 of it, apart from results within 1e-10 of a whole number, which become that number. acosh below 1 and atanh from 1 on are refused with NAN. acsch, asech and acoth of x are asinh, acosh and atanh of 1 / x, and refused for 0.", "quantifier": "all finite floats; every state of the context", "why_tests_cant": "All floats.", "anchors": ["prexel/src/ops/mod.rs: ASinhFunction, ACoshFunction, ATanhFunction, ACschFunction, ASechFunction, ACothFunction", "prexel/src/utils/approx.rs"]}
{"id": "C174", "title": "Sine and arcsine of floats undo each other", "statement": "Over floats, sin(asin(x)) and cos(acos(x)) are x up to 1.3e-10, for x from -1 to 1. asin(sin(x)) for -90 to 90 degrees and acos(cos(x)) for 0 to 180 degrees are x up to 0.002 degrees, and up to 2.2e-8 divided by the cosine (sine) of x. The loss is real: within 0.0007 degrees of 90, sin(x) is 1 and asin(sin(x)) is 90 exactly; within 0.0007 degrees of 0, cos(x) is 1 and acos(cos(x)) is 0.", "quantifier": "all floats in these ranges; every state of the context; every mathematical library accurate to 2^-51", "why_tests_cant": "The error bound is for every double and involves two library calls, two unit conversions and two roundings to whole numbers; tests cannot range over them, and the loss near 90 degrees is easily missed.", "anchors": ["prexel/src/ops/mod.rs: Sin, Cos, ASin, ACos", "prexel/src/utils/approx.rs", "prexel/src/ops/mod.rs: forward_func_impl"]}
{"id": "C175", "title": "The laws of logarithm and exponential over floats", "statement": "Over floats, log(x * y) is log(x) + log(y) and log(x / y) is log(x) - log(y), both computed, up to 7e-16 of the sum of the sizes of log(x) and log(y) plus 2e-16; exp(x + y) is exp(x) * exp(y) up to 4e-10 of it (whole numbers less than 1e-10 away are taken instead of the exponents).", "quantifier": "log: all positive floats which, like the product or quotient, are between 2^-900 and 2^900; exp: all floats x, y with x, y and x + y between -600 and 600; every state of the context; every mathematical library accurate to 2^-52 (log) or 2^-51 (exp)", "why_tests_cant": "The laws relate three library calls and two rounded operations for all pairs of doubles; tests compare a few pairs, with tolerances that say nothing about the other pairs.", "anchors": ["prexel/src/ops/mod.rs: Log, Exp", "prexel/src/ops/unchecked.rs: AddOperator, MulOperator, DivOperator", "prexel/src/utils/approx.rs"]}
{"id": "C176", "title": "Names are arbitrary", "statement": "What an expression (as tokens) evaluates to depends only on what the names in it mean, not on the names: in two contexts with the same configuration, two expressions that correspond token by token, with names of the same meaning, have the same outcome. In particular it does not matter under which free name a value is set, if the expression is written with that name.", "quantifier": "every token list, accepted or not; every pair of contexts with the same configuration (and the same `*` when implicit multiplication is on); for variables: every history, every two names that can be set", "why_tests_cant": "It compares infinitely many pairs of contexts and expressions; a test fixes the names.", "anchors": ["prexel/src/evaluator.rs: rpn_eval, infix_to_rpn", "prexel/src/context.rs: DefaultContext, set_variable"]}
{"id": "C177", "title": "The circular array", "statement": "`CircularArray` never holds more than its capacity, which never changes. `get`, indexing, `iter`, `into_iter`, `len` and `last` show the same elements; indexing at or beyond the length panics and `get` returns none there. `push` appends, and drops the oldest element only if the array is full; `pop` takes the newest, `remove` the one asked for and closes the gap, and a write through `get_mut` or an index changes that place alone. What was pushed is returned, held in the order of the pushes, or was dropped when the array was full: nothing is made up or doubled. Two arrays are equal exactly if they have the same capacity and the same elements in order; in the ordering the first place that differs decides, then the length, then the capacity. An array of capacity zero panics at the first push.", "quantifier": "every element type, every capacity and every history of calls", "why_tests_cant": "the state depends on the whole history and the capacity; a test fixes both.", "anchors": ["eval/src/collections/carray.rs CircularArray"]}
