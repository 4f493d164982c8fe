# A Lean 4 model of prexel-rs and proofs about it

Code: /repo (Neo-Ciber94/prexel-rs, pinned). Model and proofs: /verif/lean, Lean 4.33.0, core library only.
Properties: /verif/properties.jsonl (C01...). Status and theorem names per property: /verif/MANIFEST.json.
Experiments with wrong programs: /verif/seeded/LOG.jsonl.
`tools/gen_properties.py` and `tools/gen_manifest.py` (with `tools/claims.py`) write the two JSON files.

## Layout

* `Verif/Model/*`    - the model. One Lean definition per Rust function; each cites file and lines and names its simplifications.
* `Verif/Spec/*`     - small specifications that do not use the model's helpers: syntax trees with their printing and
  meaning, bracket balance, abstract maps, exact arithmetic, bit vectors, listings, ...
* `Verif/Lemmas/*`   - helper lemmas and inductions. Nothing here is a claim.
* `Verif/Props/*`    - the property theorems `Cnn_...`, one file per area, each followed by `example`s which show that concrete
  non-trivial inputs meet the hypotheses.
* `Verif/Examples/*` - concrete number types and contexts used by those examples and by the counterexamples.

To review a property: read its statement in properties.jsonl, the theorems that MANIFEST.json names, the definitions
in `Spec` these use, and the model definitions they are about.

## Modelling conventions

* `Result<T>` becomes `Res T = ok v | err kind | panic`. `prexel::error::Error` compares by kind only
  (error.rs 75-80), so the kind is modelled and the message is not. A panic is an explicit value, and so is a loop that
  would not end (the factorial loop of floats: the model gives it fuel and calls exhaustion a panic).
* Strings are `List Char` (a Rust `str` is a sequence of Unicode scalar values; byte lengths are recomputed where
  the code uses them).
* `Vec` used as a stack: the operator stack is a list whose head is the top; output is a list in order.
* The number type `N` is abstract with `parse : Str -> Option N` for `FromStr`. Evaluator, tokenizer, splitter and context
  theorems hold for all `N`.
* `trait Context` becomes a structure of look-up functions (`Ctx`): what evaluation can observe. The concrete
  `DefaultContext` is the separate model `Context`, whose `view` is a `Ctx`.
* Registered functions are functions `List N -> Res N`: a function with hidden state (random numbers) is modelled with the draw as a
  parameter of the context, so a theorem for all contexts holds for every draw. Two calls in one expression get the
  same draw for the same arguments: that is a simplification.
* `usize`/`Vec` sizes are unbounded (memory exhaustion is not modelled); `Precedence(u32)` is a `Nat`.
* Debug and release builds differ in the model by a flag `debug` (overflow checks, `debug_assert`, `cfg!(debug_assertions)`).
* The default-on feature `docs` is a flag of the model's tables where it changes behaviour.

## Plan per property

"Witness" means: the code violates the property, and the theorem `..._counterexample` proves that with a concrete input or, where
possible, for every input of a class; the theorem `..._partial` is the part which holds.

| Id | What is modelled | How it is proved |
|----|------------------|------------------|
| C01, C02 | evaluator.rs in full (`infix_to_rpn`, `rpn_eval`, all helpers), arbitrary context | induction on the syntax tree with a loop lemma for the shunting-yard state |
| C03 | same | existence and uniqueness of the tree by induction on the chain |
| C04, C05, C07, C08 | same | invariants of the loop by induction over the token list |
| C06, C09, C10 | same | simulation relation between two runs of the loop |
| C11-C13 | same | positive part from C01; witness |
| C14-C16, C20-C22 | tokenizer.rs in full | case analysis, induction over the raw words |
| C17-C19 | utils/splitter.rs in full | induction over the input |
| C23 | composition of the above | composition of C18, C22 and C01 |
| C24-C30, C55 | context.rs, HashMap as association list keyed by (hash bytes, Eq) | invariants over operation histories, refinement to an abstract map; witness |
| C31 | the five constructors of built-in contexts | all insertions succeed, by evaluating the name tables symbolically |
| C32 | precedences of the built-in operators | instance of C01, C03 |
| C33-C38, C58, C59 | ops/checked.rs, ops/unchecked.rs, ops/mod.rs, num.rs over two's complement integers of any width | exact rational/integer meaning of the tree, induction; witness |
| C39, C40, C60 | binary/mod.rs over 128 bit two's complement | digit induction, BitVec; witness |
| C41-C44, C61-C63 | eval/src/collections/carray.rs, eval/src/repl/* as a state machine over key events | refinement to a list of lines, invariants; witness |
| C45-C47, C78, C79, C81 | prexel-server models and services, eval/src commands | case analysis, permutation argument, comparison of the two programs' contexts; witness |
| C48-C50, C64-C69 | decimal.rs, utils/decimal_ext.rs, over an abstract bounded decimal type | induction on the exponent and on trees, contract `Dec.Laws`; witness |
| C51 | utils/numeric_traits.rs macro | simulation between wrapper and field; witness |
| C52, C70-C74 | complex.rs, num/complex functions over an abstract component type | field identities in the rationals, contract `Cx.Exact`; witness |
| C53 | evaluator.rs | multiset and order invariants of the loop |
| C54 | utils/ignore_case_str(ing).rs | order axioms; witness for the hash |
| C56 | unary operators of the evaluator | induction on the tree; witness |
| C57 | the feature flag | comparison of the tables; witness |
| C75-C77 | two contexts over related number types | one simulation theorem for tokens, extended to text and to contexts built by the same operations |
| C80 | all of evaluation over machine numbers | no step panics, with the number of arguments bounded by the number of tokens; witness |

Rows added later are in the section "Added later" at the end.

## Trusted base

* Lean 4.33.0's kernel. Axioms used by the theorems: at most `propext`, `Classical.choice`, `Quot.sound`. No axiom is added.
* The reading of the Rust source recorded in the comments of `Verif/Model`.
* Contracts: facts about code outside /repo. Each is a structure or a hypothesis of the theorems which need it and is never
  asserted, and each has an instance in `Verif/Examples`, so that no theorem is vacuous.

| Contract | Where | What it says |
|----------|-------|--------------|
| `Keys`, `Lowercase` | Model/IgnoreCase | how `HashMap` finds a key (equal hash bytes and `Eq`), `char::to_lowercase` (agrees with ASCII lower case on ASCII, idempotent where used) |
| `F64`, `FloatNum` | Model/Numeric, Model/Wrapped | f64 as an abstract type with operations: rounding matters only where a theorem takes `F64.Whole`, `F64.Rounds`, `F64.Hyperbolic` or `PowerContract` |
| `B64`, `B64.Libm` | Model/Binary64, Model/DoubleText | an instance of `F64` that is IEEE 754 binary64 itself: sums, differences, products, quotients, remainders, comparison, `round`, `floor`, `ceil`, `abs`, the constants, `from_str` and `Display` computed by exact rationals and one rounding function; the transcendental functions and the random draw are parameters |
| `D96`, `D96.Lib` | Model/Decimal96 | an instance of `Dec` that is `rust_decimal::Decimal` as documented: sign, 96 bits, scale up to 28, one rounding half to even per operation; `Lemmas/Decimal96` proves `Dec.Laws` and `TiesToEven` for it, so that no theorem on decimals rests on an unsatisfied contract. The conversions to and from `f64` and texts that are not plain numerals are parameters; nothing is claimed about the scale of a quotient |
| `F64.Whole` | Spec/Floats | finite floats as rationals: comparison, `round`, `floor`, `ceil` and the distance to the nearest whole number are exact |
| `F64.Rounds` | Spec/Floats | in-range sums and products are the exact ones, rounded by a monotone function that keeps floats; a random draw is in [0, 1) |
| `F64.Hyperbolic` | Props/Area | crude lower bounds for `to_degrees`, `asinh`, `sinh` |
| `Libm.Powers` | Props/DoublePowers | `f64::powf` with whole exponents: exact where the power is a double, else within 2^-52 of it |
| `PowerContract` | Props/Powers | integers up to 2^53 convert exactly and powers among them are exact; floats beyond 2^53 are even |
| `Num`, `SInt` | Model/Numeric | signed machine integers of any width: `checked_*` refuse what does not fit, plain operators panic (debug) or wrap (release), as documented in the standard library; i128 to f64 conversions are parameters |
| `Dec`, `Dec.Laws` | Model/Decimal, Spec/Decimal | rust_decimal: checked operations return the exact value when it is representable, the documented panics |
| `BigDec`, `Num.Unbounded` | Model/BigDecimal, Spec/Unbounded | crate bigdecimal 0.1: exact sums, differences and products, comparison by value; quotients, remainders and conversions to and from f64 are parameters; the scale (i64) is unbounded |
| `Cx`, `Cx.Exact`, `Cx.Draws` | Model/Complex, Spec/Complex | num-complex: the formulas of its documentation over a component type that computes as the rationals do; random draws within the asked bounds |
| `Consistent`, `SameFloats`, `NoNumberNames` | Spec/Simulation | the checked and plain operators of one type agree; two widths convert to f64 alike; the name of no function is read as a number |
| `Tty`, `Screen`, `Console` | Model/Terminal | a terminal with rows of a fixed number of columns and a width for each character; stdout is held back until a newline or a flush, stderr is not; crossterm's cursor and clear commands act at once |
| `RateStore` | Model/RateLimit | actix-ratelimit's memory store: a new interval begins with a request that finds no entry, 99 more are passed on until it ends after 60 seconds; base64 as documented; `remote_addr` of actix-web 3 is address and port |
| `Decodes`, `readCookies` | Props/Cookie, Model/Cookie | actix-web 3 and cookie 0.14: a `Cookie` header is cut at semicolons, one part without `=` makes reading fail, texts without percent signs mean themselves |
| `Listing.Readable` | Spec/Apps | no listed name is a literal of the number type |

Not modelled: terminal failures; actix beyond
its cookies, serde, clap and HTTP. JSON is modelled separately (Model/Json: what serde_json 1.0 and the
derived implementations of serde do with the types of the server, from their documentation and source as remembered, since
neither crate is in the repository); elsewhere the outcome of reading a body is an argument of the handler;
transcendental functions of f64 beyond the contracts above, in particular the numerics of gamma.rs;
rust_decimal's and num-complex's own code; random number generators; memory limits; benches, and the examples other than logical_ops.rs.

## Added later

| Property | What is modelled | How it is proved |
|----------|------------------|------------------|
| C82, C84, C85 | the functions of ops/mod.rs over an abstract f64 | case analysis over the tables of Spec/Floats, for every argument and context history; witness that unchecked results escape |
| C83 | rounding of floats with snapping | rational arithmetic from `F64.Whole`; a counterexample for every number closer than 1e-10 to a whole number |
| C86 | all built-in functions | every function table entry refuses what it does not take; `takes` is the specification |
| C87 | `random` | monotone rounding, `F64.Rounds` |
| C88 | integer powers through f64 | `PowerContract`; parity for the counterexample |
| C89 | area functions | what they compute (proved), and that it is no inverse |
| C90 | `checked_sqrt` with rounding of every operation | error analysis over the rationals (`unit` is the relative rounding error of the contract), loop invariant, comparison with Mathlib's `Real.sqrt`. Whether the loop ends: Heron's method over the integers in units of the 28th digit with rounding half to even (contracts `TiesToEven`, `SqrtClose`, `SqrtExact` of `Spec/Rounding.lean`), by descent to the two neighbours of the root; the inputs on which it alternates for ever are found by a congruence modulo 10^28 |
| C91 | `checked_cbrt` | real Newton iteration, for either sign: error shrinks by 0.7 for 70-76 steps, then quadratically; rounding error of each step; counterexamples by direct computation of the first step and by a lower bound on the iterates |
| C92 | `checked_ln` with rounding of every operation | scaling loop invariant, Mathlib's series for `log`, rounding error of each step, snapping of `approx`; counterexample by a lower bound on the result |
| C93 | `checked_log` | C92 and the digits of `log 10`; the scaling loop on powers of ten computed exactly |
| C94 | `checked_sin`, `checked_cos`, `checked_tan`, `to_radians` | pi to 28 digits (Machin), Taylor series with the rounding of every operation, remainder of Taylor from Mathlib's exponential bound, snapping of `approx`; multiples of 45 degrees are far from whole numbers of radians by a continued fraction of pi; counterexample at 18·10^27 degrees |
| C95 | `checked_asinh`, `checked_acosh`, `checked_atanh` | the square root and logarithm bounds, Lipschitz bounds of the real functions |
| C96 | `checked_exp` | the continued fraction converges to the exponential (series of spherical Bessel functions), error of every step; counterexamples by interval arithmetic in the kernel and by the recurrence of the continued fraction at a large argument |
| C97 | `sinh`, `cosh`, `tanh` | C96; counterexample from that of C96 |
| C98 | `checked_powd` | C92 and C96 |
| C99 | rounding functions | contract |
| C100 | `to_radians`, `to_degrees` | rounding error of each operation, relative to the angle; where the degrees do not fit, a panic (counterexample) |
| C101 | `checked_atan`: argument reduction and the continued fraction | the fraction as a ratio of integrals of powers of the tangent (recurrence), rounding error of each step |
| C102 | `acsch`, `asech`, `acoth` | evaluation; counterexample |
| C103 | the prompt as drawn: repl_writer.rs, writer.rs over a model terminal | invariant: the row is the prompt, the line and blanks; counterexamples for wide characters and long lines |
| C104 | the same, with a callback that records what was entered and printed | invariant over the rows above; counterexample |
| C105 | the same; `Session.run` | induction over the keys |
| C106 | the same, with and without colours | relation between the two consoles kept by every step |
| C107 | the shunting-yard loop on two token lists that differ in one bracketed part | simulation of the two runs: same operator stack, same counters, positions shifted, output equal up to the two postfix forms |
| C108 | `Display`/`FromStr` of integers, tokenizer, unary minus | digits of `toString` and of the parser are inverse; counterexamples for MIN and binary; `Display`/`FromStr` of doubles (Model/DoubleText), rust_decimal (Model/Decimal96) and num-complex over doubles (Model/ComplexText) |
| C109 | `main` of the command line program on two streams of coloured characters; the command is what clap has read | cases of the outcome; the result by C45's lemma; counterexample for the status |
| C110 | the table loops of `list.rs`: width, padding by bytes, one row per entry | induction over the rows; built-in names are ASCII without blanks |
| C111 | maps keep the order of insertion (`LinkedHashMap`, default feature); registration | exact keys after a registration, for every context; the built-in contexts computed from their tables |
| C112 | `rpn_eval` in a state monad (`Model/Effects`), of which the evaluator without effects is shown to be a special case | induction over the tree; a relation between a run and the run with a log, closed under bind |
| C113 | `get_rate_limit_identifier` with base64 written out over the UTF-8 bytes | the encoding without padding is injective, by induction over groups of three bytes |
| C114 | the store of actix-ratelimit (contract) with the server's settings, over a history of requests | two intervals: a potential over the remaining requests; refusals by an invariant that counts the answered requests since the interval began. Several workers (`Model/Workers`): each worker does what it would do alone, and the requests are split by worker |
| C115 | splitter rules; a relation `Written` between words and text | both directions by induction: longest match of each rule; corollary with C23 |
| C116 | contexts that keep the registered functions whole, with aliases and descriptions (`Model/Info`), and the tables of descriptions; projecting the behaviour gives the context of the other theorems | invariant over the history: each entry's aliases lead to the same function; tables by evaluation |
| C117 | tokenizer and evaluator; a relation between tokens (and words) that name the same thing | simulation: both runs of the shunting-yard and of the RPN machine stay related; counterexample by evaluation |
| C118 | tokenizer, evaluator and registration once more, with the messages of their errors (`Model/Messages`); what each message claims is in `Spec/Messages` | forgetting the messages gives the other model (erasure); invariant of the shunting-yard loop: what has been read, which tokens are kept; case analysis of each failure |
| C119 | the two builders as chains of calls (`Model/Builder`); the rules are those of `Model/Splitter` | induction on the chain; invariant: all rules are well-behaved, then induction on the text; counterexample by evaluation |
| C120 | `Model/Cost`: the number of rounds of every loop, next to the model of its result | potential argument: what is on the stacks is paid for when it is pushed; induction on the token list and on the text; counterexamples by induction on the rounds |
| C121 | the context of prexel/examples/logical_ops.rs (`Model/Logical`), on top of the models of registration, splitter, tokenizer and evaluator | the words of an expression stand for the rendering of a well-formed tree (induction), then C23 and C01 |
| C122 | evaluator; expressions with and without multiplication signs are trees (`Spec/Products`) | the tree with signs and parentheses is dictated by the context too (induction), then C01 on both; counterexample by evaluation |
| C123 | splitter, tokenizer and evaluator | making all brackets round commutes with every step of splitter, tokenizer and shunting-yard (functional simulation), where the stack of open brackets is the one of `Brackets` |
| C124 | registration (`Context.run`) and look-ups | success of an operation and its effect on all look-ups are characterised; two neighbours can be swapped, look-alike contexts stay alike, induction over the permutation |
| C125 | evaluator with messages (`Model/Messages`); the first failing step is a relation on trees (`Spec/FirstFault`) | the loop over the postfix form computes value or error of the tree (induction), which agrees with the relation; C23 for texts |
| C126 | the cookie middleware and the limiter behind it (`Model/Cookie`); the cookies of actix-web from its documentation | reading of printed headers by induction; the cookie written by the middleware has a part without `=`, so it cannot be read |
| C127 | the string helpers (`Model/Text`) | induction over the text with the flag of the loop, position by position |
| C128 | the messages of the built-in functions (`Model/BuiltinMessages`), integer calculation by hand (`Spec/Blame`) | C118 says where every error comes from, and the functions of the tables have no message except `random` and `log`; structural induction for the calculation, C32 for the text |
| C129 | the placing rules (`Spec/Placed`): each token against the one before, brackets by a stack | existence: induction over the length, putting one operand and operator in front of the tree of the rest (`graft`, Lemmas/Placed); uniqueness: every tree is such a graft (`ungraft`, Lemmas/PlacedUnique), induction over the length; value by C01 |
| C130 | IEEE 754 binary64 (`Model/Binary64`); doubles and nearest doubles are specified on rationals (`Spec/Binary64`) | the rounding function picks the nearest multiple of the spacing, and no double lies between (Lemmas/Binary64, Lemmas/Doubles); uniqueness of the nearest double |
| C131 | as C130; expressions are arithmetic trees | structural induction: a double is rounded to itself; C32 for texts; 0.1 + 0.2 evaluated in the kernel as witness |
| C132 | `f64::from_str` and `Display` (`Model/DoubleText`) | the reader splits a numeral into digits and exponent and computes what `Stands` says; rounding as in C130; printing searches the shortest digits that read back |
| C133 | the loop of Factorial over binary64 | induction over the loop with a relative error per product; overflow to infinity; beyond 2^53 subtracting 1 has no effect |
| C134 | the tokenizer asks for numbers before it asks for variables | an identifier is one piece for the splitter, and no integer; `from_str` reads three words; witnesses |
| C135 | `Config` and its builder methods, `Grouping` | induction over the chain of calls from its end; C30, C01 and C08 for evaluation |
| C136 | as C130; the exact value of a tree is a rational number | structural induction with a multiplicative (positive numbers) or additive (whole numbers) error that grows by one rounding per operation |
| C137 | `from_str_radix` of the integer types, as the tokenizer and the server call it | induction over the digits in both directions; the splitter keeps a run of digits in one piece |
| C138 | the digits, the point and the exponent of `f64::from_str`; the numeric rule of the splitter | the parts are taken apart at the letter; the splitter ends a numeral at a letter, so that both texts have the same pieces; witness |
| C139 | `Display` and the methods of `Token` | the first and third letters tell the kinds apart, except the brackets; the rest is cancelled; case analysis |
| C140 | `Error`, `ErrorKind::as_str` | case analysis |
| C141 | the expression for the port in `main`, `u16::from_str` | induction over the digits, with the overflow checks |
| C142 | `ReplBuilder` | induction over the chain of calls from its end |
| C143 | `D96`: reading, printing, sums, differences, products; `Spec/Places` gives the places of school arithmetic | digits of equal length and value are equal; induction over the tree |
| C144 | `Complex<f64>`: the operators of num-complex over the model of binary64 (Model/ComplexText) | induction on the tree: each step of a product or quotient is exact because its exact result is a double; for whole parts the sizes bound all intermediate results |
| C145 | the trait `ReplTheme`, its three implementations and the builder, over the terminal model (Model/Theme) | one call follows the palette and leaves the writer without colours; induction on the calls |
| C146 | `Model/Json`: how serde_json writes texts and the answer; `Spec/Json` is the grammar of RFC 8259 | escapes spell their character; the grammar is unambiguous because the reader inverts it |
| C147 | `Model/Json`: a reader of JSON texts, the derived `Deserialize` of the request; `Spec/Json` gives the grammar and what a request is | mutual induction on the grammar (completeness) and on the depth of the reader (soundness); the fields by induction on the members |
| C148 | `Json.float`: how serde_json reads a number into an f64; `Display` of f64; reading of the variable per type (Model/Json, DoubleText, Decimal96) | powers of ten up to 10^22 are doubles, so one rounding remains; two decimals of at most 15 digits that are rounded to the same double are equal, so the shortest text is the written number; products of rounding errors for more digits |
| C149 | reading and printing of f64 (Model/DoubleText) | as for C148 |
| C150 | Model/Query: the query string read as `application/x-www-form-urlencoded` (crate serde_urlencoded, from its documentation), the two optional parameters, a request to `/eval` and to the listings with their query. Spec/Query says what a query says. | The parts of a text and its decoding are unique (induction); then C147, C45 and C46 for the answer. |
| C151 | the three functions in all four families (Model/Ops, Model/Decimal, Model/Complex); Spec/Aggregates writes the expressions out as tokens | Both sides are a fold from the left (C01 for the tree of the written expression, induction on the list); exactness from the contracts of decimals and from C84 for doubles. |
| C152 | Model/JsonListing: the bodies of the three listings as `serde_json` writes them (from its documentation); Spec/JsonListing says what such a text lists, on the grammar of Spec/Json | The written text is derived in the grammar (induction on the list); uniqueness of reading from C146/C147. |
| C153 | `Culprits` tables by error kind; `eval` on any text through C118_blame; all functions of Ops, Decimal, Complex, Binary | `Kinds`: sets of error kinds of results, closed under `?`, loops by induction; tree part by mutual induction |
| C154 | Model/Constants: the digits of the 25 constants; the numbers they are named for, as reals of Mathlib | Intervals: pi by Machin's formula, e and the logarithms by partial sums with their remainders; the texts by C29/C31 and evaluation of one identifier |
| C155 | `rpn_eval` on arbitrary token lists | invariant of the shunting-yard loop (operands go out in order, operators are conserved): the place of an operand behind an operator cannot stay; direct run of the loop for operands followed by descending operators; counterexample by evaluation |
| C156 | Model/IteratorExt: the sorting adapters and the helpers for options; the standard library's sort is Lean's stable merge sort | permutation, order and stability from Lean's library; uniqueness by induction on the two lists |
| C157 | Model/BigDecimal: an unbounded integer and a scale, as crate bigdecimal documents it; any number type with exact unbounded arithmetic | C32 gives the value of the tree; induction on the tree against `Arith.ideal` over the rationals; the loop of factorials by induction on the number |
| C158 | `sqrt` over `f64` (Model/Binary64: the double nearest to the real root) behind the snapping of arguments | rounding of real numbers (Lemmas/RealRounding): nearest double, relative error; for `sqrt(x * x)` the distance of doubles with 53 digits against the error of the rounded square; powers of two separately, as their squares are exact |
| C159 | `Factorial` and `gamma` over `f64` for fractions | induction over the loop with the calculus of rounding errors of C136; subtraction of 1 is exact; at 3/2 Lanczos' sum is computed by the kernel, and sqrt(2π), e^-t and √π/2 are enclosed to 17 digits |
| C160 | `AbsFunction`, `SignFunction`, `TruncateFunction` over `f64` | the whole part and the sign of what the argument is taken for; snapping keeps the sign bit |
| C161 | the rounding functions and the sign of integers, converted to `f64` and back | an integer that is rounded is a whole number, which snapping and rounding leave alone; ties decide at the greatest integer |
| C162 | `sin`, `cos`, `tan` over `f64`: `to_radians`, the library, snapping | error of pi / 180 as a double and of the product, Lipschitz bounds, snapping cannot move a result that is near a whole number elsewhere; contract for the library |
| C163 | `asin`, `acos`, `atan`, `atan(y, x)` over `f64` | the same with 180 / pi; `Complex.arg` is the angle of a point |
| C164 | `ln`, `log` over `f64` | doubles other than 1 have logarithms of at least 2^-54 and at most 800, so that quotients stay in the range; error of the quotient |
| C165 | `exp`, `sinh`, `cosh`, `tanh` and reciprocals over `f64` | what a number is taken for is zero or at least 1e-10; bounds of the functions, error of the reciprocal |
| C166 | `csc`, `sec`, `cot`, `acsc`, `asec`, `acot` over `f64` | from C84, C162, C163; a snapped sine is 0 or at least 1e-11, so its reciprocal is rounded once and in the range |
| C167 | `max`, `min` over `f64` | places on the extended real line, independent of the comparison of the model; induction over the list with the first best so far |
| C168 | `to_radians`, `to_degrees` over `f64` | the constants pi / 180 and 180 / pi as doubles against bounds of pi, one rounding; what is taken for a whole number moves by at most 1.1e-10 |
| C169 | `exp`, `ln`, `tan`, `atan` over `f64` | from C162 to C165; arctangent is Lipschitz, logarithm close to |
| C170 | `+ - * / mod` and signs over `f64` with infinite and NaN operands | induction on the expression for NaN; cases of the operands, compared in Mathlib's extended reals |
| C171 | `PowOperator` over `f64`, `powf` of the library with a contract | the accuracy of one power; the product of two by one rounding; rounding the sum of the exponents moves the power by the rounding times the logarithm |
| C172 | `sin`, `cos`, `tan` over `f64` | from C162; the roundings of squares, sums, quotients and angles |
| C173 | `asinh` to `acoth` over `f64` | which float they compute is C89; areas of doubles are below 1000, so that the conversion to degrees is accurate |
| C174 | `sin(asin x)`, `cos(acos x)`, `asin(sin x)`, `acos(cos x)` over doubles, with the snapping to whole numbers | C162, C163 and C82; a snapped sine is at most 1 (`snap_unit`); sines of angles between -90 and 90 degrees are apart at least by 2 (d / pi)^2 and by d cos / pi (`sine_apart`); the loss is proved as `C174_lost` |
| C175 | `log` of products and quotients, `exp` of sums over doubles | C164, C82 and the contract of `exp`; products and quotients are rounded to 113e-18 (`middle_rounded`), exponentials are 111e-12 from the real ones because of the snapping (`exp_near`) |
| C176 | evaluation of tokens in two contexts whose names differ | a third context in which the names of the second have a long prefix: C09 (names that do not occur do not matter) and C117 (names of the same thing are equally good) chained; for variables C24 |
| C177 | the rest of eval/src/collections/carray.rs, as histories of calls | by place (`getElem?`) for each call; by induction on the history with an invariant (`Sound`) and a permutation that accounts for every pushed element |
