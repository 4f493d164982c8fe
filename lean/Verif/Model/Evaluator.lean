import Verif.Model.Basic
/-!
# The evaluator

Models `prexel/src/evaluator.rs`: `rpn_eval`, `infix_to_rpn` and the `shunting_yard` helpers, function by function.

Stacks (`operators`, `arg_count`, `grouping_count`, `values`) are lists whose head is the top (`Vec::last`). `output` is a list
in order (`Vec::push` appends). Failing `debug_assert`s and out-of-range indices are `Res.panic` (debug profile);
`Verif.Props.Evaluator` shows they are unreachable, so the release profile behaves the same.
-/

namespace Prexel
variable {N : Type}

/-- The four local vectors of `shunting_yard::infix_to_rpn`, prexel/src/evaluator.rs 322-325. -/
structure SY (N : Type) where
  output : List (Token N)
  ops : List (Token N)
  argc : List Nat
  grp : List Nat
  deriving DecidableEq

/-- Initial values, prexel/src/evaluator.rs 322-325. -/
def SY.init : SY N := ⟨[], [], [], []⟩

/-- `check_comma_position`, prexel/src/evaluator.rs 450-481. `usize` underflow in `last - 1` (474) is a panic. -/
def checkCommaPosition (tokens : List (Token N)) (grp : List Nat) (pos : Nat) : Res Unit :=
  if pos = 0 then .err .invalidInput
  else if (tokens[pos - 1]?).any Token.isGopen then .err .invalidInput
  else if (tokens[pos + 1]?).any Token.isGclose then .err .invalidInput
  else match grp with
    | [] => .ok ()
    | 0 :: _ => .panic
    | (g + 1) :: _ => if (tokens[g]?).any Token.isFunction then .ok () else .err .invalidInput

/-- `push_number`, prexel/src/evaluator.rs 483-495. -/
def pushNumber (ctx : Ctx N) (st : SY N) (token : Token N) : SY N :=
  match st.ops with
  | .unary op :: ops =>
    if (ctx.getUnary op).isSome then { st with output := st.output ++ [token, .unary op], ops := ops }
    else { st with output := st.output ++ [token] }
  | _ => { st with output := st.output ++ [token] }

/-- `push_unary_function`, prexel/src/evaluator.rs 497-530. -/
def pushUnaryFunction (ctx : Ctx N) (st : SY N) (token : Token N) (name : Str) : Res (SY N) :=
  match ctx.getUnary name with
  | some unary =>
    match unary.notation_ with
    | .pre => .ok { st with ops := token :: st.ops }
    | .post =>
      if st.output.isEmpty then .err .invalidExpression
      else .ok { st with output := st.output ++ [token] }
  | none => .err .invalidInput

/-- The condition of prexel/src/evaluator.rs 563-565: the operator on the stack is popped before the incoming one. -/
def popsBefore (top operator : BinFn N) : Bool :=
  decide (top.prec > operator.prec) || (decide (top.prec = operator.prec) && decide (top.assoc = Assoc.left))

/-- The `while` loop of `push_binary_function`, prexel/src/evaluator.rs 546-577: the remaining operator stack and the output. -/
def popForBinary (ctx : Ctx N) (operator : BinFn N) : List (Token N) → List (Token N) → List (Token N) × List (Token N)
  | [], output => ([], output)
  | t :: ops, output =>
    match t with
    | .gopen _ => (t :: ops, output)
    | .function _ => popForBinary ctx operator ops (output ++ [t])
    | .binary op =>
      match ctx.getBinary op with
      | some top => if popsBefore top operator then popForBinary ctx operator ops (output ++ [t]) else (t :: ops, output)
      | none => (t :: ops, output)
    | _ => (t :: ops, output)

/-- `push_binary_function`, prexel/src/evaluator.rs 532-581. -/
def pushBinaryFunction (ctx : Ctx N) (st : SY N) (token : Token N) (name : Str) : Res (SY N) :=
  match ctx.getBinary name with
  | none => .err .invalidInput
  | some operator =>
    let r := popForBinary ctx operator st.ops st.output
    .ok { st with ops := token :: r.1, output := r.2 }

/-- The popping part of the loop of `push_grouping_close`, prexel/src/evaluator.rs 595-617: everything above the topmost
grouping open moves to the output; the open symbol is removed. `none` if there is no open symbol. -/
def popToOpen : List (Token N) → List (Token N) → Option (Char × List (Token N) × List (Token N))
  | [], _ => none
  | .gopen c :: ops, output => some (c, ops, output)
  | t :: ops, output => popToOpen ops (output ++ [t])

/-- `push_grouping_close`, prexel/src/evaluator.rs 583-627. -/
def pushGroupingClose (ctx : Ctx N) (groupClose : Char) (st : SY N) : Res (SY N) :=
  match popToOpen st.ops st.output with
  | none => .err .invalidExpression
  | some (c, ops, output) =>
    match ctx.config.getGroupSymbol c with
    | none => .err .invalidExpression
    | some (_, close) =>
      if close = groupClose then
        match st.argc, ops with
        | n :: argc, .function f :: ops' =>
          .ok { st with output := output ++ [.argCount (n + 1), .function f], ops := ops', argc := argc }
        | _, _ => .ok { st with output := output, ops := ops }
      else .err .invalidExpression

/-- The popping loop of `push_comma`, prexel/src/evaluator.rs 645-655; the open symbol stays. -/
def popUntilOpen : List (Token N) → List (Token N) → Option (List (Token N) × List (Token N))
  | [], _ => none
  | .gopen c :: ops, output => some (.gopen c :: ops, output)
  | t :: ops, output => popUntilOpen ops (output ++ [t])

/-- `push_comma`, prexel/src/evaluator.rs 629-661. -/
def pushComma (st : SY N) : Res (SY N) :=
  match st.argc with
  | [] => .err .invalidExpression
  | n :: argc =>
    match popUntilOpen st.ops st.output with
    | none => .err .invalidExpression
    | some (ops, output) => .ok { st with output := output, ops := ops, argc := (n + 1) :: argc }

/-- The empty-group test of the `GroupingClose` arm, prexel/src/evaluator.rs 371-390: `true` means the error is returned.
`none` is an out-of-range index. -/
def emptyGroup (ctx : Ctx N) (tokens : List (Token N)) (pos : Nat) (c : Char) : Option Bool :=
  if pos > 1 then
    match tokens[pos - 1]? with
    | none => none
    | some (.gopen s) =>
      if ctx.config.getGroupOpenFor c = some s then
        match tokens[pos - 2]? with
        | none => none
        | some t => some (!t.isFunction)
      else some false
    | some _ => some false
  else some false

/-- The `match token` of the main loop, prexel/src/evaluator.rs 329-406. `next` is `token_iterator.peek()`. -/
def dispatch (ctx : Ctx N) (tokens : List (Token N)) (pos : Nat) (token : Token N) (next : Option (Token N)) (st : SY N) :
    Res (SY N) :=
  match token with
  | .number _ => .ok (pushNumber ctx st token)
  | .variable_ _ => .ok (pushNumber ctx st token)
  | .constant _ => .ok (pushNumber ctx st token)
  | .binary name => pushBinaryFunction ctx st token name
  | .unary name => pushUnaryFunction ctx st token name
  | .function _ =>
    if !ctx.config.customFunctionCall && !(next.any (fun t => t.containsSymbol '(')) then .err .invalidInput
    else .ok { st with argc := 0 :: st.argc, ops := token :: st.ops }
  | .gopen _ =>
    .ok { st with ops := token :: st.ops, grp := if st.argc.isEmpty then st.grp else pos :: st.grp }
  | .gclose c =>
    (pushGroupingClose ctx c st).bind fun st =>
      match emptyGroup ctx tokens pos c with
      | none => .panic
      | some true => .err .invalidInput
      | some false => .ok { st with grp := if st.argc.isEmpty then st.grp else st.grp.tail }
  | .comma =>
    (checkCommaPosition tokens st.grp pos).bind fun _ => pushComma st
  | _ => .err .invalidInput

/-- The condition under which the implicit multiplication block pushes a `*`, prexel/src/evaluator.rs 409-433. -/
def implicitMulHere (ctx : Ctx N) (token : Token N) (next : Option (Token N)) : Bool :=
  ctx.config.implicitMul &&
    match token, next with
    | .number _, some (.function _) => true
    | .number _, some (.constant _) => true
    | .number _, some (.variable_ _) => true
    | .number _, some (.gopen _) => true
    | .gclose _, some (.number _) => true
    | .gclose _, some (.variable_ _) => true
    | .gclose _, some (.constant _) => true
    | .gclose _, some (.function _) => true
    | .gclose _, some (.gopen _) => true
    | _, _ => false

/-- The implicit multiplication block, prexel/src/evaluator.rs 409-433: `*` goes straight on the operator stack. -/
def implicitMulBlock (ctx : Ctx N) (token : Token N) (next : Option (Token N)) (st : SY N) : SY N :=
  if implicitMulHere ctx token next then { st with ops := .binary ['*'] :: st.ops } else st

/-- One iteration of the main loop, prexel/src/evaluator.rs 328-434. -/
def syStep (ctx : Ctx N) (tokens : List (Token N)) (pos : Nat) (token : Token N) (next : Option (Token N)) (st : SY N) :
    Res (SY N) :=
  (dispatch ctx tokens pos token next st).bind fun st => .ok (implicitMulBlock ctx token next st)

/-- The main loop, prexel/src/evaluator.rs 327-434; `rest` are the tokens from position `pos` on. -/
def syLoop (ctx : Ctx N) (tokens : List (Token N)) : Nat → List (Token N) → SY N → Res (SY N)
  | _, [], st => .ok st
  | pos, t :: rest, st => (syStep ctx tokens pos t rest.head? st).bind fun st => syLoop ctx tokens (pos + 1) rest st

/-- The final flush, prexel/src/evaluator.rs 436-445. As in the code, only grouping *close* symbols are refused. -/
def flush : List (Token N) → List (Token N) → Res (List (Token N))
  | [], output => .ok output
  | t :: ops, output => if t.isGclose || t.isGclose then .err .invalidExpression else flush ops (output ++ [t])

/-- `infix_to_rpn`, prexel/src/evaluator.rs 291-297 and 317-448. -/
def infixToRpn (ctx : Ctx N) (tokens : List (Token N)) : Res (List (Token N)) :=
  (syLoop ctx tokens 0 tokens SY.init).bind fun st => flush st.ops st.output

/-- The `match token` of the loop of `rpn_eval`, prexel/src/evaluator.rs 138-261, on the value stack and the pending argument
count. The `None` branch of 238-243 builds an error without returning it, so missing arguments are simply absent. -/
def rpnStep (ctx : Ctx N) (token : Token N) (values : List N) (argc : Option Nat) : Res (List N × Option Nat) :=
  match token with
  | .number n => .ok (n :: values, argc)
  | .variable_ name => (Res.ofOption (ctx.getVariable name) .invalidInput).bind fun n => .ok (n :: values, argc)
  | .constant name => (Res.ofOption (ctx.getConstant name) .invalidInput).bind fun n => .ok (n :: values, argc)
  | .argCount n => if argc.isSome then .panic else .ok (values, some n)
  | .unary name =>
    (Res.ofOption (ctx.getUnary name) .invalidInput).bind fun func =>
      match values with
      | n :: values => (func.call n).bind fun r => .ok (r :: values, argc)
      | [] => .err .invalidExpression
  | .binary name =>
    (Res.ofOption (ctx.getBinary name) .invalidInput).bind fun func =>
      match values with
      | x :: y :: values => (func.call y x).bind fun r => .ok (r :: values, argc)
      | _ => .err .invalidExpression
  | .function name =>
    (Res.ofOption (ctx.getFunction name) .invalidInput).bind fun func =>
      (Res.ofOption argc .invalidInput).bind fun n =>
        (func (values.take n).reverse).bind fun r => .ok (r :: values.drop n, none)
  | _ => .err .invalidInput

/-- The loop of `rpn_eval`, prexel/src/evaluator.rs 137-262. -/
def rpnLoop (ctx : Ctx N) : List (Token N) → List N → Option Nat → Res (List N)
  | [], values, _ => .ok values
  | t :: rest, values, argc => (rpnStep ctx t values argc).bind fun r => rpnLoop ctx rest r.1 r.2

/-- The end of `rpn_eval`, prexel/src/evaluator.rs 264-269. -/
def rpnResult : List N → Res N
  | [v] => .ok v
  | _ => .err .invalidExpression

/-- `rpn_eval`, prexel/src/evaluator.rs 125-270, which is also `Evaluator::eval_tokens` (113-115). -/
def evalTokens (ctx : Ctx N) (tokens : List (Token N)) : Res N :=
  (infixToRpn ctx tokens).bind fun rpn => (rpnLoop ctx rpn [] none).bind rpnResult

end Prexel
