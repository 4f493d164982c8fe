import Verif.Model.Tokenizer
import Verif.Model.Context
/-!
# Error messages

Models `prexel/src/error.rs` and the messages of `prexel/src/tokenizer.rs`, `prexel/src/evaluator.rs` and `prexel/src/context.rs`. The rest of the model
keeps only the kind of an error; here the same functions are written once more with the errors they build. That forgetting the messages gives back the
other model is a theorem (`Lemmas/Messages`).

What `Debug` writes for a number, a string or a character, and `type_name::<N>()`, are parameters (`Debugs`). So are the messages of the functions and
operators of the context (`Inner`).
-/

namespace Prexel
variable {N V α β : Type}

/-- `Error`, prexel/src/error.rs 5-24: an `ErrorKind` alone, or with another error, which is a text everywhere in the crate. -/
structure Fault where
  kind : ErrorKind
  message : Option Str
  deriving DecidableEq, Repr

/-- `ErrorKind::as_str`, prexel/src/error.rs 54-70. -/
def ErrorKind.text : ErrorKind → Str
  | .overflow => str "Value has overflow"
  | .zero => str "Value is zero"
  | .nan => str "Value is 'not a number'"
  | .invalidInput => str "Invalid input"
  | .invalidArgumentCount => str "Invalid number of arguments"
  | .divisionByZero => str "Cannot divide by zero"
  | .negativeValue => str "Value is negative"
  | .positiveValue => str "Value is positive"
  | .empty => str "Empty input"
  | .invalidExpression => str "Invalid expression"
  | .unknown => str "Unknown error"

namespace Fault

/-- `Error::new`, prexel/src/error.rs 102-112. -/
def new (kind : ErrorKind) (message : Str) : Fault := ⟨kind, some message⟩

/-- `From<ErrorKind> for Error`, prexel/src/error.rs 209-216. -/
def simple (kind : ErrorKind) : Fault := ⟨kind, none⟩

/-- `Display for Error`, prexel/src/error.rs 218-225. -/
def text (e : Fault) : Str :=
  match e.message with
  | none => e.kind.text
  | some m => m

end Fault

/-- `prexel::Result<T>` with the whole error, or a panic. -/
inductive Told (α : Type) where
  | ok (v : α)
  | err (e : Fault)
  | panic
  deriving DecidableEq, Repr

namespace Told

/-- The `?` operator. -/
def bind (x : Told α) (f : α → Told β) : Told β :=
  match x with
  | ok v => f v
  | err e => err e
  | panic => panic

/-- `Option::ok_or_else(|| Error::new(kind, message))`. -/
def ofOption (o : Option α) (kind : ErrorKind) (message : Str) : Told α :=
  match o with
  | some v => ok v
  | none => err (.new kind message)

/-- The error of a function of the context, with its message. -/
def ofRes (r : Res α) (message : Option Str) : Told α :=
  match r with
  | .ok v => ok v
  | .err k => err ⟨k, message⟩
  | .panic => panic

/-- The outcome without the message: what the rest of the model computes. -/
def plain : Told α → Res α
  | ok v => .ok v
  | err e => .err e.kind
  | panic => .panic

end Told

/-- `Debug` of numbers, strings and characters, and `type_name::<N>()`. -/
structure Debugs (N : Type) where
  number : N → Str
  string : Str → Str
  char : Char → Str
  typeName : Str

/-- The message of the error that a function or operator of the context returns, `none` for an `Error::from(kind)`. -/
structure Inner (N : Type) where
  function : Str → List N → Option Str
  unary : Str → N → Option Str
  binary : Str → N → N → Option Str

/-- `Debug for Token`, prexel/src/token.rs 50-67. -/
def Token.debug (D : Debugs N) : Token N → Str
  | .number n => str "Number(" ++ D.number n ++ str ")"
  | .variable_ s => str "Variable(" ++ D.string s ++ str ")"
  | .constant s => str "Constant(" ++ D.string s ++ str ")"
  | .function s => str "Function(" ++ D.string s ++ str ")"
  | .binary s => str "BinaryOperator('" ++ D.string s ++ str "')"
  | .unary s => str "UnaryOperator('" ++ D.string s ++ str "')"
  | .argCount n => str "ArgCount(" ++ (toString n).toList ++ str ")"
  | .gopen c => str "ParenthesisOpen('" ++ D.char c ++ str "')"
  | .gclose c => str "ParenthesisClose('" ++ D.char c ++ str "')"
  | .unknown s => str "Unknown(" ++ D.string s ++ str ")"
  | .comma => str "Comma"

/-- `Debug` of a slice (Rust standard library). -/
def debugTokens (D : Debugs N) (ts : List (Token N)) : Str := str "[" ++ List.intercalate (str ", ") (ts.map (Token.debug D)) ++ str "]"

/-- `Debug` of an `Option<&str>` (Rust standard library). -/
def debugOption (D : Debugs N) : Option Str → Str
  | none => str "None"
  | some s => str "Some(" ++ D.string s ++ str ")"

/-- A name between backquotes, as in `format!("... `{}` ...", name)`. -/
def quoted (name : Str) : Str := str "`" ++ name ++ str "`"

namespace Told

/-- `check_comma_position`, prexel/src/evaluator.rs 450-481. -/
def checkCommaPosition (tokens : List (Token N)) (grp : List Nat) (pos : Nat) : Told Unit :=
  if pos = 0 then .err (.new .invalidInput (str "Misplaced comma"))
  else if (tokens[pos - 1]?).any Token.isGopen then .err (.new .invalidInput (str "Misplaced comma: `(,`"))
  else if (tokens[pos + 1]?).any Token.isGclose then .err (.new .invalidInput (str "Misplaced comma: `,)`"))
  else match grp with
    | [] => .ok ()
    | 0 :: _ => .panic
    | (g + 1) :: _ => if (tokens[g]?).any Token.isFunction then .ok () else .err (.new .invalidInput (str "Misplaced comma"))

/-- `push_unary_function`, prexel/src/evaluator.rs 497-530. -/
def pushUnaryFunction (ctx : Ctx N) (st : SY N) (token : Token N) (name : Str) : Told (SY N) :=
  match ctx.getUnary name with
  | some unary =>
    match unary.notation_ with
    | .pre => .ok { st with ops := token :: st.ops }
    | .post =>
      if st.output.isEmpty then .err (.new .invalidExpression (str "Misplace unary operator"))
      else .ok { st with output := st.output ++ [token] }
  | none => .err (.new .invalidInput (str "Unary operator " ++ quoted name ++ str " not found"))

/-- `push_binary_function`, prexel/src/evaluator.rs 532-581. -/
def pushBinaryFunction (ctx : Ctx N) (st : SY N) (token : Token N) (name : Str) : Told (SY N) :=
  match ctx.getBinary name with
  | none => .err (.new .invalidInput (str "Binary function " ++ quoted name ++ str " not found"))
  | some operator =>
    let r := popForBinary ctx operator st.ops st.output
    .ok { st with ops := token :: r.1, output := r.2 }

/-- `push_grouping_close`, prexel/src/evaluator.rs 583-627. -/
def pushGroupingClose (ctx : Ctx N) (groupClose : Char) (st : SY N) : Told (SY N) :=
  match popToOpen st.ops st.output with
  | none => .err (.new .invalidExpression (str "Misplace grouping symbol"))
  | some (c, ops, output) =>
    match ctx.config.getGroupSymbol c with
    | none => .err (.new .invalidExpression (str "Misplace grouping symbol"))
    | some (_, close) =>
      if close = groupClose then
        match st.argc, ops with
        | n :: argc, .function f :: ops' =>
          .ok { st with output := output ++ [.argCount (n + 1), .function f], ops := ops', argc := argc }
        | _, _ => .ok { st with output := output, ops := ops }
      else .err (.new .invalidExpression (str "Misplace grouping symbol"))

/-- `push_comma`, prexel/src/evaluator.rs 629-661. -/
def pushComma (st : SY N) : Told (SY N) :=
  match st.argc with
  | [] => .err (.new .invalidExpression (str "Comma found but not function"))
  | n :: argc =>
    match popUntilOpen st.ops st.output with
    | none => .err (.new .invalidExpression (str "Misplace comma"))
    | some (ops, output) => .ok { st with output := output, ops := ops, argc := (n + 1) :: argc }

/-- The `match token` of the main loop, prexel/src/evaluator.rs 329-406. -/
def dispatch (D : Debugs N) (ctx : Ctx N) (tokens : List (Token N)) (pos : Nat) (token : Token N) (next : Option (Token N)) (st : SY N) :
    Told (SY N) :=
  match token with
  | .number _ => .ok (pushNumber ctx st token)
  | .variable_ _ => .ok (pushNumber ctx st token)
  | .constant _ => .ok (pushNumber ctx st token)
  | .binary name => pushBinaryFunction ctx st token name
  | .unary name => pushUnaryFunction ctx st token name
  | .function name =>
    if !ctx.config.customFunctionCall && !(next.any (fun t => t.containsSymbol '(')) then
      .err (.new .invalidInput (str "Function arguments of " ++ quoted name ++ str " are not within a parentheses"))
    else .ok { st with argc := 0 :: st.argc, ops := token :: st.ops }
  | .gopen _ =>
    .ok { st with ops := token :: st.ops, grp := if st.argc.isEmpty then st.grp else pos :: st.grp }
  | .gclose c =>
    (pushGroupingClose ctx c st).bind fun st =>
      match emptyGroup ctx tokens pos c with
      | none => .panic
      | some true =>
        match ctx.config.getGroupOpenFor c with
        | some o => .err (.new .invalidInput (str "Empty grouping symbols: " ++ [o, c]))
        | none => .panic
      | some false => .ok { st with grp := if st.argc.isEmpty then st.grp else st.grp.tail }
  | .comma =>
    (checkCommaPosition tokens st.grp pos).bind fun _ => pushComma st
  | _ => .err (.new .invalidInput (str "Invalid token: " ++ token.debug D))

/-- One iteration of the main loop, prexel/src/evaluator.rs 328-434. -/
def syStep (D : Debugs N) (ctx : Ctx N) (tokens : List (Token N)) (pos : Nat) (token : Token N) (next : Option (Token N)) (st : SY N) :
    Told (SY N) :=
  (dispatch D ctx tokens pos token next st).bind fun st => .ok (implicitMulBlock ctx token next st)

/-- The main loop, prexel/src/evaluator.rs 327-434. -/
def syLoop (D : Debugs N) (ctx : Ctx N) (tokens : List (Token N)) : Nat → List (Token N) → SY N → Told (SY N)
  | _, [], st => .ok st
  | pos, t :: rest, st => (syStep D ctx tokens pos t rest.head? st).bind fun st => syLoop D ctx tokens (pos + 1) rest st

/-- The final flush, prexel/src/evaluator.rs 436-445. -/
def flush : List (Token N) → List (Token N) → Told (List (Token N))
  | [], output => .ok output
  | t :: ops, output =>
    if t.isGclose || t.isGclose then .err (.new .invalidExpression (str "Misplace parentheses")) else flush ops (output ++ [t])

/-- `infix_to_rpn`, prexel/src/evaluator.rs 291-297 and 317-448. -/
def infixToRpn (D : Debugs N) (ctx : Ctx N) (tokens : List (Token N)) : Told (List (Token N)) :=
  (syLoop D ctx tokens 0 tokens SY.init).bind fun st => flush st.ops st.output

/-- The `match token` of the loop of `rpn_eval`, prexel/src/evaluator.rs 138-261; `tokens` are those of the whole expression. -/
def rpnStep (D : Debugs N) (M : Inner N) (ctx : Ctx N) (tokens : List (Token N)) (token : Token N) (values : List N) (argc : Option Nat) :
    Told (List N × Option Nat) :=
  match token with
  | .number n => .ok (n :: values, argc)
  | .variable_ name =>
    (ofOption (ctx.getVariable name) .invalidInput (str "Variable " ++ quoted name ++ str " not found")).bind fun n => .ok (n :: values, argc)
  | .constant name =>
    (ofOption (ctx.getConstant name) .invalidInput (str "Constant " ++ quoted name ++ str " not found")).bind fun n => .ok (n :: values, argc)
  | .argCount n => if argc.isSome then .panic else .ok (values, some n)
  | .unary name =>
    (ofOption (ctx.getUnary name) .invalidInput (str "Unary operator " ++ quoted name ++ str " not found")).bind fun func =>
      match values with
      | n :: values => (ofRes (func.call n) (M.unary name n)).bind fun r => .ok (r :: values, argc)
      | [] => .err (.new .invalidExpression (debugTokens D tokens))
  | .binary name =>
    (ofOption (ctx.getBinary name) .invalidInput (str "Binary operator " ++ quoted name ++ str " not found")).bind fun func =>
      match values with
      | x :: y :: values => (ofRes (func.call y x) (M.binary name y x)).bind fun r => .ok (r :: values, argc)
      | _ => .err (.new .invalidExpression (debugTokens D tokens))
  | .function name =>
    (ofOption (ctx.getFunction name) .invalidInput (str "Function " ++ quoted name ++ str " not found")).bind fun func =>
      (ofOption argc .invalidInput (str "Cannot evaluate function " ++ quoted name ++ str ", unknown number of arguments")).bind fun n =>
        (ofRes (func (values.take n).reverse) (M.function name (values.take n).reverse)).bind fun r => .ok (r :: values.drop n, none)
  | _ => .err (.new .invalidInput (str "Unknown token: " ++ quoted (token.debug D)))

/-- The loop of `rpn_eval`, prexel/src/evaluator.rs 137-262. -/
def rpnLoop (D : Debugs N) (M : Inner N) (ctx : Ctx N) (tokens : List (Token N)) : List (Token N) → List N → Option Nat → Told (List N)
  | [], values, _ => .ok values
  | t :: rest, values, argc => (rpnStep D M ctx tokens t values argc).bind fun r => rpnLoop D M ctx tokens rest r.1 r.2

/-- The end of `rpn_eval`, prexel/src/evaluator.rs 264-269. -/
def rpnResult : List N → Told N
  | [v] => .ok v
  | _ => .err (.simple .invalidExpression)

/-- `rpn_eval`, prexel/src/evaluator.rs 125-270. -/
def evalTokens (D : Debugs N) (M : Inner N) (ctx : Ctx N) (tokens : List (Token N)) : Told N :=
  (infixToRpn D ctx tokens).bind fun rpn => (rpnLoop D M ctx tokens rpn [] none).bind rpnResult

/-- The branch of `tokenize` for operators, prexel/src/tokenizer.rs 119-150. -/
def operatorToken (D : Debugs N) (parse : Str → Option N) (ctx : Ctx N) (prev : Option Str) (w : Str) (isLast : Bool) : Told (Token N) :=
  let next := if isLast then none else some w
  (ofRes (isUnaryOp parse ctx prev w next) none).bind fun u =>
    if u then .ok (.unary w)
    else if prev.isNone || next.isNone then
      .err (.new .invalidExpression (str "Binary operations need 2 operands: " ++ debugOption D prev ++ str " " ++ w ++ str " " ++ debugOption D next))
    else .ok (.binary w)

/-- The `while` loop of `tokenize`, prexel/src/tokenizer.rs 84-175. -/
def tokenizeLoop (D : Debugs N) (parse : Str → Option N) (ctx : Ctx N) : Option Str → List Str → Told (List (Token N))
  | _, [] => .ok []
  | prev, w :: rest =>
    match parse w with
    | some n =>
      match rest with
      | w' :: rest' =>
        if ctx.config.complexNumber && w' == ['i'] then
          match parse (w ++ w') with
          | none => .err (.new .invalidInput (str "failed to parse " ++ quoted (w ++ w') ++ str " to " ++ quoted D.typeName ++ str "."))
          | some m => (tokenizeLoop D parse ctx (some w') rest').bind fun ts => .ok (.number m :: ts)
        else (tokenizeLoop D parse ctx (some w) (w' :: rest')).bind fun ts => .ok (.number n :: ts)
      | [] => .ok [.number n]
    | none =>
      if ctx.isVariable w then (tokenizeLoop D parse ctx (some w) rest).bind fun ts => .ok (.variable_ w :: ts)
      else if ctx.isConstant w then (tokenizeLoop D parse ctx (some w) rest).bind fun ts => .ok (.constant w :: ts)
      else if ctx.isFunction w then (tokenizeLoop D parse ctx (some w) rest).bind fun ts => .ok (.function w :: ts)
      else if ctx.isBinary w || ctx.isUnary w then
        (operatorToken D parse ctx prev w rest.isEmpty).bind fun t =>
          (tokenizeLoop D parse ctx (some w) rest).bind fun ts => .ok (t :: ts)
      else
        match otherToken ctx w with
        | some t => (tokenizeLoop D parse ctx (some w) rest).bind fun ts => .ok (t :: ts)
        | none => tokenizeLoop D parse ctx (some w) rest

/-- `Tokenizer::tokenize`, prexel/src/tokenizer.rs 69-178. -/
def tokenize (D : Debugs N) (parse : Str → Option N) (splitter : Str → List Str) (ctx : Ctx N) (s : Str) : Told (List (Token N)) :=
  if s.all isWhitespace then .err (.new .empty (str "Expression is empty")) else tokenizeLoop D parse ctx none (splitter s)

/-- `Evaluator::eval`, prexel/src/evaluator.rs 99-103. -/
def eval (D : Debugs N) (M : Inner N) (parse : Str → Option N) (splitter : Str → List Str) (ctx : Ctx N) (s : Str) : Told N :=
  (tokenize D parse splitter ctx s).bind (evalTokens D M ctx)

/-! ## Registration -/

/-- `check_token_name`, prexel/src/context.rs 748-777; `kind` is the `Display` of a `TokenKind` (729-746). -/
def checkTokenName (kind name : Str) : Told Unit :=
  if name.all isWhitespace then .err (.new .empty (kind ++ str " name is empty"))
  else if name.any isWhitespace then .err (.new .invalidInput (kind ++ str " names cannot contain whitespaces: " ++ quoted name))
  else if name.any isControl then .err (.new .invalidInput (kind ++ str " names cannot contain control characters: " ++ quoted name))
  else .ok ()

/-- `#[cfg(debug_assertions)] validate::check_token_name(kind, name)?`: only in debug builds. -/
def debugCheck (debug : Bool) (kind name : Str) : Told Unit := if debug then checkTokenName kind name else .ok ()

/-- The outcome of `add_function_as`, `add_unary_function_as` and `add_binary_function_as`, prexel/src/context.rs 179-203, 208-233 and 248-273: `kind`
is what is registered, `called` the words for it in the message. -/
def addAs (same : Str → Str → Bool) (debug : Bool) (kind called : Str) (m : Map V) (f : Named V) (name : Str) : Told Unit :=
  (debugCheck debug kind name).bind fun _ =>
    if Map.containsKey same m name then .err (.new .unknown (called ++ str " named '" ++ name ++ str "' already exists"))
    else ofRes (insertAliases same f.fn f.aliases m).1 none

/-- The outcome of an operation on a context, prexel/src/context.rs 179-335, with the message. -/
def run (K : Keys) (debug : Bool) (c : Context N) : Op N → Told (Option N)
  | .addFunctionAs f name => (addAs K.same debug (str "Function") (str "A function") c.functions f name).bind fun _ => .ok none
  | .addUnaryFunctionAs f name => (addAs K.same debug (str "Operator") (str "An unary function") c.unary f name).bind fun _ => .ok none
  | .addBinaryFunctionAs f name => (addAs K.same debug (str "Operator") (str "A binary function") c.binary f name).bind fun _ => .ok none
  | .addConstant name _ =>
    (debugCheck debug (str "Constant") name).bind fun _ =>
      if (Map.keys c.variables).any (fun k => eqIgnoreCase K.L k name) then
        .err (.new .unknown (str "Invalid constant name, a variable named " ++ quoted name ++ str " exists"))
      else .ok none
  | .setVariable name _ =>
    (debugCheck debug (str "Variable") name).bind fun _ =>
      if (Map.keys c.constants).any (fun k => eqIgnoreCase K.L k name) then
        .err (.new .unknown (str "Invalid variable name, a constant named " ++ quoted name ++ str " exists"))
      else .ok (Map.get sameString c.variables name)

end Told

end Prexel
