import Verif.Model.Info
import Verif.Model.Splitter
import Verif.Model.Tokenizer
import Verif.Model.Binary
import Verif.Model.Decimal
import Verif.Model.Complex
import Verif.Model.Wrapped
/-!
# The HTTP server and the command line program

Models `prexel-server/src/services/evaluator.rs`, `services/info.rs`, `models/mod.rs` and `endpoints/mod.rs`, and `eval/src/eval_expr.rs`,
`eval/src/list.rs` and the commands of `eval/src/main.rs`.

Not modelled here: HTTP, JSON (see Model/Json), the query string (see Model/Query) and the command line (their outcome is an argument here), the rate limiter and cookies, colours, and
the texts of errors (their cause is kept instead).
-/

namespace Prexel

/-- `NumberType`, prexel-server/src/models/mod.rs 23-41, and `EvalType`, eval/src/main.rs 15-22. -/
inductive NumberType
  | decimal | float | complex | integer | binary
  deriving DecidableEq, Repr

/-- `NumberType::deserialize` (serde, `rename_all = "lowercase"`), prexel-server/src/models/mod.rs 22-23, and `EvalType::from_str`,
eval/src/main.rs 24-37. -/
def NumberType.fromStr (s : Str) : Option NumberType :=
  if s = str "decimal" then some .decimal
  else if s = str "float" then some .float
  else if s = str "integer" then some .integer
  else if s = str "complex" then some .complex
  else if s = str "binary" then some .binary
  else none

/-- What the programs take from outside the library: the five number types with their readers and printers. `readX` is `FromStr`, `showX`
is `Display`. The `docs` feature is a default feature of `prexel` (prexel/Cargo.toml), so it is on in both programs. -/
structure World (D F T : Type) where
  K : Keys
  debug : Bool
  f : F64 F
  floatNum : FloatNum F
  dec : Dec D F
  cx : Cx T
  toF64 : SInt i128 → F
  fromF64 : F → Option (SInt i128)
  readDecimal : Str → Option D
  readFloat : Str → Option F
  readComplex : Str → Option (Cplx T)
  showDecimal : D → Str
  showFloat : F → Str
  showComplex : Cplx T → Str

/-- Everything `eval_X_expression` does differently per number type, prexel-server/src/services/evaluator.rs 32-164: the context it builds, how
the text of a variable and of a literal is read, how the text is split and how the result is printed. -/
structure Backend (N : Type) where
  context : Config → Res (Context N)
  readVariable : Str → Option N
  read : Str → Option N
  rules : List Rule
  shown : N → Str

/-- `Display` of `i128` (Rust standard library). -/
def showInt (x : SInt i128) : Str := (toString x.1).toList

namespace World
variable {D F T : Type} (W : World D F T)

/-- `i128` as a number, prexel/src/num.rs 145-185. -/
def intNum : Num (SInt i128) F := SInt.num i128 W.debug W.toF64 W.fromF64

/-- prexel-server/src/services/evaluator.rs 32-57, eval/src/eval_expr.rs 36-40. -/
def decimalBackend : Backend D :=
  ⟨W.dec.context W.K W.debug W.f, W.readDecimal, W.readDecimal, defaultRules, W.showDecimal⟩

/-- prexel-server/src/services/evaluator.rs 59-84: `DefaultContext::with_config_checked`. -/
def floatBackend : Backend F :=
  ⟨Context.checked W.K W.debug true W.f (W.f.num W.floatNum), W.readFloat, W.readFloat, defaultRules, W.showFloat⟩

/-- eval/src/eval_expr.rs 42-46: `DefaultContext::with_config_unchecked`. -/
def cliFloatBackend : Backend F :=
  ⟨Context.unchecked W.K W.debug W.f (W.f.num W.floatNum), W.readFloat, W.readFloat, defaultRules, W.showFloat⟩

/-- prexel-server/src/services/evaluator.rs 86-111, eval/src/eval_expr.rs 54-60: `CONFIG.clone().with_complex_number(true)`. -/
def complexBackend : Backend (Cplx T) :=
  ⟨fun config => W.cx.context W.K W.debug (config.withComplexNumber true), W.readComplex, W.readComplex, defaultRules, W.showComplex⟩

/-- prexel-server/src/services/evaluator.rs 113-138, eval/src/eval_expr.rs 48-52. -/
def integerBackend : Backend (SInt i128) :=
  ⟨Context.checked W.K W.debug true W.f W.intNum, SInt.parse i128, SInt.parse i128, defaultRules, showInt⟩

/-- prexel-server/src/services/evaluator.rs 140-164, eval/src/eval_expr.rs 62-66. A variable is read as an `i128`, a literal as a `Binary`. -/
def binaryBackend : Backend Binary :=
  ⟨Binary.context W.K W.debug, fun s => (SInt.parse i128 s).map fun x => BitVec.ofInt 128 x.1, Binary.parse, binaryRules, Binary.display⟩

end World

/-- Why there is no result. The library's errors are shown with their message; here only the cause is kept. -/
inductive Failure
  /-- a variable whose text is no number: `Err(err) => return EvalResult::Err(format!("{}", err))`. -/
  | unreadable
  /-- an error of the library. -/
  | library (k : ErrorKind)
  /-- a body that is not a request. -/
  | badRequest
  deriving DecidableEq, Repr

/-- `EvalResult`, prexel-server/src/models/mod.rs 5, or a panic. -/
inductive Answer where
  | result (text : Str)
  | error (why : Failure)
  | panic
  deriving DecidableEq, Repr

/-- `for (name, value) in variables`, prexel-server/src/services/evaluator.rs 36-47 (and 63-74, 90-101, 117-128, 144-155). -/
def setVariables (K : Keys) (debug : Bool) (readVariable : Str → Option N) : Context N → List (Str × Str) → Except Answer (Context N)
  | c, [] => .ok c
  | c, (name, value) :: rest =>
    match readVariable value with
    | none => .error (.error .unreadable)
    | some v =>
      match Context.run K debug c (.setVariable name v) with
      | (.ok _, c') => setVariables K debug readVariable c' rest
      | (.err k, _) => .error (.error (.library k))
      | (.panic, _) => .error .panic

/-- The body of `eval_X_expression`, prexel-server/src/services/evaluator.rs 32-164. -/
def Backend.serve (b : Backend N) (K : Keys) (debug : Bool) (config : Config) (variables : List (Str × Str)) (expression : Str) : Answer :=
  match b.context config with
  | .ok c =>
    match setVariables K debug b.readVariable c variables with
    | .error a => a
    | .ok c' =>
      match eval b.read (split b.rules) (c'.view K) expression with
      | .ok n => .result (b.shown n)
      | .err k => .error (.library k)
      | .panic => .panic
  | .err k => .error (.library k)
  | .panic => .panic

/-- `Variable`, prexel-server/src/models/mod.rs 7-12. -/
inductive Variable (F : Type) where
  | text (s : Str)
  | number (x : F)

/-- `EvalExpression`, prexel-server/src/models/mod.rs 43-49. The variables are in the order in which the hash map is iterated. -/
structure Request (F : Type) where
  expression : Str
  type : Option NumberType
  variables : Option (List (Str × Variable F))

/-- The server's `CONFIG`, prexel-server/src/services/evaluator.rs 11-16. -/
def serverConfig : Config := ((Config.default_.withGrouping .parenthesis).withGrouping .bracket).withImplicitMul true

/-- The command line program's `CONFIG`, eval/src/eval_expr.rs 10-13. -/
def cliConfig : Config := Config.new.withImplicitMul true

namespace World
variable {D F T : Type} (W : World D F T)

/-- `Display` of `Variable`, prexel-server/src/models/mod.rs 14-21. -/
def showVariable : Variable F → Str
  | .text s => s
  | .number x => W.showFloat x

/-- The variables of a request with the text of their values. -/
def texts (r : Request F) : List (Str × Str) := (r.variables.getD []).map fun e => (e.1, W.showVariable e.2)

/-- `eval_expression`, prexel-server/src/services/evaluator.rs 18-30. -/
def evalExpression (r : Request F) : Answer :=
  match r.type.getD .decimal with
  | .decimal => W.decimalBackend.serve W.K W.debug serverConfig (W.texts r) r.expression
  | .float => W.floatBackend.serve W.K W.debug serverConfig (W.texts r) r.expression
  | .complex => W.complexBackend.serve W.K W.debug serverConfig (W.texts r) r.expression
  | .integer => W.integerBackend.serve W.K W.debug serverConfig (W.texts r) r.expression
  | .binary => W.binaryBackend.serve W.K W.debug serverConfig (W.texts r) r.expression

/-- `EvalExpr::eval`, eval/src/eval_expr.rs 25-33. -/
def cliEval (t : NumberType) (expression : Str) : Answer :=
  match t with
  | .decimal => W.decimalBackend.serve W.K W.debug cliConfig [] expression
  | .float => W.cliFloatBackend.serve W.K W.debug cliConfig [] expression
  | .complex => W.complexBackend.serve W.K W.debug cliConfig [] expression
  | .integer => W.integerBackend.serve W.K W.debug cliConfig [] expression
  | .binary => W.binaryBackend.serve W.K W.debug cliConfig [] expression

end World

/-- An HTTP response of the `eval` endpoint: JSON `EvaluatedExpression` (prexel-server/src/models/mod.rs 51-56) or plain text. -/
inductive Response where
  | json (status : Nat) (result : Option Str) (error : Option Failure)
  | body (status : Nat) (text : Str)
  | panic
  deriving DecidableEq, Repr

/-- `EvaluatedExpression::with_error`, prexel-server/src/models/mod.rs 59-64. -/
def withError (status : Nat) (e : Failure) : Response := .json status none (some e)

/-- `From<EvalResult> for EvaluatedExpression`, prexel-server/src/models/mod.rs 67-79, sent with status 200. -/
def toResponse : Answer → Response
  | .result s => .json 200 (some s) none
  | .error e => .json 200 none (some e)
  | .panic => .panic

/-- The `eval` endpoint, prexel-server/src/endpoints/mod.rs 19-54. `request` is the outcome of reading the body (`none` for invalid UTF-8 or
JSON), `onlyResult` that of reading the query. -/
def World.evalEndpoint {D F T : Type} (W : World D F T) (request : Option (Request F)) (onlyResult : Option Bool) : Response :=
  match request with
  | none => withError 400 .badRequest
  | some r =>
    let answer := W.evalExpression r
    if onlyResult.getD false then
      match answer with
      | .result text => .body 200 text
      | a => toResponse a
    else toResponse answer

/-- What a listing shows: names, and for constants their values. For aliases and descriptions see `Infos`. -/
structure Listing where
  functions : List Str
  operators : List Str
  constants : List (Str × Str)

/-- `get_functions`, `get_operators` and `get_constants`, prexel-server/src/services/info.rs 18-67, and `list_with_context`, eval/src/list.rs
37-134. -/
def Context.listing (c : Context N) (shown : N → Str) : Listing where
  functions := Map.keys c.functions
  operators := Map.keys c.binary ++ Map.keys c.unary
  constants := c.constants.map fun e => (e.1, shown e.2)

namespace World
variable {D F T : Type} (W : World D F T)

/-- `get_operators`, `get_constants` and `get_functions` of prexel-server/src/endpoints/mod.rs 56-156. For `Float` they list the decimal context. -/
def serverListing (t : Option NumberType) : Res Listing :=
  match t.getD .decimal with
  | .decimal => (W.dec.context W.K W.debug W.f Config.new).map (·.listing W.showDecimal)
  | .float => (W.dec.context W.K W.debug W.f Config.new).map (·.listing W.showDecimal)
  | .complex => (W.cx.newContext W.K W.debug).map (·.listing W.showComplex)
  | .integer => (Context.checked W.K W.debug true W.f W.intNum Config.new).map (·.listing showInt)
  | .binary => (Binary.context W.K W.debug Config.new).map (·.listing Binary.display)

/-- `list`, eval/src/list.rs 17-35. -/
def cliListing (t : NumberType) : Res Listing :=
  match t with
  | .decimal => (W.dec.context W.K W.debug W.f Config.new).map (·.listing W.showDecimal)
  | .float => (Context.unchecked W.K W.debug W.f (W.f.num W.floatNum) Config.new).map (·.listing W.showFloat)
  | .integer => (Context.checked W.K W.debug true W.f W.intNum Config.new).map (·.listing showInt)
  | .complex => (W.cx.newContext W.K W.debug).map (·.listing W.showComplex)
  | .binary => (Binary.context W.K W.debug Config.new).map (·.listing Binary.display)

end World

/-- What a listing shows of functions, operators and constants, with aliases and descriptions. -/
structure Infos where
  functions : List FnInfo
  operators : List FnInfo
  constants : List (Str × Str)

/-- `get_functions`, `get_operators` and `get_constants`, prexel-server/src/services/info.rs 18-67. -/
def Documented.infos (c : Documented N) (shown : N → Str) : Infos where
  functions := c.functionInfos
  operators := c.operatorInfos
  constants := c.constants.map fun e => (e.1, shown e.2)

namespace World
variable {D F T : Type} (W : World D F T)

/-- `get_operators`, `get_constants` and `get_functions` of prexel-server/src/endpoints/mod.rs 56-156, whole. The feature `docs` is on by default. -/
def serverInfos (t : Option NumberType) : Res Infos :=
  match t.getD .decimal with
  | .decimal => (Documented.decimal W.dec W.K W.debug true W.f Config.new).map (·.infos W.showDecimal)
  | .float => (Documented.decimal W.dec W.K W.debug true W.f Config.new).map (·.infos W.showDecimal)
  | .complex => (Documented.complex W.cx W.K W.debug true).map (·.infos W.showComplex)
  | .integer => (Documented.checked W.K W.debug true W.f W.intNum Config.new).map (·.infos showInt)
  | .binary => (Documented.binary_ W.K W.debug Config.new).map (·.infos Binary.display)

/-- The contexts of `list`, eval/src/list.rs 17-35, with all that `list_with_context` reads off them. -/
def cliInfos (t : NumberType) : Res Infos :=
  match t with
  | .decimal => (Documented.decimal W.dec W.K W.debug true W.f Config.new).map (·.infos W.showDecimal)
  | .float => (Documented.unchecked W.K W.debug true W.f (W.f.num W.floatNum) Config.new).map (·.infos W.showFloat)
  | .integer => (Documented.checked W.K W.debug true W.f W.intNum Config.new).map (·.infos showInt)
  | .complex => (Documented.complex W.cx W.K W.debug true).map (·.infos W.showComplex)
  | .binary => (Documented.binary_ W.K W.debug Config.new).map (·.infos Binary.display)

end World

/-- `pad_right`, eval/src/list.rs 136-150; `str::len` counts bytes, here given by `len`. -/
def padRight (len : Str → Nat) (s : Str) (width : Nat) : Str :=
  s ++ List.replicate (if len s < width then width - len s else 0) ' '

end Prexel
