/-!
# Basic data types

Models `prexel/src/error.rs`, `prexel/src/function.rs`, `prexel/src/token.rs` and the `Config`/`Grouping` part of
`prexel/src/context.rs`.
-/

namespace Prexel

/-- Rust `str`/`String`: a sequence of Unicode scalar values. -/
abbrev Str := List Char

/-- A string literal as a `Str`. -/
abbrev str (s : String) : Str := s.toList

/-- `ErrorKind`, prexel/src/error.rs 27-52. -/
inductive ErrorKind
  | overflow
  | zero
  | nan
  | invalidInput
  | invalidArgumentCount
  | divisionByZero
  | negativeValue
  | positiveValue
  | invalidExpression
  | empty
  | unknown
  deriving DecidableEq, Repr

/-- `prexel::Result<T>` (prexel/src/lib.rs) with a panic as an explicit third outcome. `Error` compares by its kind only
(prexel/src/error.rs 75-80), so the model keeps the kind and drops the message. -/
inductive Res (α : Type) where
  | ok (v : α)
  | err (k : ErrorKind)
  | panic
  deriving DecidableEq, Repr

namespace Res
variable {α β γ : Type}

/-- The `?` operator. -/
def bind (x : Res α) (f : α → Res β) : Res β :=
  match x with
  | ok v => f v
  | err k => err k
  | panic => panic

/-- Models `Result::map`. -/
def map (f : α → β) (x : Res α) : Res β := x.bind (fun v => ok (f v))

instance : Monad Res where
  pure := ok
  bind := bind

/-- `Option::ok_or_else`. -/
def ofOption (o : Option α) (k : ErrorKind) : Res α :=
  match o with
  | some v => ok v
  | none => err k

/-- The outcome is an `Ok`. -/
def isOk : Res α → Bool
  | ok _ => true
  | _ => false

@[simp] theorem bind_ok (v : α) (f : α → Res β) : (ok v).bind f = f v := rfl
@[simp] theorem bind_err (k : ErrorKind) (f : α → Res β) : (err k : Res α).bind f = err k := rfl
@[simp] theorem bind_panic (f : α → Res β) : (panic : Res α).bind f = panic := rfl
@[simp] theorem bind_eq (x : Res α) (f : α → Res β) : (x >>= f) = x.bind f := rfl
@[simp] theorem pure_eq (v : α) : (pure v : Res α) = ok v := rfl
theorem bind_assoc (x : Res α) (f : α → Res β) (g : β → Res γ) :
    (x.bind f).bind g = x.bind (fun a => (f a).bind g) := by cases x <;> rfl

end Res

/-- `Associativity`, prexel/src/function.rs 76-81. -/
inductive Assoc
  | left
  | right
  deriving DecidableEq, Repr

/-- `Notation`, prexel/src/function.rs 87-92. -/
inductive Notation
  | pre
  | post
  deriving DecidableEq, Repr

/-- What evaluation uses of a `dyn BinaryFunction<N>`, prexel/src/function.rs 24-47. `Precedence(u32)` (98) is a `Nat`. -/
structure BinFn (N : Type) where
  prec : Nat
  assoc : Assoc
  call : N → N → Res N

/-- What evaluation uses of a `dyn UnaryFunction<N>`, prexel/src/function.rs 50-70. -/
structure UnFn (N : Type) where
  notation_ : Notation
  call : N → Res N

/-- What evaluation uses of a `dyn Function<N>`, prexel/src/function.rs 4-21. -/
abbrev Fn (N : Type) := List N → Res N

/-- `Token<N>`, prexel/src/token.rs 6-29. -/
inductive Token (N : Type) where
  | number (n : N)
  | variable_ (s : Str)
  | constant (s : Str)
  | function (s : Str)
  | binary (s : Str)
  | unary (s : Str)
  | argCount (n : Nat)
  | gopen (c : Char)
  | gclose (c : Char)
  | unknown (s : Str)
  | comma
  deriving DecidableEq, Repr

namespace Token
variable {N : Type}

/-- `Token::is_number`, prexel/src/token.rs 72-74. -/
def isNumber : Token N → Bool
  | number _ => true
  | _ => false

/-- `Token::is_function`, prexel/src/token.rs 90-92. -/
def isFunction : Token N → Bool
  | function _ => true
  | _ => false

/-- `Token::is_grouping_open`, prexel/src/token.rs 117-119. -/
def isGopen : Token N → Bool
  | gopen _ => true
  | _ => false

/-- `Token::is_grouping_close`, prexel/src/token.rs 123-125. -/
def isGclose : Token N → Bool
  | gclose _ => true
  | _ => false

/-- `Token::contains_symbol`, prexel/src/token.rs 149-154. -/
def containsSymbol (t : Token N) (name : Char) : Bool :=
  match t with
  | gclose c => c == name
  | gopen c => c == name
  | _ => false

end Token

/-- `Grouping`, prexel/src/context.rs 650-657. -/
inductive Grouping
  | parenthesis
  | bracket
  | brace
  deriving DecidableEq, Repr

namespace Grouping

/-- `Grouping::new`, prexel/src/context.rs 661-668. -/
def new (c : Char) : Option Grouping :=
  if c = '(' ∨ c = ')' then some parenthesis
  else if c = '[' ∨ c = ']' then some bracket
  else if c = '{' ∨ c = '}' then some brace
  else none

/-- `Grouping::open`, prexel/src/context.rs 675-681. -/
def opn : Grouping → Char
  | parenthesis => '('
  | bracket => '['
  | brace => '{'

/-- `Grouping::close`, prexel/src/context.rs 683-689. -/
def cls : Grouping → Char
  | parenthesis => ')'
  | bracket => ']'
  | brace => '}'

/-- `Grouping::symbols`, prexel/src/context.rs 671-673. -/
def symbols (g : Grouping) : Char × Char := (g.opn, g.cls)

/-- `Grouping::close_for`, prexel/src/context.rs 704-710. -/
def closeFor (g : Grouping) (c : Char) : Option Char :=
  if g.opn = c then (new c).map cls else none

/-- `Grouping::open_for`, prexel/src/context.rs 713-719. -/
def openFor (g : Grouping) (c : Char) : Option Char :=
  if g.cls = c then (new c).map opn else none

end Grouping

/-- `Config`, prexel/src/context.rs 510-519. The `HashSet<Grouping>` is a list of its members. -/
structure Config where
  implicitMul : Bool
  complexNumber : Bool
  customFunctionCall : Bool
  grouping : List Grouping
  deriving DecidableEq, Repr

namespace Config

/-- `Config::default` (derived), prexel/src/context.rs 509. -/
def default_ : Config := ⟨false, false, false, []⟩

/-- `Config::with_grouping`, prexel/src/context.rs 570-573. -/
def withGrouping (c : Config) (g : Grouping) : Config :=
  { c with grouping := if g ∈ c.grouping then c.grouping else g :: c.grouping }

/-- `Config::new`, prexel/src/context.rs 525-527. -/
def new : Config := default_.withGrouping .parenthesis

/-- `Config::with_implicit_mul`, prexel/src/context.rs 531-534. -/
def withImplicitMul (c : Config) (b : Bool) : Config := { c with implicitMul := b }

/-- `Config::with_complex_number`, prexel/src/context.rs 543-546. -/
def withComplexNumber (c : Config) (b : Bool) : Config := { c with complexNumber := b }

/-- `Config::with_custom_function_call`, prexel/src/context.rs 554-557. -/
def withCustomFunctionCall (c : Config) (b : Bool) : Config := { c with customFunctionCall := b }

/-- `Config::get_group_symbol`, prexel/src/context.rs 585-587. As in the code, `self` is not consulted. -/
def getGroupSymbol (_ : Config) (symbol : Char) : Option (Char × Char) :=
  (Grouping.new symbol).map Grouping.symbols

/-- `Config::get_group_open_for`, prexel/src/context.rs 604-608. -/
def getGroupOpenFor (_ : Config) (c : Char) : Option Char :=
  (Grouping.new c).bind (fun g => g.openFor c)

/-- `Config::get_group_close_for`, prexel/src/context.rs 625-629. -/
def getGroupCloseFor (_ : Config) (c : Char) : Option Char :=
  (Grouping.new c).bind (fun g => g.closeFor c)

/-- `Config::is_group_close`, prexel/src/context.rs 633-637. -/
def isGroupClose (_ : Config) (c : Char) : Bool :=
  ((Grouping.new c).map (fun g => g.cls == c)).getD false

/-- `Config::is_group_open`, prexel/src/context.rs 641-645. -/
def isGroupOpen (_ : Config) (c : Char) : Bool :=
  ((Grouping.new c).map (fun g => g.opn == c)).getD false

end Config

/-- What the tokenizer and the evaluator can observe of a `Context<N>` (trait methods of prexel/src/context.rs 15-78):
the configuration and the look-ups. The mutating methods are modelled for `DefaultContext` in `Verif.Model.Context`. -/
structure Ctx (N : Type) where
  config : Config
  getVariable : Str → Option N
  getConstant : Str → Option N
  getFunction : Str → Option (Fn N)
  getUnary : Str → Option (UnFn N)
  getBinary : Str → Option (BinFn N)

end Prexel
