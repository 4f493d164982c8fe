import Verif.Model.Messages
/-!
# The public methods of `Token` and `Error`
-/

namespace Prexel
variable {N : Type}

namespace Token

/-- `Token::is_variable`, prexel/src/token.rs 76-80. -/
def isVariable : Token N → Bool
  | variable_ _ => true
  | _ => false

/-- `Token::is_constant`, prexel/src/token.rs 82-86. -/
def isConstant : Token N → Bool
  | constant _ => true
  | _ => false

/-- `Token::is_unary_operator`, prexel/src/token.rs 94-98. -/
def isUnaryOperator : Token N → Bool
  | unary _ => true
  | _ => false

/-- `Token::is_binary_operator`, prexel/src/token.rs 100-104. -/
def isBinaryOperator : Token N → Bool
  | binary _ => true
  | _ => false

/-- `Token::is_arg_count`, prexel/src/token.rs 106-113. -/
def isCount : Token N → Bool
  | argCount _ => true
  | _ => false

/-- `Token::is_comma`, prexel/src/token.rs 127-131. -/
def isComma : Token N → Bool
  | comma => true
  | _ => false

/-- `Token::is_unknown`, prexel/src/token.rs 133-141. -/
def isUnknown : Token N → Bool
  | unknown _ => true
  | _ => false

/-- `Display for Token`, prexel/src/token.rs 31-48. What `Display` writes for a number is a parameter. -/
def show_ (number : N → Str) : Token N → Str
  | .number n => str "Number(" ++ number n ++ str ")"
  | .variable_ s => str "Variable(" ++ s ++ str ")"
  | .constant s => str "Constant(" ++ s ++ str ")"
  | .function s => str "Function(" ++ s ++ str ")"
  | .binary s => str "BinaryOperator('" ++ s ++ str "')"
  | .unary s => str "UnaryOperator('" ++ s ++ str "')"
  | .argCount n => str "ArgCount(" ++ Nat.toDigits 10 n ++ str ")"
  | .gopen c => str "ParenthesisOpen('" ++ [c] ++ str "')"
  | .gclose c => str "ParenthesisClose('" ++ [c] ++ str "')"
  | .unknown s => str "Unknown(" ++ s ++ str ")"
  | .comma => str "Comma"

end Token

namespace Fault

/-- `PartialEq for Error`, prexel/src/error.rs 75-80. -/
def same (a b : Fault) : Bool := a.kind == b.kind

/-- `Error::other`, prexel/src/error.rs 114-125. -/
def other (message : Str) : Fault := .new .unknown message

/-- `Error::into_inner` and `Error::get_ref`, prexel/src/error.rs 141-188. The inner error is a text. -/
def inner (e : Fault) : Option Str := e.message

end Fault

end Prexel
