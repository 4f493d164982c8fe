import Verif.Model.Apps
/-!
# Specification: the listings, in order
-/

namespace Prexel

/-- The functions of a number type, in the order of the listings. -/
def functionsOf : NumberType → List String
  | .decimal => ["sum", "avg", "product", "max", "min", "cbrt", "sqrt", "ln", "log", "random", "ceil", "floor", "truncate", "round", "exp",
      "to_radians", "to_degrees", "sin", "cos", "tan", "csc", "sec", "cot", "asin", "acos", "atan", "acsc", "asec", "acot", "sinh", "cosh",
      "tanh", "csch", "sech", "coth", "asinh", "acosh", "atanh", "acsch", "asech", "acoth"]
  | .float => ["sum", "avg", "product", "max", "min", "sqrt", "ln", "log", "random", "to_radians", "to_degrees", "exp", "sin", "cos", "tan",
      "csc", "sec", "cot", "asin", "acos", "atan", "acsc", "asec", "acot", "sinh", "cosh", "tanh", "csch", "sech", "coth", "asinh", "acosh",
      "atanh", "acsch", "asech", "acoth"]
  | .integer => ["sum", "product", "avg", "max", "min", "abs", "sqrt", "ln", "log", "exp", "floor", "ceil", "trunc", "round", "signum",
      "random", "to_radians", "to_degrees", "sin", "cos", "tan", "csc", "sec", "cot", "asin", "acos", "atan", "acsc", "asec", "acot", "sinh",
      "cosh", "tanh", "csch", "sech", "coth", "asinh", "acosh", "atanh", "acsch", "asech", "acoth"]
  | .complex => ["sum", "avg", "product", "sqrt", "ln", "log", "random", "exp", "sin", "cos", "tan", "csc", "sec", "cot", "asin", "acos",
      "atan", "acsc", "asec", "acot", "sinh", "cosh", "tanh", "csch", "sech", "coth", "asinh", "acosh", "atanh", "acsch", "asech", "acoth"]
  | .binary => []

/-- The operators of a number type, in the order of the listings: binary operators, then unary operators. Those that are binary and unary occur
twice. -/
def operatorsOf : NumberType → List String
  | .decimal | .float | .integer => ["+", "-", "*", "/", "^", "mod", "+", "-", "!"]
  | .complex => ["+", "-", "*", "/", "mod", "^", "+", "-"]
  | .binary => ["and", "&", "or", "|", "xor", "^", "eq", "equal", "==", "ne", "no_equal", "!=", "gt", ">", "lt", "<", "gte", ">=", "lte", "<=",
      "shr", ">>", "shl", "<<", "not", "~"]

/-- The constants of a number type, in the order of the listings. -/
def constantsOf : NumberType → List String
  | .decimal | .float | .integer => ["PI", "E"]
  | .complex => ["PI", "E", "i"]
  | .binary => []

/-- A listing shows these names in this order. -/
def Listing.Shows (L : Listing) (functions operators constants : List String) : Prop :=
  L.functions = functions.map str ∧ L.operators = operators.map str ∧ L.constants.map (·.1) = constants.map str

end Prexel
