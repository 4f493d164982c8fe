import Verif.Model.Numeric
import Verif.Spec.Syntax
import Verif.Spec.Tables
/-!
# Specification: which operators and functions can give which error

For each number type and each kind of error, the names of the built-in operators and functions that can give an error of that kind. Nothing else gives an
error, except that `InvalidInput`, `InvalidExpression` and `Empty` are also the kinds of the mistakes in the text itself.
-/

namespace Prexel

/-- The functions of the checked and the unchecked context that are computed with floats, but for `random`. -/
def floatFunctions : List String :=
  ["sqrt", "ln", "log", "exp", "to_radians", "to_degrees", "sin", "cos", "tan", "csc", "sec", "cot", "asin", "acos", "atan", "acsc", "asec", "acot",
   "sinh", "cosh", "tanh", "csch", "sech", "coth", "asinh", "acosh", "atanh", "acsch", "asech", "acoth"]

/-- The rounding functions of the checked context, which are computed with floats as well; two of the names depend on the feature `docs`. -/
def roundingFunctions : List String := ["floor", "ceil", "trunc", "truncate", "round", "sign", "signum"]

/-- Checked integers. -/
def checkedCulprits : ErrorKind → List String
  | .divisionByZero => ["/", "mod"]
  | .negativeValue => ["!", "random"]
  | .nan => "random" :: (floatFunctions ++ roundingFunctions)
  | .overflow => ["+", "-", "*", "/", "mod", "^", "!", "sum", "product", "avg", "abs", "random"] ++ floatFunctions ++ roundingFunctions
  | .invalidInput => ["random"]
  | .invalidArgumentCount => ["sum", "product", "avg", "max", "min", "abs", "random"] ++ floatFunctions ++ roundingFunctions
  | _ => []

/-- Machine numbers: sums, products, quotients and their like cannot fail but for a division by zero. -/
def uncheckedCulprits : ErrorKind → List String
  | .divisionByZero => ["/", "mod"]
  | .negativeValue => ["!", "random"]
  | .nan => "random" :: floatFunctions
  | .overflow => ["^", "!", "random"] ++ floatFunctions
  | .invalidInput => ["random"]
  | .invalidArgumentCount => ["sum", "product", "avg", "max", "min", "random"] ++ floatFunctions
  | _ => []

/-- Decimals: every failure is an overflow, also a division by zero or an argument outside of the domain; only `random` has other errors. -/
def decimalCulprits : ErrorKind → List String
  | .overflow => ["+", "-", "*", "/", "mod", "^", "!", "random", "cbrt", "sqrt", "ln", "log", "exp", "tan", "cot", "asin", "acos", "acsc", "asec",
      "sinh", "cosh", "tanh", "csch", "sech", "coth", "acosh", "atanh", "asech", "acoth"]
  | .negativeValue => ["random"]
  | .nan => ["random"]
  | .invalidInput => ["random"]
  | .invalidArgumentCount => ["sum", "avg", "product", "max", "min", "random", "cbrt", "ceil", "floor", "truncate", "round"] ++ floatFunctions
  | _ => []

/-- Complex numbers. -/
def complexCulprits : ErrorKind → List String
  | .divisionByZero => ["/", "mod"]
  | .overflow => ["log", "random"]
  | .negativeValue => ["random"]
  | .invalidInput => ["log", "random"]
  | .invalidArgumentCount => ["sum", "product", "avg", "random"] ++ floatFunctions
  | _ => []

/-- The kinds of mistakes in the text itself: a word that has no meaning or a wrong place. -/
def ErrorKind.ofText (k : ErrorKind) : Prop := k = .invalidInput ∨ k = .invalidExpression ∨ k = .empty

/-- How many arguments a built-in function takes: one or more, two or more, at most two, one or two (`log`, and `atan` except for complex
numbers), or one. -/
def takes (complex : Bool) (name : String) (n : Nat) : Bool :=
  if name = "sum" ∨ name = "product" ∨ name = "avg" then 1 ≤ n
  else if name = "max" ∨ name = "min" then 2 ≤ n
  else if name = "random" then n ≤ 2
  else if name = "log" ∨ (name = "atan" ∧ complex = false) then n = 1 ∨ n = 2
  else n = 1

/-- One of the words is one of these names, in any case. -/
def Names (words : List Str) (names : List String) : Prop := ∃ w ∈ words, ∃ name ∈ names, CaseVariant (str name) w

/-- The arithmetic of the machine gives a number or panics: it does not return an error. -/
def Num.NeverRefuses {N F : Type} (num : Num N F) : Prop :=
  ∀ x y k, num.add x y ≠ .err k ∧ num.sub x y ≠ .err k ∧ num.mul x y ≠ .err k ∧ num.div x y ≠ .err k ∧ num.rem x y ≠ .err k ∧ num.neg x ≠ .err k

/-- The names of the built-in functions of all contexts. -/
def builtinFunctions : List String := ["sum", "product", "avg", "max", "min", "abs", "random", "cbrt"] ++ floatFunctions ++ roundingFunctions

mutual
/-- Every call of a built-in function, in any case of its letters, has a number of arguments that the function takes. -/
def Expr.RightCounts {N : Type} (complex : Bool) : Expr N → Prop
  | .atom _ => True
  | .signed _ _ => True
  | .prefixed _ e => e.RightCounts complex
  | .postfixed _ e => e.RightCounts complex
  | .paren _ e => e.RightCounts complex
  | .call f _ args => (∀ name ∈ builtinFunctions, CaseVariant (str name) f → takes complex name args.count = true) ∧ args.RightCounts complex
  | .bin _ l r => l.RightCounts complex ∧ r.RightCounts complex
  | .imp l r => l.RightCounts complex ∧ r.RightCounts complex
/-- Every call in the arguments has a number of arguments that the function takes. -/
def Args.RightCounts {N : Type} (complex : Bool) : Args N → Prop
  | .one e => e.RightCounts complex
  | .more e rest => e.RightCounts complex ∧ rest.RightCounts complex
end

end Prexel
