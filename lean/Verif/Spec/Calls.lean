import Verif.Model.Basic
/-!
# Specification: a function call on numbers as written
-/

namespace Prexel
variable {N : Type}

/-- `name(x, y, ...)`. -/
def callTokens (name : Str) (xs : List N) : List (Token N) :=
  .function name :: .gopen '(' :: ((xs.map Token.number).intersperse .comma ++ [.gclose ')'])

/-- `x o y`. -/
def infixTokens (x : N) (o : Str) (y : N) : List (Token N) := [.number x, .binary o, .number y]

end Prexel
