import Verif.Spec.Calls
/-!
# Specification: a sum, a product and an average, written out
-/

namespace Prexel
variable {N : Type}

/-- `x o x₁ o x₂ ...`. -/
def writtenOut (o : String) (x : N) (xs : List N) : List (Token N) := .number x :: xs.flatMap fun y => [.binary (str o), .number y]

/-- `(x + x₁ + x₂ ...) / n`. -/
def writtenAverage (x : N) (xs : List N) (n : N) : List (Token N) :=
  .gopen '(' :: (writtenOut "+" x xs ++ [.gclose ')', .binary (str "/"), .number n])

/-- The sums of the beginnings of a list. -/
def partialSums (q : Rat) : List Rat → List Rat
  | [] => [q]
  | r :: rs => q :: partialSums (q + r) rs

/-- The products of the beginnings of a list. -/
def partialProducts (q : Rat) : List Rat → List Rat
  | [] => [q]
  | r :: rs => q :: partialProducts (q * r) rs

end Prexel
