import Verif.Model.Basic
/-!
# Specification: balanced brackets
-/

namespace Prexel
variable {N : Type}

/-- `c` is the closing symbol of the kind of bracket that `o` belongs to. -/
def Closes (o c : Char) : Prop :=
  (o ∈ ['(', ')'] ∧ c = ')') ∨ (o ∈ ['[', ']'] ∧ c = ']') ∨ (o ∈ ['{', '}'] ∧ c = '}')

/-- Reading the tokens with the given open brackets (innermost first), every closing symbol closes the innermost open bracket, and
the brackets `rest` are open at the end. -/
inductive Brackets : List Char → List (Token N) → List Char → Prop
  | nil (s : List Char) : Brackets s [] s
  | opn (s : List Char) (c : Char) (ts : List (Token N)) (e : List Char) (h : Brackets (c :: s) ts e) :
      Brackets s (.gopen c :: ts) e
  | cls (s : List Char) (o c : Char) (ts : List (Token N)) (e : List Char) (hc : Closes o c) (h : Brackets s ts e) :
      Brackets (o :: s) (.gclose c :: ts) e
  | other (s : List Char) (t : Token N) (ts : List (Token N)) (e : List Char) (ho : ∀ c, t ≠ .gopen c) (hc : ∀ c, t ≠ .gclose c)
      (h : Brackets s ts e) : Brackets s (t :: ts) e

/-- Every bracket is closed by its own kind, in order. -/
def Balanced (ts : List (Token N)) : Prop := Brackets [] ts []

end Prexel
