import Verif.Spec.Syntax
/-!
# Specification: chains of operands and binary operators
-/

namespace Prexel
variable {N : Type}

/-- `Frontier e x xs`: read from left to right, the tree `e` is the chain `x o₁ x₁ o₂ x₂ ...` with `xs = [(o₁, x₁), (o₂, x₂), ...]`. -/
inductive Frontier : Expr N → Expr N → List (Str × Expr N) → Prop
  | leaf (x : Expr N) (h : x.primary) : Frontier x x []
  | node {l r x y : Expr N} {xs ys : List (Str × Expr N)} (o : Str) (hl : Frontier l x xs) (hr : Frontier r y ys) :
      Frontier (.bin o l r) x (xs ++ (o, y) :: ys)

/-- The tokens of the chain `x o₁ x₁ o₂ x₂ ...`. -/
def chainTokens (x : Expr N) (xs : List (Str × Expr N)) : List (Token N) :=
  x.render ++ xs.flatMap (fun p => .binary p.1 :: p.2.render)

end Prexel
