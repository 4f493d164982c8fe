import Verif.Model.Basic
/-!
# Specification: kinds of tokens, well-behaved contexts
-/

namespace Prexel
variable {N : Type}

/-- Operands: numbers, variables and constants. -/
def Token.isAtom : Token N → Bool
  | .number _ => true
  | .variable_ _ => true
  | .constant _ => true
  | _ => false

/-- Unary, binary operators and functions. -/
def Token.isOp : Token N → Bool
  | .unary _ => true
  | .binary _ => true
  | .function _ => true
  | _ => false

/-- Binary operators. -/
def Token.isBinary : Token N → Bool
  | .binary _ => true
  | _ => false

/-- No registered function panics. -/
def Ctx.Safe (ctx : Ctx N) : Prop :=
  (∀ s f, ctx.getFunction s = some f → ∀ xs, f xs ≠ .panic) ∧
  (∀ s f, ctx.getUnary s = some f → ∀ x, f.call x ≠ .panic) ∧
  (∀ s f, ctx.getBinary s = some f → ∀ x y, f.call x y ≠ .panic)

end Prexel
