import Verif.Spec.Renaming
/-!
# Tokens that mean the same in two contexts
-/

namespace Prexel
variable {N : Type}

/-- The token on the left means in the first context what the one on the right means in the second; the names may differ. -/
inductive Matched (c1 c2 : Ctx N) : Token N → Token N → Prop
  | number (n : N) : Matched c1 c2 (.number n) (.number n)
  | variable_ {s s' : Str} (h : c1.getVariable s = c2.getVariable s') : Matched c1 c2 (.variable_ s) (.variable_ s')
  | constant {s s' : Str} (h : c1.getConstant s = c2.getConstant s') : Matched c1 c2 (.constant s) (.constant s')
  | function {s s' : Str} (h : c1.getFunction s = c2.getFunction s') : Matched c1 c2 (.function s) (.function s')
  | binary {s s' : Str} (h : c1.getBinary s = c2.getBinary s') : Matched c1 c2 (.binary s) (.binary s')
  | unary {s s' : Str} (h : c1.getUnary s = c2.getUnary s') : Matched c1 c2 (.unary s) (.unary s')
  | argCount (n : Nat) : Matched c1 c2 (.argCount n) (.argCount n)
  | gopen (c : Char) : Matched c1 c2 (.gopen c) (.gopen c)
  | gclose (c : Char) : Matched c1 c2 (.gclose c) (.gclose c)
  | unknown (s : Str) : Matched c1 c2 (.unknown s) (.unknown s)
  | comma : Matched c1 c2 .comma .comma

/-- `u` is `t`, with the variable `x` renamed to `y`; `y` does not occur in `t`. -/
def VariableRenamed (x y : Str) (t u : Token N) : Prop :=
  (t = .variable_ x ∧ u = .variable_ y) ∨ (u = t ∧ t ≠ .variable_ x ∧ t ≠ .variable_ y)

end Prexel
