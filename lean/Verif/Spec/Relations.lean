import Verif.Model.Basic
/-!
# Specification: relations between contexts and between token lists
-/

namespace Prexel
variable {N : Type}

/-- The two contexts give the name in this token the same meaning. -/
def AgreeOn (c1 c2 : Ctx N) : Token N → Prop
  | .variable_ s => c1.getVariable s = c2.getVariable s
  | .constant s => c1.getConstant s = c2.getConstant s
  | .function s => c1.getFunction s = c2.getFunction s
  | .unary s => c1.getUnary s = c2.getUnary s
  | .binary s => c1.getBinary s = c2.getBinary s
  | _ => True

/-- `t'` is `t`, or `t` is a variable or constant and `t'` is the number it is bound to. -/
def ByValue (ctx : Ctx N) (t t' : Token N) : Prop :=
  t' = t ∨ (∃ s v, t = .variable_ s ∧ ctx.getVariable s = some v ∧ t' = .number v) ∨
    (∃ s v, t = .constant s ∧ ctx.getConstant s = some v ∧ t' = .number v)

/-- Two lists of the same length whose elements are pairwise related. -/
inductive Pairwise2 {α β : Type} (R : α → β → Prop) : List α → List β → Prop
  | nil : Pairwise2 R [] []
  | cons {a : α} {b : β} {l : List α} {m : List β} (h : R a b) (t : Pairwise2 R l m) : Pairwise2 R (a :: l) (b :: m)

end Prexel
