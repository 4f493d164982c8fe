import Verif.Spec.History
/-!
# Specification: the order of registrations
-/

namespace Prexel
variable {N : Type}

/-- All operations of the history report success. -/
def AllOk (K : Keys) (debug : Bool) (c : Context N) (os : List (Op N)) : Prop := ∀ e ∈ Context.trace K debug c os, ∃ r, e.2 = .ok r

/-- Both operations give a value to the same variable, or to the same constant. -/
def Overwrites (K : Keys) : Op N → Op N → Prop
  | .setVariable x _, .setVariable y _ => x = y
  | .addConstant x _, .addConstant y _ => K.same x y = true
  | _, _ => False

end Prexel
