import Verif.Model.Context
/-!
# Specification: what a context provides
-/

namespace Prexel
variable {N : Type}

/-- Equal up to the case of ASCII letters. -/
def CaseVariant (a b : Str) : Prop := a.map asciiLower = b.map asciiLower

instance (a b : Str) : Decidable (CaseVariant a b) := inferInstanceAs (Decidable (_ = _))

/-- A look-up finds exactly the functions of a list, each under every case variant of its name and of its aliases. -/
def Finds {V : Type} (get : Str → Option V) (fs : List (Named V)) : Prop :=
  (∀ f ∈ fs, ∀ n ∈ f.name :: f.aliases, ∀ k, CaseVariant n k → get k = some f.fn) ∧
  (∀ k v, get k = some v → ∃ f ∈ fs, v = f.fn ∧ ∃ n ∈ f.name :: f.aliases, CaseVariant n k)

/-- A context that has exactly these constants, operators and functions, and no variables. -/
structure Provides (v : Ctx N) (config : Config) (constants : List (Str × N)) (binary : List (Named (BinFn N)))
    (unary : List (Named (UnFn N))) (functions : List (Named (Fn N))) : Prop where
  config : v.config = config
  variables : ∀ k, v.getVariable k = none
  constants : (∀ e ∈ constants, ∀ k, CaseVariant e.1 k → v.getConstant k = some e.2) ∧
    (∀ k x, v.getConstant k = some x → ∃ e ∈ constants, x = e.2 ∧ CaseVariant e.1 k)
  binary : Finds v.getBinary binary
  unary : Finds v.getUnary unary
  functions : Finds v.getFunction functions

end Prexel
