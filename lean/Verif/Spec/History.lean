import Verif.Model.Context
/-!
# Histories of context operations

The specification side of C24-C29: what happened, as a list of operations with their outcomes, and what that says about variables and names.
-/

namespace Prexel
variable {N : Type}

/-- The operations of a history with the outcome each of them reported. -/
def Context.trace (K : Keys) (debug : Bool) : Context N → List (Op N) → List (Op N × Res (Option N))
  | _, [] => []
  | c, o :: os => (o, (Context.run K debug c o).1) :: Context.trace K debug (Context.run K debug c o).2 os

/-- The value of the last successful `set_variable(x, _)`, if there was one. -/
def lastSet (x : Str) : List (Op N × Res (Option N)) → Option N
  | [] => none
  | (.setVariable y v, .ok _) :: t => (lastSet x t).or (if y = x then some v else none)
  | _ :: t => lastSet x t

/-- The value of the last successful `add_constant(x, _)`, up to `same`. -/
def lastConstant (same : Str → Str → Bool) (x : Str) : List (Op N × Res (Option N)) → Option N
  | [] => none
  | (.addConstant y v, .ok _) :: t => (lastConstant same x t).or (if same y x then some v else none)
  | _ :: t => lastConstant same x t

/-- A name a user may register: not blank, no white space, no control character. -/
def ValidName (name : Str) : Prop := name ≠ [] ∧ ∀ c ∈ name, isWhitespace c = false ∧ isControl c = false

/-- The name an operation introduces. -/
def Op.name : Op N → Str
  | .addFunctionAs _ n => n
  | .addUnaryFunctionAs _ n => n
  | .addBinaryFunctionAs _ n => n
  | .addConstant n _ => n
  | .setVariable n _ => n

/-- The aliases an operation introduces. -/
def Op.aliases : Op N → List Str
  | .addFunctionAs f _ => f.aliases
  | .addUnaryFunctionAs f _ => f.aliases
  | .addBinaryFunctionAs f _ => f.aliases
  | .addConstant _ _ => []
  | .setVariable _ _ => []

/-- All names a context lists: `variables().keys()`, `constants().keys()`, `functions().keys()` and so on. -/
def Context.names (c : Context N) : List Str :=
  Map.keys c.variables ++ Map.keys c.constants ++ Map.keys c.functions ++ Map.keys c.unary ++ Map.keys c.binary

/-- The names in `l` are pairwise different for `same` and none of them is found in the map. -/
def Fresh {V : Type} (same : Str → Str → Bool) (m : Map V) : List Str → Prop
  | [] => True
  | a :: l => Map.get same m a = none ∧ (∀ b ∈ l, same a b = false) ∧ Fresh same m l

/-- Operations that only add variables and constants. -/
def OnlyValues (os : List (Op N)) : Prop := ∀ o ∈ os, (∃ n v, o = .setVariable n v) ∨ ∃ n v, o = .addConstant n v

end Prexel
