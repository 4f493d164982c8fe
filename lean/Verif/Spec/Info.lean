import Verif.Model.Apps
/-!
# Specification: aliases and descriptions in listings
-/

namespace Prexel
variable {N V : Type}

/-- No operation of this history panics. -/
def Quiet (K : Keys) (debug : Bool) (c : Documented N) (os : List (Op N × Option Str)) : Prop :=
  ∀ before o after, os = before ++ o :: after → ((c.runAll K debug before).run K debug o.2 o.1).1 ≠ .panic

/-- An entry of a listing that says the truth about the function `f` with the description `d`, registered as `name`: it stands under one of its
names and shows its aliases and its description, and the name and all aliases shown are names of that very function. -/
structure FnInfo.Truthful (i : FnInfo) (find : Str → Option V) (f : Named V) (name : Str) (d : Option Str) : Prop where
  under : i.name ∈ name :: f.aliases
  aliases : i.aliases = f.aliases
  description : i.description = d
  name : find i.name = some f.fn
  all : ∀ a ∈ i.aliases, find a = some f.fn

/-- Each entry has a text, different functions have different ones, and the aliases are listed. -/
structure Informs (is : List FnInfo) : Prop where
  text : ∀ i ∈ is, ∃ s, i.description = some s ∧ s ≠ []
  tells : ∀ i ∈ is, ∀ j ∈ is, i.description = j.description → i.name = j.name ∨ i.name ∈ j.aliases ∨ j.name ∈ i.aliases
  listed : ∀ i ∈ is, ∀ a ∈ i.aliases, a ∈ is.map (·.name)

end Prexel
