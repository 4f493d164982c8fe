import Verif.Spec.Json
import Verif.Model.Info
/-!
# What a listing in JSON says
-/

namespace Prexel.Json

/-- An object with exactly the members `name`, `aliases` (an array of strings) and `description` (a string or `null`). -/
def IsFnInfo (v : Json) (i : FnInfo) : Prop :=
  ∃ ms a bs d, v = .obj ms ∧ Named ms [(Prexel.str "name", a), (Prexel.str "aliases", .arr bs), (Prexel.str "description", d)] ∧
    IsString a i.name ∧ List.Forall₂ IsString bs i.aliases ∧ Optional IsString d i.description

/-- An object with exactly the members `name` and `value`, which are strings. -/
def IsConstant (v : Json) (e : Str × Str) : Prop :=
  ∃ ms a b, v = .obj ms ∧ Named ms [(Prexel.str "name", a), (Prexel.str "value", b)] ∧ IsString a e.1 ∧ IsString b e.2

/-- The body is a JSON text: an array of functions or operators, in this order. -/
def ListsFunctions (body : Str) (l : List FnInfo) : Prop := ∃ vs, IsText body (.arr vs) ∧ List.Forall₂ IsFnInfo vs l

/-- The body is a JSON text: an array of constants, in this order. -/
def ListsConstants (body : Str) (l : List (Str × Str)) : Prop := ∃ vs, IsText body (.arr vs) ∧ List.Forall₂ IsConstant vs l

end Prexel.Json
