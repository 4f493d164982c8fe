import Verif.Spec.Json
/-!
# What a query says

`application/x-www-form-urlencoded`, as the URL standard describes it.
-/

namespace Prexel

/-- The bytes that a name or a value stands for. -/
inductive Percent : Str → List ℕ → Prop
  | nil : Percent [] []
  | plus {s : Str} {l : List ℕ} : Percent s l → Percent ('+' :: s) (32 :: l)
  | byte {a b : Char} {x y : ℕ} {s : Str} {l : List ℕ} : Json.Hex a x → Json.Hex b y → Percent s l → Percent ('%' :: a :: b :: s) ((x * 16 + y) :: l)
  | plain {c : Char} {s : Str} {l : List ℕ} : c ≠ '+' → (c = '%' → ¬ ∃ a b x y t, s = a :: b :: t ∧ Json.Hex a x ∧ Json.Hex b y) → Percent s l →
      Percent (c :: s) (c.toNat :: l)

/-- A part of a query gives this value to this name: what is before and behind the first `=`. -/
def Gives (part : Str) (name value : String) : Prop :=
  ∃ k v, Percent k (name.toList.map Char.toNat) ∧ Percent v (value.toList.map Char.toNat) ∧ '=' ∉ k ∧ (part = k ++ '=' :: v ∨ (part = k ∧ v = []))

/-- The part is about this name. -/
def Mentions (part : Str) (name : String) : Prop :=
  ∃ k v, Percent k (name.toList.map Char.toNat) ∧ '=' ∉ k ∧ (part = k ++ '=' :: v ∨ (part = k ∧ v = []))

/-- The parts of a query are what is between the `&`. -/
def QueryParts (query : Str) (parts : List Str) : Prop := parts ≠ [] ∧ (∀ p ∈ parts, '&' ∉ p) ∧ query = ['&'].intercalate parts

/-- Exactly one part of the query is about the name, and it gives this value. -/
def QuerySays (query : Str) (name value : String) : Prop :=
  ∃ before part after, QueryParts query (before ++ part :: after) ∧ Gives part name value ∧ ∀ p ∈ before ++ after, ¬ Mentions p name

end Prexel
