import Verif.Model.Basic

/-!
# Specification: numbers as texts
-/
namespace Prexel

/-- One or more decimal digits. -/
def Digits (s : Str) : Prop := s ≠ [] ∧ ∀ c ∈ s, '0' ≤ c ∧ c ≤ '9'

/-- Digits, or digits, a point and digits. -/
inductive Numeral : Str → Prop
  | whole {s : Str} : Digits s → Numeral s
  | pointed {a b : Str} : Digits a → Digits b → Numeral (a ++ '.' :: b)

/-- A numeral, or a word of letters such as `inf` and `NaN`. -/
inductive NumberWord : Str → Prop
  | numeral {s : Str} : Numeral s → NumberWord s
  | letters {s : Str} : s ≠ [] → (∀ c ∈ s, ('a' ≤ c ∧ c ≤ 'z') ∨ ('A' ≤ c ∧ c ≤ 'Z')) → NumberWord s

/-- The number that is written with these digits. -/
def digitsValue (s : Str) : Nat := s.foldl (fun a c => 10 * a + (c.toNat - 48)) 0

/-- The number that a numeral stands for: `12.50` is `1250 / 10 ^ 2`. -/
inductive Stands : Str → Rat → Prop
  | whole {s : Str} : Digits s → Stands s (digitsValue s)
  | pointed {a b : Str} : Digits a → Digits b → Stands (a ++ '.' :: b) ((digitsValue (a ++ b) : Rat) / 10 ^ b.length)

theorem Stands.numeral {s : Str} {q : Rat} (h : Stands s q) : Numeral s := by
  cases h with
  | whole h => exact .whole h
  | pointed h1 h2 => exact .pointed h1 h2

end Prexel
