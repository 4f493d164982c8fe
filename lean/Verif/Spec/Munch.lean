import Verif.Spec.Words

/-!
# Specification: where a word ends
-/
namespace Prexel

/-- The character `c` directly behind the word `w` would be read as part of it: digits and points continue a number, letters, digits and
underscores an identifier, operator characters an operator. -/
def Continues (w : Str) (c : Char) : Prop :=
  match w with
  | [] => False
  | h :: _ =>
    if isDigit h then isDigit c = true ∨ c = '.'
    else if isLetter h ∨ h = '_' then isLetter c = true ∨ isDigit c = true ∨ c = '_'
    else h ∈ operatorChars ∧ c ∈ operatorChars

instance (w : Str) (c : Char) : Decidable (Continues w c) := by
  unfold Continues
  cases w <;> exact inferInstance

/-- `Written ws s`: the text `s` consists of the words `ws`, in this order, with any white space between them, before and after; two words may
stand directly next to each other if the first character of the second does not continue the first. -/
inductive Written : List Str → Str → Prop
  | nil {pre : Str} (h : Blank pre) : Written [] pre
  | cons {pre w s : Str} {ws : List Str} (h : Blank pre) (hs : Written ws s) (hc : ∀ c ∈ s.head?, ¬ Continues w c) :
      Written (w :: ws) (pre ++ (w ++ s))

end Prexel
