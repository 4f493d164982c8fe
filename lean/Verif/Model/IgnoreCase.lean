import Verif.Model.Splitter
/-!
# Names that ignore case

Models `prexel/src/utils/ignore_case_str.rs` and `prexel/src/utils/ignore_case_string.rs` (the two files have the same `Ord`, `Eq` and `Hash`).

`char::to_lowercase` of the Rust standard library is a table; the model takes it as a parameter `Lowercase` of which it only assumes what
the standard library and the Unicode Character Database document for ASCII characters.
-/

namespace Prexel

/-- `char::is_ascii`. -/
def isAscii (c : Char) : Bool := decide (c.toNat < 128)

/-- `u8::to_ascii_lowercase` / `char::to_ascii_lowercase` of the Rust standard library. -/
def asciiLower (c : Char) : Char := if 65 ≤ c.toNat ∧ c.toNat ≤ 90 then Char.ofNat (c.toNat + 32) else c

/-- `char::to_lowercase` of the Rust standard library: the characters of the lower-case form. -/
structure Lowercase where
  lower : Char → List Char
  ascii : ∀ c, isAscii c = true → lower c = [asciiLower c]
  /-- The Kelvin sign is the only character outside ASCII whose lower-case form is an ASCII character (Unicode Character Database). -/
  kelvin : ∀ c a, isAscii c = false → lower c = [a] → isAscii a = true → a = 'k'

/-- `Iterator::partial_cmp` on two `ToLowercase` iterators: lexicographic order of the characters. -/
def cmpChars : List Char → List Char → Ordering
  | [], [] => .eq
  | [], _ :: _ => .lt
  | _ :: _, [] => .gt
  | a :: l, b :: m => match compare a.toNat b.toNat with
    | .eq => cmpChars l m
    | o => o

/-- `partial_cmp_by`, prexel/src/utils/ignore_case_str.rs 104-134, with the comparison used by `PartialOrd` (76-82). It never returns `None`
because comparing characters does not. -/
def cmpIgnoreCase (L : Lowercase) : Str → Str → Ordering
  | [], [] => .eq
  | [], _ :: _ => .lt
  | _ :: _, [] => .gt
  | x :: xs, y :: ys => match cmpChars (L.lower x) (L.lower y) with
    | .eq => cmpIgnoreCase L xs ys
    | o => o

/-- `eq_ignore_case`, prexel/src/utils/ignore_case_str.rs 136-142, and `PartialEq::eq` (69-74). -/
def eqIgnoreCase (L : Lowercase) (a b : Str) : Bool := cmpIgnoreCase L a b == .eq

/-- What `Hash::hash` feeds to the hasher, prexel/src/utils/ignore_case_str.rs 85-91: the bytes, ASCII letters lowered. UTF-8 encodes the
characters that are not ASCII in bytes that are not ASCII letters, and is injective, so the sequence of characters with the ASCII letters
lowered stands for the bytes. -/
def hashInput (a : Str) : Str := a.map asciiLower

/-- When a hash map keyed by `IgnoreCaseString` finds one key under another.

`Hash` and `Eq` agree for ASCII names, so these are found exactly if they are equal ignoring case. For other names `Eq` may hold although
the hashes differ; then a hash map (`std::collections::HashMap` or `ritelinked::LinkedHashMap`) finds the key only by a collision of hash
tags. The model allows every equivalence between the two: `same` holds if the hashed bytes are the same, and only if `Eq` holds. -/
structure Keys where
  L : Lowercase
  same : Str → Str → Bool
  refl : ∀ a, same a a = true
  symm : ∀ a b, same a b = true → same b a = true
  trans : ∀ a b c, same a b = true → same b c = true → same a c = true
  hash : ∀ a b, hashInput a = hashInput b → same a b = true
  eq : ∀ a b, same a b = true → eqIgnoreCase L a b = true

end Prexel
