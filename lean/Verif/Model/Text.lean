import Verif.Model.Tokenizer
import Verif.Model.IgnoreCase

/-!
# The string helpers

Models `prexel/src/utils/extensions/str_ext.rs`; `single_char` is `singleChar` in `Model/Tokenizer.lean`. `char::is_alphanumeric` of the Rust
standard library is a table of Unicode; it is a parameter `alnum`.
-/
namespace Prexel

/-- `char::to_ascii_uppercase` of the Rust standard library. -/
def asciiUpper (c : Char) : Char := if 97 ≤ c.toNat ∧ c.toNat ≤ 122 then Char.ofNat (c.toNat - 32) else c

/-- `StrExt::eq_char`, prexel/src/utils/extensions/str_ext.rs 26-29. -/
def eqChar (s : Str) (ch : Char) : Bool := (s.head?.map (· == ch)).getD false && s.length == 1

/-- The loop of `StrExt::to_sentence_case`, prexel/src/utils/extensions/str_ext.rs 46-54; the flag is `is_uppercase`. -/
def sentenceLoop (alnum : Char → Bool) : Bool → Str → Str
  | _, [] => []
  | done, c :: s =>
    if !done && alnum c then asciiUpper c :: sentenceLoop alnum true s
    else asciiLower c :: sentenceLoop alnum done s

/-- `StrExt::to_sentence_case`, prexel/src/utils/extensions/str_ext.rs 42-57. -/
def toSentenceCase (alnum : Char → Bool) (s : Str) : Str := sentenceLoop alnum false s

/-- The loop of `StrExt::to_capital_case`, prexel/src/utils/extensions/str_ext.rs 63-75; the flag is `next_uppercase`. -/
def capitalLoop (alnum : Char → Bool) : Bool → Str → Str
  | _, [] => []
  | next, c :: s =>
    if next && alnum c then asciiUpper c :: capitalLoop alnum false s
    else if isWhitespace c then c :: capitalLoop alnum true s
    else asciiLower c :: capitalLoop alnum next s

/-- `StrExt::to_capital_case`, prexel/src/utils/extensions/str_ext.rs 59-78. -/
def toCapitalCase (alnum : Char → Bool) (s : Str) : Str := capitalLoop alnum true s

end Prexel
