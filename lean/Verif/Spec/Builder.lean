import Verif.Model.Builder
/-!
# Specification: splitters made with the builder
-/

namespace Prexel

/-- The rules that the crate offers, other than `SkipWhitespace`; the operator characters are not white space. -/
inductive Stock : Rule → Prop
  | numeric : Stock splitNumeric
  | identifier : Stock splitIdentifier
  | operator : Stock splitOperator
  | binary : Stock splitBinary
  | operators (b : OperatorsBuilder) (h : ∀ c ∈ b.operators, isWhitespace c = false) : Stock b.build

namespace SplitterBuilder

/-- The rules that the calls mention are those of the crate. -/
def StockCalls (calls : List Call) : Prop := ∀ call ∈ calls, match call with
  | .insertRule _ r => Stock r
  | .rule r => Stock r
  | .whitespace _ => True

/-- The rules in the order the calls put them, starting with `rules`; `none` if an index is out of range. -/
def ordered (rules : List Rule) : List Call → Option (List Rule)
  | [] => some rules
  | .insertRule i r :: calls => if i ≤ rules.length then ordered (rules.take i ++ r :: rules.drop i) calls else none
  | .rule r :: calls => ordered (rules ++ [r]) calls
  | .whitespace _ :: calls => ordered rules calls

/-- The argument of a `whitespace` call. -/
def whitespaceSaid : Call → Option Bool
  | .whitespace w => some w
  | _ => none

/-- What the last `whitespace` call says, `start` without one. -/
def removes (start : Bool) (calls : List Call) : Bool := ((calls.filterMap whitespaceSaid).getLast?).getD start

end SplitterBuilder

/-- What the last call about `c` says, or `start` if there is none. -/
def lastSays (start : Bool) (c : Char) : List (Bool × Char) → Bool
  | [] => start
  | (b, c') :: calls => if c' = c then lastSays b c calls else lastSays start c calls

end Prexel
