import Verif.Model.Splitter
/-!
# Builders of splitters

Models `DefaultSplitterBuilder` and `SplitWithOperatorsBuilder` of `prexel/src/utils/splitter.rs`.
-/

namespace Prexel

/-- `DefaultSplitterBuilder`, prexel/src/utils/splitter.rs 121-124; `some true` is `SplitWhitespaceOption::Remove`. -/
structure SplitterBuilder where
  rules : List Rule
  whitespaceOption : Option Bool

namespace SplitterBuilder

/-- `DefaultSplitterBuilder::new`, prexel/src/utils/splitter.rs 127-132, also `default` (174-178) and `DefaultSplitter::builder` (68-71). -/
def new : SplitterBuilder := ⟨[], none⟩

/-- `DefaultSplitterBuilder::insert_rule`, prexel/src/utils/splitter.rs 134-140: `Vec::insert` panics beyond the length. -/
def insertRule (b : SplitterBuilder) (index : Nat) (r : Rule) : Res SplitterBuilder :=
  if index ≤ b.rules.length then .ok { b with rules := b.rules.take index ++ r :: b.rules.drop index } else .panic

/-- `DefaultSplitterBuilder::rule`, prexel/src/utils/splitter.rs 142-148. -/
def rule (b : SplitterBuilder) (r : Rule) : SplitterBuilder := { b with rules := b.rules ++ [r] }

/-- `DefaultSplitterBuilder::whitespace`, prexel/src/utils/splitter.rs 150-153. -/
def whitespace (b : SplitterBuilder) (remove : Bool) : SplitterBuilder := { b with whitespaceOption := some remove }

/-- `DefaultSplitterBuilder::build`, prexel/src/utils/splitter.rs 155-171. -/
def build (b : SplitterBuilder) : List Rule := b.rules ++ if b.whitespaceOption.getD false then [skipWhitespace] else []

/-- A call of a method of the builder. -/
inductive Call where
  | insertRule (index : Nat) (r : Rule)
  | rule (r : Rule)
  | whitespace (remove : Bool)

/-- A chain of calls, prexel/src/utils/splitter.rs 134-153. -/
def run (b : SplitterBuilder) : List Call → Res SplitterBuilder
  | [] => .ok b
  | .insertRule i r :: calls => (b.insertRule i r).bind fun b => run b calls
  | .rule r :: calls => run (b.rule r) calls
  | .whitespace w :: calls => run (b.whitespace w) calls

end SplitterBuilder

/-- `SplitWithOperatorsBuilder`, prexel/src/utils/splitter.rs 307-309: the `HashSet<char>` is the list of its members. -/
structure OperatorsBuilder where
  operators : List Char

namespace OperatorsBuilder

/-- `SplitWithOperatorsBuilder::new`, prexel/src/utils/splitter.rs 311-318. -/
def new : OperatorsBuilder := ⟨operatorChars⟩

/-- `SplitWithOperatorsBuilder::empty`, prexel/src/utils/splitter.rs 320-322. -/
def empty : OperatorsBuilder := ⟨[]⟩

/-- `SplitWithOperatorsBuilder::add_operator`, prexel/src/utils/splitter.rs 324-327. -/
def addOperator (b : OperatorsBuilder) (c : Char) : OperatorsBuilder := ⟨if c ∈ b.operators then b.operators else c :: b.operators⟩

/-- `SplitWithOperatorsBuilder::except`, prexel/src/utils/splitter.rs 329-332. -/
def except (b : OperatorsBuilder) (c : Char) : OperatorsBuilder := ⟨b.operators.filter (· != c)⟩

/-- `SplitWithOperatorsBuilder::build`, prexel/src/utils/splitter.rs 334-338. -/
def build (b : OperatorsBuilder) : Rule := splitWithOperators b.operators

/-- A chain of calls: `(true, c)` is `add_operator(c)`, `(false, c)` is `except(c)`; prexel/src/utils/splitter.rs 324-332. -/
def run (b : OperatorsBuilder) (calls : List (Bool × Char)) : OperatorsBuilder :=
  calls.foldl (fun b call => if call.1 then b.addOperator call.2 else b.except call.2) b

end OperatorsBuilder

end Prexel
