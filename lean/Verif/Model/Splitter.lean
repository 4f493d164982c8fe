import Verif.Model.Basic
/-!
# The splitter

Models `prexel/src/utils/splitter.rs`. A `Peekable<Chars>` is the list of the characters still to come; a rule can only advance
it, so a rule returns its outcome and the number of characters it consumed.
-/

namespace Prexel

/-- `char::is_whitespace` of the Rust standard library: the Unicode property White_Space. -/
def isWhitespace (c : Char) : Bool :=
  (9 ≤ c.toNat && c.toNat ≤ 13) || c.toNat == 32 || c.toNat == 0x85 || c.toNat == 0xA0 || c.toNat == 0x1680 ||
  (0x2000 ≤ c.toNat && c.toNat ≤ 0x200A) || c.toNat == 0x2028 || c.toNat == 0x2029 || c.toNat == 0x202F || c.toNat == 0x205F ||
  c.toNat == 0x3000

/-- `'0'..='9'`, also `char::is_ascii_digit`. -/
def isDigit (c : Char) : Bool := '0' ≤ c && c ≤ '9'

/-- `'a'..='z' | 'A'..='Z'`. -/
def isLetter (c : Char) : Bool := ('a' ≤ c && c ≤ 'z') || ('A' ≤ c && c ≤ 'Z')

/-- `Outcome`, prexel/src/utils/splitter.rs 185-192. -/
inductive Outcome
  | data (s : Str)
  | cont
  | skip
  deriving DecidableEq, Repr

/-- `SplitRule::split`, prexel/src/utils/splitter.rs 194-196: the outcome and how far `rest` was advanced. -/
abbrev Rule := Char → Str → Outcome × Nat

/-- A rule of the shape "if `c` starts a word, take `c` and the following valid characters"
(`while let Some(c) = rest.next_if(valid)`). -/
def spanRule (start valid : Char → Bool) : Rule := fun c rest =>
  if start c then (.data (c :: rest.takeWhile valid), (rest.takeWhile valid).length) else (.cont, 0)

/-- `SplitIdentifier`, prexel/src/utils/splitter.rs 199-221. -/
def splitIdentifier : Rule :=
  spanRule (fun c => isLetter c || c == '_') (fun c => isLetter c || isDigit c || c == '_')

/-- The loop of `SplitNumeric`, prexel/src/utils/splitter.rs 237-247: the characters kept and the number of characters consumed. The
second point is consumed but not kept. -/
def numericLoop (hasPoint : Bool) : Str → Str × Nat
  | [] => ([], 0)
  | c :: rest =>
    if isDigit c then
      let r := numericLoop hasPoint rest
      (c :: r.1, r.2 + 1)
    else if c == '.' then
      if hasPoint then ([], 1)
      else
        let r := numericLoop true rest
        (c :: r.1, r.2 + 1)
    else ([], 0)

/-- `SplitNumeric`, prexel/src/utils/splitter.rs 223-255. -/
def splitNumeric : Rule := fun c rest =>
  if isDigit c then
    let r := numericLoop false rest
    (.data (c :: r.1), r.2)
  else (.cont, 0)

/-- The characters of `SplitOperator`, prexel/src/utils/splitter.rs 260-289, and of `SplitWithOperatorsBuilder::new` (312-315). -/
def operatorChars : List Char :=
  ['~', '`', '!', '@', '#', '$', '%', '^', '&', '*', '-', '+', '_', ':', ';', '"', '\'', '|', '\\', '?', '.', '<', '>', '/', '=', ',']

/-- `SplitWithOperators`, prexel/src/utils/splitter.rs 341-373. -/
def splitWithOperators (ops : List Char) : Rule := spanRule (fun c => ops.contains c) (fun c => ops.contains c)

/-- `SplitOperator`, prexel/src/utils/splitter.rs 257-305. -/
def splitOperator : Rule := splitWithOperators operatorChars

/-- `SkipWhitespace`, prexel/src/utils/splitter.rs 375-384. -/
def skipWhitespace : Rule := fun c _ => if isWhitespace c then (.skip, 0) else (.cont, 0)

/-- `SplitBinary`, prexel/src/utils/splitter.rs 386-415. -/
def splitBinary : Rule := fun c rest =>
  if c == 'b' && (rest.head? == some '1' || rest.head? == some '0') then
    (.data (c :: rest.takeWhile isDigit), (rest.takeWhile isDigit).length)
  else (.cont, 0)

/-- The `for rule in &self.rules` loop, prexel/src/utils/splitter.rs 89-109: the outcome for one character and what is left. Without a
matching rule the character is a token of its own. -/
def runRules : List Rule → Char → Str → Outcome × Str
  | [], c, rest => (.data [c], rest)
  | r :: rules, c, rest =>
    match r c rest with
    | (.data s, n) => (.data s, rest.drop n)
    | (.skip, n) => (.skip, rest.drop n)
    | (.cont, n) => runRules rules c (rest.drop n)

/-- The main loop of `split_into_tokens`, with the number of iterations bounded by `fuel`. -/
def splitLoop (rules : List Rule) : Nat → Str → List Str
  | 0, _ => []
  | _, [] => []
  | fuel + 1, c :: rest =>
    match runRules rules c rest with
    | (.data s, rest') => s :: splitLoop rules fuel rest'
    | (_, rest') => splitLoop rules fuel rest'

/-- `DefaultSplitter::split_into_tokens`, prexel/src/utils/splitter.rs 79-113. Every iteration consumes a character, so the length is
enough fuel (`split_cons`). -/
def split (rules : List Rule) (s : Str) : List Str := splitLoop rules s.length s

/-- `DefaultSplitter::new`, prexel/src/utils/splitter.rs 34-41 with `build` (155-170); `remove` is `SplitWhitespaceOption::Remove`. -/
def splitterNew (remove : Bool) : List Rule :=
  [splitNumeric, splitIdentifier, splitOperator] ++ if remove then [skipWhitespace] else []

/-- `DefaultSplitter::default`, prexel/src/utils/splitter.rs 115-119. -/
def defaultRules : List Rule := splitterNew true

/-- `DefaultSplitter::with_numeric_rule`, prexel/src/utils/splitter.rs 43-53. -/
def withNumericRule (r : Rule) : List Rule := [r, splitIdentifier, splitOperator, skipWhitespace]

/-- `DefaultSplitter::with_identifier_rule`, prexel/src/utils/splitter.rs 55-66. -/
def withIdentifierRule (r : Rule) : List Rule := [splitNumeric, r, splitIdentifier, splitOperator, skipWhitespace]

/-- `binary_number_splitter`, prexel/src/binary/mod.rs 93-101. -/
def binaryRules : List Rule := [splitBinary, splitNumeric, splitIdentifier, splitOperator, skipWhitespace]

/-- `SplitRepl` inside `repl_tokenizer`, eval/src/repl/mod.rs 137-159. -/
def splitRepl : Rule := spanRule (fun c => c == '$') (fun c => isLetter c || isDigit c || c == '_')

/-- The splitter of `repl_tokenizer`, eval/src/repl/mod.rs 161-172. -/
def replRules (isBinary : Bool) : List Rule :=
  (if isBinary then [splitBinary] else []) ++
    [splitRepl, splitNumeric, splitIdentifier, splitWithOperators (operatorChars.filter (· != '$')), skipWhitespace]

end Prexel
