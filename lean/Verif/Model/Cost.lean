import Verif.Model.Tokenizer
import Verif.Model.Ops
/-!
# The work of an evaluation

Counts the rounds of every loop in `split_into_tokens`, `tokenize`, `infix_to_rpn` and `rpn_eval`, and of the loop of `Factorial`. What is done in one
round does not count further: looking up a name, reading a number, copying a word or a token, calling a function. Each definition follows the one
of the model that computes the result of the same loop, which it uses to go from round to round.
-/

namespace Prexel
variable {N F : Type}

/-- The `for rule in &self.rules` loop, prexel/src/utils/splitter.rs 89-105: a round for every rule that is tried, and one for every character that
a rule takes (the loops of the rules, e.g. 209-213). Compare `runRules`. -/
def runRulesCost : List Rule → Char → Str → Nat
  | [], _, _ => 0
  | r :: rules, c, rest =>
    match r c rest with
    | (.data _, n) => 1 + n
    | (.skip, n) => 1 + n
    | (.cont, n) => 1 + n + runRulesCost rules c (rest.drop n)

/-- The `while` loop of `split_into_tokens`, prexel/src/utils/splitter.rs 84-110. Compare `splitLoop`. -/
def splitLoopCost (rules : List Rule) : Nat → Str → Nat
  | 0, _ => 0
  | _, [] => 0
  | fuel + 1, c :: rest => 1 + runRulesCost rules c rest + splitLoopCost rules fuel (runRules rules c rest).2

/-- `split_into_tokens`, prexel/src/utils/splitter.rs 79-113. -/
def splitCost (rules : List Rule) (s : Str) : Nat := splitLoopCost rules s.length s

/-- The `while` loop of `push_binary_function`, prexel/src/evaluator.rs 546-577. Compare `popForBinary`. -/
def popForBinaryCost (ctx : Ctx N) (operator : BinFn N) : List (Token N) → Nat
  | [] => 0
  | t :: ops =>
    match t with
    | .gopen _ => 1
    | .function _ => 1 + popForBinaryCost ctx operator ops
    | .binary op =>
      match ctx.getBinary op with
      | some top => if popsBefore top operator then 1 + popForBinaryCost ctx operator ops else 1
      | none => 1
    | _ => 1

/-- The `while` loops of `push_grouping_close` and `push_comma`, prexel/src/evaluator.rs 595-617 and 645-655. Compare `popToOpen` and
`popUntilOpen`. -/
def popOpenCost : List (Token N) → Nat
  | [] => 0
  | .gopen _ :: _ => 1
  | _ :: ops => 1 + popOpenCost ops

/-- The loops inside one round of the main loop, prexel/src/evaluator.rs 329-406. Compare `dispatch`. A comma in a wrong place is refused before
the loop of `push_comma`; counting that loop anyway is at most too much. -/
def dispatchCost (ctx : Ctx N) (token : Token N) (st : SY N) : Nat :=
  match token with
  | .binary name =>
    match ctx.getBinary name with
    | some operator => popForBinaryCost ctx operator st.ops
    | none => 0
  | .gclose _ => popOpenCost st.ops
  | .comma => popOpenCost st.ops
  | _ => 0

/-- The main loop, prexel/src/evaluator.rs 327-434, until it ends or fails, with the loop at the end (436-445). Compare `syLoop` and `flush`. -/
def syCost (ctx : Ctx N) (tokens : List (Token N)) : Nat → List (Token N) → SY N → Nat
  | _, [], st => st.ops.length
  | pos, t :: rest, st => 1 + dispatchCost ctx t st +
    match syStep ctx tokens pos t rest.head? st with
    | .ok st => syCost ctx tokens (pos + 1) rest st
    | _ => 0

/-- The loop of `rpn_eval`, prexel/src/evaluator.rs 137-262, until it ends or fails, with the loop over the arguments of a function (235-245), which
makes a round for each argument that was counted, there or not. Compare `rpnLoop`. -/
def rpnCost (ctx : Ctx N) : List (Token N) → List N → Option Nat → Nat
  | [], _, _ => 0
  | t :: rest, values, argc => 1 + (if t.isFunction then argc.getD 0 else 0) +
    match rpnStep ctx t values argc with
    | .ok r => rpnCost ctx rest r.1 r.2
    | _ => 0

/-- `rpn_eval`, prexel/src/evaluator.rs 125-270. -/
def evalTokensCost (ctx : Ctx N) (tokens : List (Token N)) : Nat :=
  syCost ctx tokens 0 tokens SY.init +
    match infixToRpn ctx tokens with
    | .ok rpn => rpnCost ctx rpn [] none
    | _ => 0

/-- `Evaluator::eval`, prexel/src/evaluator.rs 99-103, with `tokenize`, prexel/src/tokenizer.rs 69-178: a round for every word. -/
def evalCost (parse : Str → Option N) (rules : List Rule) (ctx : Ctx N) (s : Str) : Nat :=
  splitCost rules s + (split rules s).length +
    match tokenize parse (split rules) ctx s with
    | .ok tokens => evalTokensCost ctx tokens
    | _ => 0

/-- The rounds of the `while` loop of `Factorial`, prexel/src/ops/mod.rs 399-402, within the first `fuel` rounds. Compare `Ops.factorialLoop`. -/
def factorialCost (num : Num N F) : Nat → N → N → Nat
  | 0, _, _ => 0
  | fuel + 1, total, next =>
    if num.ge next num.one then
      1 + match num.mul total next, num.sub next num.one with
        | .ok total, .ok next => factorialCost num fuel total next
        | _, _ => 0
    else 0

end Prexel
