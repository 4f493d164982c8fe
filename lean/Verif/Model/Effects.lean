import Verif.Model.Tokenizer
/-!
# Functions with effects

`rpn_eval` again, for functions and operators that read and change a state outside the evaluator: `call(&self, ..)` (prexel/src/function.rs) may
use a `Cell`, a file or a random number generator. `Verif.Model.Evaluator` is the special case without effects (`C112_pure`).

The state is kept when a call fails or panics.
-/

namespace Prexel
variable {σ N α β : Type}

/-- A computation with a state. -/
abbrev Action (σ α : Type) := σ → Res α × σ

namespace Action

/-- No effect. -/
def lift (x : Res α) : Action σ α := fun s => (x, s)

/-- The `?` operator. -/
def bind (m : Action σ α) (f : α → Action σ β) : Action σ β := fun s =>
  match m s with
  | (.ok a, s') => f a s'
  | (.err k, s') => (.err k, s')
  | (.panic, s') => (.panic, s')

end Action

/-- A context whose functions have effects. `ctx` is what the evaluator looks up: which names exist, precedences, associativities, notations,
variables and constants; its `call`s are not used. The other fields are what the calls do, prexel/src/function.rs 4-70. -/
structure EffCtx (σ N : Type) where
  ctx : Ctx N
  unary : Str → N → Action σ N
  binary : Str → N → N → Action σ N
  function : Str → List N → Action σ N

variable (c : EffCtx σ N)

/-- The `match token` of the loop of `rpn_eval`, prexel/src/evaluator.rs 138-261; compare `rpnStep`. -/
def rpnStepE (token : Token N) (values : List N) (argc : Option Nat) : Action σ (List N × Option Nat) :=
  match token with
  | .number n => .lift (.ok (n :: values, argc))
  | .variable_ name => .lift ((Res.ofOption (c.ctx.getVariable name) .invalidInput).bind fun n => .ok (n :: values, argc))
  | .constant name => .lift ((Res.ofOption (c.ctx.getConstant name) .invalidInput).bind fun n => .ok (n :: values, argc))
  | .argCount n => .lift (if argc.isSome then .panic else .ok (values, some n))
  | .unary name =>
    Action.bind (.lift (Res.ofOption (c.ctx.getUnary name) .invalidInput)) fun _ =>
      match values with
      | n :: values => (c.unary name n).bind fun r => .lift (.ok (r :: values, argc))
      | [] => .lift (.err .invalidExpression)
  | .binary name =>
    Action.bind (.lift (Res.ofOption (c.ctx.getBinary name) .invalidInput)) fun _ =>
      match values with
      | x :: y :: values => (c.binary name y x).bind fun r => .lift (.ok (r :: values, argc))
      | _ => .lift (.err .invalidExpression)
  | .function name =>
    Action.bind (.lift (Res.ofOption (c.ctx.getFunction name) .invalidInput)) fun _ =>
      Action.bind (.lift (Res.ofOption argc .invalidInput)) fun n =>
        (c.function name (values.take n).reverse).bind fun r => .lift (.ok (r :: values.drop n, none))
  | _ => .lift (.err .invalidInput)

/-- The loop of `rpn_eval`, prexel/src/evaluator.rs 137-262. -/
def rpnLoopE : List (Token N) → List N → Option Nat → Action σ (List N)
  | [], values, _ => .lift (.ok values)
  | t :: rest, values, argc => (rpnStepE c t values argc).bind fun r => rpnLoopE rest r.1 r.2

/-- `rpn_eval`, prexel/src/evaluator.rs 125-270. -/
def evalTokensE (tokens : List (Token N)) : Action σ N :=
  Action.bind (.lift (infixToRpn c.ctx tokens)) fun rpn => (rpnLoopE c rpn [] none).bind fun vs => .lift (rpnResult vs)

/-- `Evaluator::eval`, prexel/src/evaluator.rs 99-103. -/
def evalE (parse : Str → Option N) (splitter : Str → List Str) (s : Str) : Action σ N :=
  Action.bind (.lift (tokenize parse splitter c.ctx s)) (evalTokensE c)

end Prexel
