import Verif.Spec.Relations
import Verif.Model.Tokenizer
import Verif.Spec.Tokens
import Verif.Model.Ops
import Verif.Spec.History
/-!
# Specification: one context simulates another
-/

namespace Prexel
variable {N M : Type}

/-- How much more the second of two contexts may do than the first. -/
inductive Slack where
  /-- Nothing. -/
  | none
  /-- Where the first one panics, the second may do anything. -/
  | panics
  /-- Where the first one fails or panics, the second may do anything. -/
  | failures
  deriving DecidableEq

/-- How two outcomes are related: both succeed with related values, or both fail the same way, up to what `slack` allows. -/
inductive Lift {α β : Type} (R : α → β → Prop) (slack : Slack) : Res α → Res β → Prop
  | ok {v : α} {w : β} (h : R v w) : Lift R slack (.ok v) (.ok w)
  | err (k : ErrorKind) : Lift R slack (.err k) (.err k)
  | panic : Lift R slack .panic .panic
  | anyErr (k : ErrorKind) (y : Res β) (h : slack = .failures) : Lift R slack (.err k) y
  | anyPanic (y : Res β) (h : slack ≠ .none) : Lift R slack .panic y

/-- Both absent, or both present and related. -/
inductive Both {α β : Type} (R : α → β → Prop) : Option α → Option β → Prop
  | none : Both R .none .none
  | some {a : α} {b : β} (h : R a b) : Both R (.some a) (.some b)

/-- Tokens that differ only in the numbers, which are related. -/
inductive TokenRel (R : N → M → Prop) : Token N → Token M → Prop
  | number {n : N} {m : M} (h : R n m) : TokenRel R (.number n) (.number m)
  | variable_ (s : Str) : TokenRel R (.variable_ s) (.variable_ s)
  | constant (s : Str) : TokenRel R (.constant s) (.constant s)
  | function (s : Str) : TokenRel R (.function s) (.function s)
  | binary (s : Str) : TokenRel R (.binary s) (.binary s)
  | unary (s : Str) : TokenRel R (.unary s) (.unary s)
  | argCount (n : Nat) : TokenRel R (.argCount n) (.argCount n)
  | gopen (c : Char) : TokenRel R (.gopen c) (.gopen c)
  | gclose (c : Char) : TokenRel R (.gclose c) (.gclose c)
  | unknown (s : Str) : TokenRel R (.unknown s) (.unknown s)
  | comma : TokenRel R .comma .comma

/-- Functions that give related results for related arguments. -/
def FnRel (R : N → M → Prop) (slack : Slack) (f : Fn N) (g : Fn M) : Prop := ∀ xs ys, Pairwise2 R xs ys → Lift R slack (f xs) (g ys)
/-- The same for unary operators of the same notation. -/
def UnRel (R : N → M → Prop) (slack : Slack) (f : UnFn N) (g : UnFn M) : Prop :=
  f.notation_ = g.notation_ ∧ ∀ x y, R x y → Lift R slack (f.call x) (g.call y)
/-- The same for binary operators of the same precedence and associativity. -/
def BinRel (R : N → M → Prop) (slack : Slack) (f : BinFn N) (g : BinFn M) : Prop :=
  f.prec = g.prec ∧ f.assoc = g.assoc ∧ ∀ x y x' y', R x y → R x' y' → Lift R slack (f.call x x') (g.call y y')

/-- Contexts that give related meanings to the names in `ts` (and to `*`, if it can be implied). -/
structure CtxRel (R : N → M → Prop) (slack : Slack) (c : Ctx N) (d : Ctx M) (ts : List (Token N)) : Prop where
  config : c.config = d.config
  variables : ∀ s, .variable_ s ∈ ts → Both R (c.getVariable s) (d.getVariable s)
  constants : ∀ s, .constant s ∈ ts → Both R (c.getConstant s) (d.getConstant s)
  functions : ∀ s, .function s ∈ ts → Both (FnRel R slack) (c.getFunction s) (d.getFunction s)
  unary : ∀ s, .unary s ∈ ts → Both (UnRel R slack) (c.getUnary s) (d.getUnary s)
  binary : ∀ s, .binary s ∈ ts → Both (BinRel R slack) (c.getBinary s) (d.getBinary s)
  implied : c.config.implicitMul = true → Both (BinRel R slack) (c.getBinary ['*']) (d.getBinary ['*'])

/-- The same variable or constant, given related values. -/
inductive OpRel (R : N → M → Prop) : Op N → Op M → Prop
  | setVariable (s : Str) {n : N} {m : M} (h : R n m) : OpRel R (.setVariable s n) (.setVariable s m)
  | addConstant (s : Str) {n : N} {m : M} (h : R n m) : OpRel R (.addConstant s n) (.addConstant s m)

/-- Two builds check names alike: they are of the same kind, or the names are valid. -/
def SameChecks (debug debug' : Bool) (os : List (Op N)) : Prop := debug = debug' ∨ ∀ o ∈ os, ValidName o.name

variable {F : Type}

/-- Number types whose operations give related results for related operands, except for the operators `-` (subtraction), `*` and so on
without checks, see `PlainRel`. -/
structure NumRel (R : N → M → Prop) (slack : Slack) (a : Num N F) (b : Num M F) : Prop where
  zero : R a.zero b.zero
  one : R a.one b.one
  isZero : ∀ x y, R x y → a.isZero x = b.isZero y
  isOne : ∀ x y, R x y → a.isOne x = b.isOne y
  lt : ∀ x y x' y', R x y → R x' y' → a.lt x x' = b.lt y y'
  ge : ∀ x y x' y', R x y → R x' y' → a.ge x x' = b.ge y y'
  toF64 : ∀ x y, R x y → a.toF64 x = b.toF64 y
  fromF64 : ∀ v, Lift R slack (Res.ofOption (a.fromF64 v) .overflow) (Res.ofOption (b.fromF64 v) .overflow)
  fromUsize : ∀ n, Lift R slack (Res.ofOption (a.fromUsize n) .overflow) (Res.ofOption (b.fromUsize n) .overflow)
  fuel : ∀ x y, R x y → a.fuel x = b.fuel y

/-- The checked operations give related results. -/
structure CheckedRel (R : N → M → Prop) (slack : Slack) (a : Num N F) (b : Num M F) : Prop where
  add : ∀ x y x' y', R x y → R x' y' → Lift R slack (Res.ofOption (a.checkedAdd x x') .overflow) (Res.ofOption (b.checkedAdd y y') .overflow)
  sub : ∀ x y x' y', R x y → R x' y' → Lift R slack (Res.ofOption (a.checkedSub x x') .overflow) (Res.ofOption (b.checkedSub y y') .overflow)
  mul : ∀ x y x' y', R x y → R x' y' → Lift R slack (Res.ofOption (a.checkedMul x x') .overflow) (Res.ofOption (b.checkedMul y y') .overflow)
  div : ∀ x y x' y', R x y → R x' y' → Lift R slack (Res.ofOption (a.checkedDiv x x') .overflow) (Res.ofOption (b.checkedDiv y y') .overflow)
  rem : ∀ x y x' y', R x y → R x' y' → Lift R slack (Res.ofOption (a.checkedRem x x') .overflow) (Res.ofOption (b.checkedRem y y') .overflow)
  neg : ∀ x y, R x y → Lift R slack (Res.ofOption (a.checkedNeg x) .overflow) (Res.ofOption (b.checkedNeg y) .overflow)

/-- The operations without checks, other than subtraction, give related results. -/
structure PlainRel (R : N → M → Prop) (slack : Slack) (a : Num N F) (b : Num M F) : Prop where
  add : ∀ x y x' y', R x y → R x' y' → Lift R slack (a.add x x') (b.add y y')
  mul : ∀ x y x' y', R x y → R x' y' → Lift R slack (a.mul x x') (b.mul y y')
  div : ∀ x y x' y', R x y → R x' y' → Lift R slack (a.div x x') (b.div y y')
  rem : ∀ x y x' y', R x y → R x' y' → Lift R slack (a.rem x x') (b.rem y y')
  neg : ∀ x y, R x y → Lift R slack (a.neg x) (b.neg y)

/-- Subtraction without checks gives related results. -/
def MinusRel (R : N → M → Prop) (slack : Slack) (a : Num N F) (b : Num M F) : Prop :=
  ∀ x y x' y', R x y → R x' y' → Lift R slack (a.sub x x') (b.sub y y')

/-- Where a checked operation gives a result, the operation without checks gives the same. With `Slack.none` the checked operations refuse
nothing but division by zero. -/
structure Consistent (slack : Slack) (a : Num N F) : Prop where
  add : ∀ x y, Lift Eq slack (Res.ofOption (a.checkedAdd x y) .overflow) (a.add x y)
  sub : ∀ x y, Lift Eq slack (Res.ofOption (a.checkedSub x y) .overflow) (a.sub x y)
  mul : ∀ x y, Lift Eq slack (Res.ofOption (a.checkedMul x y) .overflow) (a.mul x y)
  div : ∀ x y, a.isZero y = false → Lift Eq slack (Res.ofOption (a.checkedDiv x y) .overflow) (a.div x y)
  rem : ∀ x y, a.isZero y = false → Lift Eq slack (Res.ofOption (a.checkedRem x y) .overflow) (a.rem x y)
  neg : ∀ x, Lift Eq slack (Res.ofOption (a.checkedNeg x) .overflow) (a.neg x)
  count : ∀ n k, 0 < n → a.fromUsize n = some k → a.isZero k = false

/-- The same integer. -/
def SameInt {w w' : Width} (x : SInt w) (y : SInt w') : Prop := x.1 = y.1

/-- The conversions from and to `f64` of two integer types agree: a number that both types have is the same float, and a float that the
narrower type can represent is the same number in the wider one. -/
structure SameFloats {w w' : Width} (toF64 : SInt w → F) (fromF64 : F → Option (SInt w)) (toF64' : SInt w' → F) (fromF64' : F → Option (SInt w')) : Prop where
  to : ∀ x y, SameInt x y → toF64 x = toF64' y
  from_ : ∀ v x, fromF64 v = some x → ∃ y, fromF64' v = some y ∧ SameInt x y

/-- Names that a text cannot confuse with numbers: no variable and no constant looks like an integer. -/
def NoNumberNames (w : Width) (c : Ctx N) : Prop :=
  ∀ s, (SInt.parse w s).isSome = true → c.isVariable s = false ∧ c.isConstant s = false

/-- The functions that only a checked context has. -/
def onlyChecked (docs : Bool) : List Str :=
  [str "abs", str "floor", str "ceil", if docs then str "trunc" else str "truncate", str "round", if docs then str "signum" else str "sign"]

/-- Both builds do the same unless the debug build panics. -/
def SameUnlessPanic {α : Type} (x y : Res α) : Prop := x ≠ .panic → y = x

end Prexel
