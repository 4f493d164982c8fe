import Verif.Model.Effects
import Verif.Spec.Syntax
/-!
# Specification: effects in an expression
-/

namespace Prexel
variable {σ N : Type}

mutual
/-- The value and the effects of an expression: operands from left to right, then the operator, each once; nothing after the first error. -/
def Expr.run (c : EffCtx σ N) : Expr N → Action σ N
  | .atom a => .lift (a.denote c.ctx)
  | .signed u a => Action.bind (.lift (a.denote c.ctx)) fun x => c.unary u x
  | .prefixed u e => (e.run c).bind fun x => c.unary u x
  | .postfixed p e => (e.run c).bind fun x => c.unary p x
  | .paren _ e => e.run c
  | .call f _ args => (args.run c).bind fun xs => Action.bind (.lift (Res.ofOption (c.ctx.getFunction f) .invalidInput)) fun _ => c.function f xs
  | .bin o l r => (l.run c).bind fun x => (r.run c).bind fun y => c.binary o x y
  | .imp l r => (l.run c).bind fun x => (r.run c).bind fun y =>
      Action.bind (.lift (Res.ofOption (c.ctx.getBinary ['*']) .invalidInput)) fun _ => c.binary ['*'] x y
/-- The arguments, in order. -/
def Args.run (c : EffCtx σ N) : Args N → Action σ (List N)
  | .one e => (e.run c).bind fun x => .lift (.ok [x])
  | .more e rest => (e.run c).bind fun x => (rest.run c).bind fun xs => .lift (.ok (x :: xs))
end

/-- A call of a registered operator or function. -/
inductive Call (N : Type) where
  | unary (name : Str) (x : N)
  | binary (name : Str) (x y : N)
  | function (name : Str) (xs : List N)
  deriving DecidableEq, Repr

/-- The word that was called. -/
def Call.token : Call N → Token N
  | .unary n _ => .unary n
  | .binary n _ _ => .binary n
  | .function n _ => .function n

/-- A computation that notes a call before it is made. -/
def noting {α : Type} (k : Call N) (m : Action σ α) : Action (σ × List (Call N)) α := fun s =>
  let r := m s.1
  (r.1, (r.2, s.2 ++ [k]))

/-- The same context, with a log of the calls. -/
def EffCtx.logged (c : EffCtx σ N) : EffCtx (σ × List (Call N)) N where
  ctx := c.ctx
  unary n x := noting (.unary n x) (c.unary n x)
  binary n x y := noting (.binary n x y) (c.binary n x y)
  function n xs := noting (.function n xs) (c.function n xs)

/-- The calls that evaluating tokens makes, in order. -/
def callsOf (c : EffCtx σ N) (ts : List (Token N)) (s : σ) : List (Call N) := (evalTokensE c.logged ts (s, [])).2.2

/-- The context without effects. -/
def Ctx.noEffects (ctx : Ctx N) : EffCtx σ N where
  ctx := ctx
  unary n x := .lift ((Res.ofOption (ctx.getUnary n) .invalidInput).bind fun f => f.call x)
  binary n x y := .lift ((Res.ofOption (ctx.getBinary n) .invalidInput).bind fun f => f.call x y)
  function n xs := .lift ((Res.ofOption (ctx.getFunction n) .invalidInput).bind fun f => f xs)

end Prexel
