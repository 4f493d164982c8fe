import Verif.Model.Basic
/-!
# Specification: syntax trees of expressions

What an expression is (`Expr`), how it is written as tokens (`render`), which trees are the ones the registered precedences and
associativities dictate (`WF`), what the postfix form is (`postfix`) and what its value is (`denote`).

This file only uses the data types of `Verif.Model.Basic` (tokens, contexts); it does not mention the evaluator.
-/

namespace Prexel
variable {N : Type}

/-- A word that stands for a value. -/
inductive Atom (N : Type) where
  | num (n : N)
  | var (s : Str)
  | const (s : Str)

mutual
/-- Syntax trees.

* `signed u a` is a prefix operator directly in front of a word, as in `-2`.
* `prefixed u e` is a prefix operator in front of anything else, as in `-(2 + 3) * 4`; its operand reaches to the end of the group.
* `call f g args` is `f(args)`; `g` is the kind of bracket.
* `imp l r` is a product written without `*`. -/
inductive Expr (N : Type) where
  | atom (a : Atom N)
  | signed (u : Str) (a : Atom N)
  | prefixed (u : Str) (e : Expr N)
  | postfixed (p : Str) (e : Expr N)
  | paren (g : Grouping) (e : Expr N)
  | call (f : Str) (g : Grouping) (args : Args N)
  | bin (o : Str) (l r : Expr N)
  | imp (l r : Expr N)
/-- One or more arguments. -/
inductive Args (N : Type) where
  | one (e : Expr N)
  | more (e : Expr N) (rest : Args N)
end

/-- The number of arguments. -/
def Args.count : Args N → Nat
  | .one _ => 1
  | .more _ rest => rest.count + 1

def Atom.token : Atom N → Token N
  | .num n => .number n
  | .var s => .variable_ s
  | .const s => .constant s

mutual
/-- The expression as written. -/
def Expr.render : Expr N → List (Token N)
  | .atom a => [a.token]
  | .signed u a => [.unary u, a.token]
  | .prefixed u e => .unary u :: e.render
  | .postfixed p e => e.render ++ [.unary p]
  | .paren g e => .gopen g.opn :: (e.render ++ [.gclose g.cls])
  | .call f g args => .function f :: .gopen g.opn :: (args.render ++ [.gclose g.cls])
  | .bin o l r => l.render ++ .binary o :: r.render
  | .imp l r => l.render ++ r.render
/-- The arguments as written, separated by commas. -/
def Args.render : Args N → List (Token N)
  | .one e => e.render
  | .more e rest => e.render ++ .comma :: rest.render
end

mutual
/-- Postfix form: operands before operators, arguments before the number of arguments and the function. -/
def Expr.postfix : Expr N → List (Token N)
  | .atom a => [a.token]
  | .signed u a => [a.token, .unary u]
  | .prefixed u e => e.postfix ++ [.unary u]
  | .postfixed p e => e.postfix ++ [.unary p]
  | .paren _ e => e.postfix
  | .call f _ args => args.postfix ++ [.argCount args.count, .function f]
  | .bin o l r => l.postfix ++ r.postfix ++ [.binary o]
  | .imp l r => l.postfix ++ r.postfix ++ [.binary ['*']]
def Args.postfix : Args N → List (Token N)
  | .one e => e.postfix
  | .more e rest => e.postfix ++ rest.postfix
end

/-- The value of a word. -/
def Atom.denote (ctx : Ctx N) : Atom N → Res N
  | .num n => .ok n
  | .var s => Res.ofOption (ctx.getVariable s) .invalidInput
  | .const s => Res.ofOption (ctx.getConstant s) .invalidInput

mutual
/-- The value of an expression: operands from left to right, then the operator; the first error wins. -/
def Expr.denote (ctx : Ctx N) : Expr N → Res N
  | .atom a => a.denote ctx
  | .signed u a => do
    let x ← a.denote ctx
    let f ← Res.ofOption (ctx.getUnary u) .invalidInput
    f.call x
  | .prefixed u e => do
    let x ← e.denote ctx
    let f ← Res.ofOption (ctx.getUnary u) .invalidInput
    f.call x
  | .postfixed p e => do
    let x ← e.denote ctx
    let f ← Res.ofOption (ctx.getUnary p) .invalidInput
    f.call x
  | .paren _ e => e.denote ctx
  | .call f _ args => do
    let xs ← args.denote ctx
    let fn ← Res.ofOption (ctx.getFunction f) .invalidInput
    fn xs
  | .bin o l r => do
    let x ← l.denote ctx
    let y ← r.denote ctx
    let f ← Res.ofOption (ctx.getBinary o) .invalidInput
    f.call x y
  | .imp l r => do
    let x ← l.denote ctx
    let y ← r.denote ctx
    let f ← Res.ofOption (ctx.getBinary ['*']) .invalidInput
    f.call x y
/-- The values of the arguments, in order. -/
def Args.denote (ctx : Ctx N) : Args N → Res (List N)
  | .one e => do
    let x ← e.denote ctx
    pure [x]
  | .more e rest => do
    let x ← e.denote ctx
    let xs ← rest.denote ctx
    pure (x :: xs)
end

/-! ## Which tree is meant -/

/-- In `x a y b z` the operator `a` takes `y`: `a` has the higher precedence, or the precedences are equal and `a` is
left associative. -/
def GroupsLeft (ctx : Ctx N) (a b : Str) : Prop :=
  ∃ fa fb, ctx.getBinary a = some fa ∧ ctx.getBinary b = some fb ∧
    (fb.prec < fa.prec ∨ (fa.prec = fb.prec ∧ fa.assoc = .left))

/-- An operator whose right operand reaches the end of an expression. -/
inductive Open where
  | pre (u : Str)
  | bin (o : Str)

/-- The operators whose right operand reaches the end of the expression, innermost first. -/
def Expr.rightSpine : Expr N → List Open
  | .bin o _ r => r.rightSpine ++ [.bin o]
  | .imp _ r => r.rightSpine ++ [.bin ['*']]
  | .prefixed u e => e.rightSpine ++ [.pre u]
  | _ => []

/-- The binary operators whose left operand begins with the first word of the expression, innermost first. -/
def Expr.leftSpine : Expr N → List Str
  | .bin o l _ => l.leftSpine ++ [o]
  | _ => []

/-- The expression begins with a word (not with an operator, a bracket or a function). -/
def Expr.startsWithAtom : Expr N → Prop
  | .atom _ => True
  | .postfixed _ e => e.startsWithAtom
  | .bin _ l _ => l.startsWithAtom
  | .imp l _ => l.startsWithAtom
  | _ => False

/-- Postfix operators and implicit products attach to these directly. -/
def Expr.primary : Expr N → Prop
  | .atom _ => True
  | .signed _ _ => True
  | .postfixed _ _ => True
  | .paren _ _ => True
  | .call _ _ _ => True
  | _ => False

/-- The left factor of a product without `*` ends with a number or a closing bracket. -/
def Expr.impLeft : Expr N → Prop
  | .atom (.num _) => True
  | .signed _ (.num _) => True
  | .paren _ _ => True
  | .call _ _ _ => True
  | _ => False

/-- The left factor ends with a number. -/
def Expr.endsWithNumber : Expr N → Prop
  | .atom (.num _) => True
  | .signed _ (.num _) => True
  | _ => False

/-- The first token of an expression, seen as the right factor of a product without `*`: after a number anything but a number or
an operator, after a closing bracket anything but an operator. -/
def Expr.impRight (afterNumber : Prop) : Expr N → Prop
  | .atom (.num _) => ¬ afterNumber
  | .atom _ => True
  | .signed _ _ => False
  | .prefixed _ _ => False
  | .postfixed _ e => e.impRight afterNumber
  | .paren _ _ => True
  | .call _ _ _ => True
  | .bin _ l _ => l.impRight afterNumber
  | .imp l _ => l.impRight afterNumber

mutual
/-- The tree is the one the context dictates:

* operators are registered with the notation they are used with;
* around a binary operator, everything open to its left groups left of it, and it takes no operand away from the operators that
  begin its right operand;
* a product without `*` needs `implicit_mul`, and calls need parentheses unless `custom_function_call` is on. -/
def Expr.WF (ctx : Ctx N) : Expr N → Prop
  | .atom _ => True
  | .signed u _ => ∃ f, ctx.getUnary u = some f ∧ f.notation_ = .pre
  | .prefixed u e => (∃ f, ctx.getUnary u = some f ∧ f.notation_ = .pre) ∧ ¬ e.startsWithAtom ∧ e.WF ctx
  | .postfixed p e => (∃ f, ctx.getUnary p = some f ∧ f.notation_ = .post) ∧ e.primary ∧ e.WF ctx
  | .paren _ e => e.WF ctx
  | .call _ g args => (g = .parenthesis ∨ ctx.config.customFunctionCall = true) ∧ args.WF ctx
  | .bin o l r =>
    (∃ f, ctx.getBinary o = some f) ∧
    (∀ a ∈ l.rightSpine, ∃ b, a = .bin b ∧ GroupsLeft ctx b o) ∧
    (∀ b ∈ r.leftSpine, ¬ GroupsLeft ctx o b) ∧
    l.WF ctx ∧ r.WF ctx
  | .imp l r =>
    ctx.config.implicitMul = true ∧ l.impLeft ∧ r.impRight l.endsWithNumber ∧
    (∀ b ∈ r.leftSpine, ¬ GroupsLeft ctx ['*'] b) ∧
    l.WF ctx ∧ r.WF ctx
def Args.WF (ctx : Ctx N) : Args N → Prop
  | .one e => e.WF ctx
  | .more e rest => e.WF ctx ∧ rest.WF ctx
end

end Prexel
