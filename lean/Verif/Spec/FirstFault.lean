import Verif.Model.Messages
import Verif.Spec.Syntax
/-!
# Specification: the first step of an evaluation that fails, and its error

Operands are evaluated from left to right, then their operator or function. `e.FirstFault M ctx f` says: the first step that fails, in this order, has
the error `f`. All steps before it have values.
-/

namespace Prexel
variable {N : Type}

mutual
/-- The first step of evaluating the expression that fails has this error. `M` are the messages of the functions and operators of the context. -/
inductive Expr.FirstFault (M : Inner N) (ctx : Ctx N) : Expr N → Fault → Prop
  | var (s : Str) (h : ctx.getVariable s = none) :
      Expr.FirstFault M ctx (.atom (.var s)) (.new .invalidInput (str "Variable `" ++ s ++ str "` not found"))
  | const (s : Str) (h : ctx.getConstant s = none) :
      Expr.FirstFault M ctx (.atom (.const s)) (.new .invalidInput (str "Constant `" ++ s ++ str "` not found"))
  /-- The word behind the sign fails. -/
  | signedWord (u : Str) (a : Atom N) (f : Fault) (h : Expr.FirstFault M ctx (.atom a) f) : Expr.FirstFault M ctx (.signed u a) f
  /-- The sign itself fails. -/
  | signed (u : Str) (a : Atom N) (x : N) (h : a.denote ctx = .ok x) (op : UnFn N) (ho : ctx.getUnary u = some op) (k : ErrorKind)
      (hk : op.call x = .err k) : Expr.FirstFault M ctx (.signed u a) ⟨k, M.unary u x⟩
  | prefixedOperand (u : Str) (e : Expr N) (f : Fault) (h : e.FirstFault M ctx f) : Expr.FirstFault M ctx (.prefixed u e) f
  | prefixed (u : Str) (e : Expr N) (x : N) (h : e.denote ctx = .ok x) (op : UnFn N) (ho : ctx.getUnary u = some op) (k : ErrorKind)
      (hk : op.call x = .err k) : Expr.FirstFault M ctx (.prefixed u e) ⟨k, M.unary u x⟩
  | postfixedOperand (p : Str) (e : Expr N) (f : Fault) (h : e.FirstFault M ctx f) : Expr.FirstFault M ctx (.postfixed p e) f
  | postfixed (p : Str) (e : Expr N) (x : N) (h : e.denote ctx = .ok x) (op : UnFn N) (ho : ctx.getUnary p = some op) (k : ErrorKind)
      (hk : op.call x = .err k) : Expr.FirstFault M ctx (.postfixed p e) ⟨k, M.unary p x⟩
  | paren (g : Grouping) (e : Expr N) (f : Fault) (h : e.FirstFault M ctx f) : Expr.FirstFault M ctx (.paren g e) f
  /-- An argument fails, even if the function does not exist. -/
  | callArgument (name : Str) (g : Grouping) (args : Args N) (f : Fault) (h : args.FirstFault M ctx f) : Expr.FirstFault M ctx (.call name g args) f
  /-- There is no such function. -/
  | callMissing (name : Str) (g : Grouping) (args : Args N) (xs : List N) (h : args.denote ctx = .ok xs) (hn : ctx.getFunction name = none) :
      Expr.FirstFault M ctx (.call name g args) (.new .invalidInput (str "Function `" ++ name ++ str "` not found"))
  | call (name : Str) (g : Grouping) (args : Args N) (xs : List N) (h : args.denote ctx = .ok xs) (fn : List N → Res N)
      (hf : ctx.getFunction name = some fn) (k : ErrorKind) (hk : fn xs = .err k) : Expr.FirstFault M ctx (.call name g args) ⟨k, M.function name xs⟩
  | binLeft (o : Str) (l r : Expr N) (f : Fault) (h : l.FirstFault M ctx f) : Expr.FirstFault M ctx (.bin o l r) f
  | binRight (o : Str) (l r : Expr N) (x : N) (hl : l.denote ctx = .ok x) (f : Fault) (h : r.FirstFault M ctx f) : Expr.FirstFault M ctx (.bin o l r) f
  | bin (o : Str) (l r : Expr N) (x y : N) (hl : l.denote ctx = .ok x) (hr : r.denote ctx = .ok y) (op : BinFn N) (ho : ctx.getBinary o = some op)
      (k : ErrorKind) (hk : op.call x y = .err k) : Expr.FirstFault M ctx (.bin o l r) ⟨k, M.binary o x y⟩
  | impLeft (l r : Expr N) (f : Fault) (h : l.FirstFault M ctx f) : Expr.FirstFault M ctx (.imp l r) f
  | impRight (l r : Expr N) (x : N) (hl : l.denote ctx = .ok x) (f : Fault) (h : r.FirstFault M ctx f) : Expr.FirstFault M ctx (.imp l r) f
  /-- There is no `*` for a product without it. -/
  | impMissing (l r : Expr N) (x y : N) (hl : l.denote ctx = .ok x) (hr : r.denote ctx = .ok y) (hn : ctx.getBinary ['*'] = none) :
      Expr.FirstFault M ctx (.imp l r) (.new .invalidInput (str "Binary operator `*` not found"))
  | imp (l r : Expr N) (x y : N) (hl : l.denote ctx = .ok x) (hr : r.denote ctx = .ok y) (op : BinFn N) (ho : ctx.getBinary ['*'] = some op)
      (k : ErrorKind) (hk : op.call x y = .err k) : Expr.FirstFault M ctx (.imp l r) ⟨k, M.binary ['*'] x y⟩
/-- The first argument that fails has this error. -/
inductive Args.FirstFault (M : Inner N) (ctx : Ctx N) : Args N → Fault → Prop
  | one (e : Expr N) (f : Fault) (h : e.FirstFault M ctx f) : Args.FirstFault M ctx (.one e) f
  | here (e : Expr N) (rest : Args N) (f : Fault) (h : e.FirstFault M ctx f) : Args.FirstFault M ctx (.more e rest) f
  | later (e : Expr N) (rest : Args N) (x : N) (hx : e.denote ctx = .ok x) (f : Fault) (h : rest.FirstFault M ctx f) :
      Args.FirstFault M ctx (.more e rest) f
end

end Prexel
