import Verif.Spec.Calls
import Verif.Props.Evaluator
/-!
# Lemmas about function calls on numbers
-/

namespace Prexel
variable {N : Type}

/-- One or more numbers as arguments. -/
def numArgs (x : N) : List N → Args N
  | [] => .one (.atom (.num x))
  | y :: ys => .more (.atom (.num x)) (numArgs y ys)

theorem numArgs_render (x : N) (xs : List N) : (numArgs x xs).render = ((x :: xs).map Token.number).intersperse .comma := by
  induction xs generalizing x with
  | nil => rfl
  | cons y ys ih => simp only [numArgs, Args.render, ih]; rfl

theorem numArgs_wf (ctx : Ctx N) (x : N) (xs : List N) : (numArgs x xs).WF ctx := by
  induction xs generalizing x with
  | nil => simp [numArgs, Args.WF, Expr.WF]
  | cons y ys ih => simp [numArgs, Args.WF, Expr.WF, ih]

theorem numArgs_denote (ctx : Ctx N) (x : N) (xs : List N) : (numArgs x xs).denote ctx = .ok (x :: xs) := by
  induction xs generalizing x with
  | nil => rfl
  | cons y ys ih => simp [numArgs, Args.denote, Expr.denote, Atom.denote, ih]

/-- A call on numbers gives what the function gives on these numbers, in this order; also without arguments. -/
theorem eval_call (ctx : Ctx N) {name : Str} {g : Fn N} (h : ctx.getFunction name = some g) (xs : List N) :
    evalTokens ctx (callTokens name xs) = g xs := by
  cases xs with
  | nil =>
    cases hg : g [] <;>
    simp [callTokens, evalTokens, infixToRpn, syLoop, syStep, dispatch, SY.init, Token.containsSymbol, implicitMulBlock,
      implicitMulHere, pushGroupingClose, popToOpen, Config.getGroupSymbol, Grouping.new, Grouping.symbols, Grouping.opn, Grouping.cls, emptyGroup,
      Config.getGroupOpenFor, Grouping.openFor, Token.isFunction, flush, rpnLoop, rpnStep, h, hg, Res.ofOption, rpnResult]
  | cons x xs =>
    have := C01_eval_eq_denote ctx (.call name .parenthesis (numArgs x xs)) ⟨.inl rfl, numArgs_wf ctx x xs⟩
    simp only [Expr.render, numArgs_render] at this
    rw [show callTokens name (x :: xs) = _ from rfl]
    refine this.trans ?_
    simp [Expr.denote, numArgs_denote, h, Res.ofOption]

/-- A binary operator between numbers. -/
theorem eval_infix (ctx : Ctx N) {o : Str} {f : BinFn N} (h : ctx.getBinary o = some f) (x y : N) :
    evalTokens ctx (infixTokens x o y) = f.call x y := by
  have := C01_eval_eq_denote ctx (.bin o (.atom (.num x)) (.atom (.num y)))
    ⟨⟨f, h⟩, by simp [Expr.rightSpine], by simp [Expr.leftSpine], trivial, trivial⟩
  refine this.trans ?_
  simp [Expr.denote, Atom.denote, h, Res.ofOption]

/-- A prefix operator before a number. -/
theorem eval_prefix (ctx : Ctx N) {u : Str} {f : UnFn N} (h : ctx.getUnary u = some f) (hf : f.notation_ = .pre) (x : N) :
    evalTokens ctx [.unary u, .number x] = f.call x := by
  have := C01_eval_eq_denote ctx (.signed u (.num x)) ⟨f, h, hf⟩
  refine this.trans ?_
  simp [Expr.denote, Atom.denote, h, Res.ofOption]

/-- A postfix operator behind a number. -/
theorem eval_postfix (ctx : Ctx N) {u : Str} {f : UnFn N} (h : ctx.getUnary u = some f) (hf : f.notation_ = .post) (x : N) :
    evalTokens ctx [.number x, .unary u] = f.call x := by
  have := C01_eval_eq_denote ctx (.postfixed u (.atom (.num x))) ⟨⟨f, h, hf⟩, trivial, trivial⟩
  refine this.trans ?_
  simp [Expr.denote, Atom.denote, h, Res.ofOption]

end Prexel
