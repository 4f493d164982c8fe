import Verif.Lemmas.LoopExpr
/-!
# Evaluating the postfix form of an expression
-/

set_option linter.unusedVariables false
set_option linter.unusedSimpArgs false

namespace Prexel
variable {N : Type}

theorem rpnLoop_cons (ctx : Ctx N) (t : Token N) (rest : List (Token N)) (vals : List N) (ac : Option Nat) :
    rpnLoop ctx (t :: rest) vals ac = (rpnStep ctx t vals ac).bind fun r => rpnLoop ctx rest r.1 r.2 := rfl

theorem rpnLoop_atom (ctx : Ctx N) (a : Atom N) (rest : List (Token N)) (vals : List N) (ac : Option Nat) :
    rpnLoop ctx (a.token :: rest) vals ac = (a.denote ctx).bind fun v => rpnLoop ctx rest (v :: vals) ac := by
  cases a <;> simp [rpnLoop_cons, Atom.token, rpnStep, Atom.denote, Res.bind_assoc]

theorem rpnLoop_unary (ctx : Ctx N) (u : Str) (rest : List (Token N)) (v : N) (vals : List N) (ac : Option Nat) :
    rpnLoop ctx (.unary u :: rest) (v :: vals) ac =
      (Res.ofOption (ctx.getUnary u) .invalidInput).bind fun f => (f.call v).bind fun w => rpnLoop ctx rest (w :: vals) ac := by
  simp [rpnLoop_cons, rpnStep, Res.bind_assoc]

theorem rpnLoop_binary (ctx : Ctx N) (o : Str) (rest : List (Token N)) (v w : N) (vals : List N) (ac : Option Nat) :
    rpnLoop ctx (.binary o :: rest) (w :: v :: vals) ac =
      (Res.ofOption (ctx.getBinary o) .invalidInput).bind fun f => (f.call v w).bind fun x => rpnLoop ctx rest (x :: vals) ac := by
  simp [rpnLoop_cons, rpnStep, Res.bind_assoc]

theorem rpnLoop_call (ctx : Ctx N) (f : Str) (rest : List (Token N)) (xs : List N) (vals : List N) :
    rpnLoop ctx (.argCount xs.length :: .function f :: rest) (xs.reverse ++ vals) none =
      (Res.ofOption (ctx.getFunction f) .invalidInput).bind fun fn => (fn xs).bind fun x => rpnLoop ctx rest (x :: vals) none := by
  simp only [rpnLoop_cons, rpnStep, Option.isSome_none, Bool.false_eq_true, if_false, Res.bind_ok, Res.ofOption, Res.bind_assoc]
  have h1 : (List.take xs.length (xs.reverse ++ vals)).reverse = xs := by
    rw [List.take_append_of_le_length (by simp)]
    simp [List.take_of_length_le]
  have h2 : List.drop xs.length (xs.reverse ++ vals) = vals := by
    rw [List.drop_append_of_le_length (by simp)]
    simp [List.drop_of_length_le]
  rw [h1, h2]

theorem Args.denote_length (ctx : Ctx N) : (a : Args N) → ∀ xs, a.denote ctx = .ok xs → xs.length = a.count
  | .one e, xs, h => by
    simp only [Args.denote, Res.bind_eq, Res.pure_eq] at h
    cases hd : e.denote ctx <;> simp [hd] at h
    simp [← h, Args.count]
  | .more e rest, xs, h => by
    simp only [Args.denote, Res.bind_eq, Res.pure_eq] at h
    cases hd : e.denote ctx <;> simp [hd] at h
    cases hr : rest.denote ctx <;> simp [hr] at h
    simp [← h, Args.count, Args.denote_length ctx rest _ hr]

mutual
theorem rpnLoop_expr (ctx : Ctx N) : (e : Expr N) → ∀ (rest : List (Token N)) (vals : List N),
    rpnLoop ctx (e.postfix ++ rest) vals none = (e.denote ctx).bind fun v => rpnLoop ctx rest (v :: vals) none
  | .atom a, rest, vals => by simp [Expr.postfix, Expr.denote, rpnLoop_atom]
  | .signed u a, rest, vals => by
    simp [Expr.postfix, Expr.denote, rpnLoop_atom, rpnLoop_unary, Res.bind_assoc]
  | .prefixed u e, rest, vals => by
    simp [Expr.postfix, Expr.denote, rpnLoop_expr ctx e, rpnLoop_unary, Res.bind_assoc]
  | .postfixed p e, rest, vals => by
    simp [Expr.postfix, Expr.denote, rpnLoop_expr ctx e, rpnLoop_unary, Res.bind_assoc]
  | .paren g e, rest, vals => by simpa [Expr.postfix, Expr.denote] using rpnLoop_expr ctx e rest vals
  | .call f g args, rest, vals => by
    simp only [Expr.postfix, Expr.denote, Res.bind_eq, Res.bind_assoc, List.append_assoc, List.cons_append, List.nil_append]
    rw [rpnLoop_args ctx args]
    cases h : args.denote ctx with
    | err k => rfl
    | panic => rfl
    | ok xs =>
      simp only [Res.bind_ok]
      rw [← Args.denote_length ctx args xs h, rpnLoop_call]
  | .bin o l r, rest, vals => by
    simp [Expr.postfix, Expr.denote, rpnLoop_expr ctx l, rpnLoop_expr ctx r, rpnLoop_binary, Res.bind_assoc]
  | .imp l r, rest, vals => by
    simp [Expr.postfix, Expr.denote, rpnLoop_expr ctx l, rpnLoop_expr ctx r, rpnLoop_binary, Res.bind_assoc]
theorem rpnLoop_args (ctx : Ctx N) : (a : Args N) → ∀ (rest : List (Token N)) (vals : List N),
    rpnLoop ctx (a.postfix ++ rest) vals none = (a.denote ctx).bind fun xs => rpnLoop ctx rest (xs.reverse ++ vals) none
  | .one e, rest, vals => by simp [Args.postfix, Args.denote, rpnLoop_expr ctx e, Res.bind_assoc]
  | .more e as, rest, vals => by
    simp [Args.postfix, Args.denote, rpnLoop_expr ctx e, rpnLoop_args ctx as, Res.bind_assoc]
end

/-- `infix_to_rpn` on a well-formed expression. -/
theorem infixToRpn_render (ctx : Ctx N) (e : Expr N) (h : e.WF ctx) : infixToRpn ctx e.render = .ok e.postfix := by
  obtain ⟨j, _, hl⟩ := loop_expr ctx e h [] [] SY.init (by simp [SY.init, TopNotUnary]) (by simp [SY.init, TopNotFunction])
    (by intro q _; simp [SY.init, Stops])
  simp only [List.append_nil, List.nil_append, List.length_nil] at hl
  unfold infixToRpn
  rw [hl]
  simp [syLoop, SY.init, trail_none, Expr.postfix_eq e ctx h, flush_spine, Expr.pend]

end Prexel
