import Verif.Lemmas.Subst
import Verif.Model.Tokenizer
import Verif.Props.Evaluator

/-!
# Equal subexpressions are interchangeable (C107)
-/
namespace Prexel
open Demo (ctx)
variable {N : Type}

/-- C107. Between a pair of brackets, anywhere in any list of tokens, accepted or not, an expression can be replaced by any other one with the
same value (or the same error): the evaluation has the same outcome, value, error kind or panic. `e.denote` is the recursive value of the
specification (Spec/Syntax.lean), so this says that the value of the whole depends on a bracketed part only through its value. -/
theorem C107_replace (ctx : Ctx N) (hcc : ctx.config.customFunctionCall = false) (e₁ e₂ : Expr N) (w₁ : e₁.WF ctx) (w₂ : e₂.WF ctx)
    (hd : e₁.denote ctx = e₂.denote ctx) (pre post : List (Token N)) (o c : Char) :
    evalTokens ctx (pre ++ [.gopen o] ++ e₁.render ++ [.gclose c] ++ post) =
      evalTokens ctx (pre ++ [.gopen o] ++ e₂.render ++ [.gclose c] ++ post) := by
  simpa using evalTokens_replace ctx hcc e₁ e₂ w₁ w₂ hd pre post o c

/-- C107 for evaluations instead of values: what is compared is only what the evaluator itself answers for the two parts alone. -/
theorem C107_replace_evaluated (ctx : Ctx N) (hcc : ctx.config.customFunctionCall = false) (e₁ e₂ : Expr N) (w₁ : e₁.WF ctx)
    (w₂ : e₂.WF ctx) (hd : evalTokens ctx e₁.render = evalTokens ctx e₂.render) (pre post : List (Token N)) (o c : Char) :
    evalTokens ctx (pre ++ [.gopen o] ++ e₁.render ++ [.gclose c] ++ post) =
      evalTokens ctx (pre ++ [.gopen o] ++ e₂.render ++ [.gclose c] ++ post) :=
  C107_replace ctx hcc e₁ e₂ w₁ w₂ (by rw [← C01_eval_eq_denote ctx e₁ w₁, ← C01_eval_eq_denote ctx e₂ w₂, hd]) pre post o c

/-- C107 for the value itself: a bracketed part whose own evaluation gives `v` can be replaced by the number `v` in the same brackets. -/
theorem C107_replace_by_value (ctx : Ctx N) (hcc : ctx.config.customFunctionCall = false) (e : Expr N) (w : e.WF ctx) (v : N)
    (hv : evalTokens ctx e.render = .ok v) (pre post : List (Token N)) (o c : Char) :
    evalTokens ctx (pre ++ [.gopen o] ++ e.render ++ [.gclose c] ++ post) =
      evalTokens ctx (pre ++ [.gopen o, .number v, .gclose c] ++ post) := by
  have := C107_replace ctx hcc e (.atom (.num v)) w trivial
    (by rw [← C01_eval_eq_denote ctx e w, hv]; simp [Expr.denote, Atom.denote]) pre post o c
  simpa [Expr.render, Atom.token] using this

/-- C107 for texts: two texts that read as the same tokens around two such parts give the same outcome. -/
theorem C107_texts (parse : Str → Option N) (split : Str → List Str) (ctx : Ctx N) (hcc : ctx.config.customFunctionCall = false)
    (e₁ e₂ : Expr N) (w₁ : e₁.WF ctx) (w₂ : e₂.WF ctx) (hd : evalTokens ctx e₁.render = evalTokens ctx e₂.render)
    (pre post : List (Token N)) (o c : Char) (s₁ s₂ : Str)
    (h₁ : tokenize parse split ctx s₁ = .ok (pre ++ [.gopen o] ++ e₁.render ++ [.gclose c] ++ post))
    (h₂ : tokenize parse split ctx s₂ = .ok (pre ++ [.gopen o] ++ e₂.render ++ [.gclose c] ++ post)) :
    eval parse split ctx s₁ = eval parse split ctx s₂ := by
  simp only [eval, h₁, h₂, Res.bind_ok]
  exact C107_replace_evaluated ctx hcc e₁ e₂ w₁ w₂ hd pre post o c

/-- `-2 ^ 3 * sum(1, (x + 4) %)` and `0 - 5608` have the same value: `sum(3, (-2 ^ 3 * sum(1, (x + 4) %)) + ` and anything after it may
use either, and the number `-5608`. The second list of tokens is not accepted, and both sides are then the same error. -/
example (post : List (Token Int)) :
    evalTokens (ctx false false) ([.function ['s', 'u', 'm'], .gopen '(', .number 3, .comma] ++ [.gopen '('] ++ sampleExpr.render ++ [.gclose ')'] ++ post) =
      evalTokens (ctx false false) ([.function ['s', 'u', 'm'], .gopen '(', .number 3, .comma] ++ [.gopen '(', .number (-5608), .gclose ')'] ++ post) :=
  C107_replace_by_value (ctx false false) rfl sampleExpr sampleExpr_wf (-5608) (by rw [C01_eval_eq_denote _ _ sampleExpr_wf]; rfl) _ post '(' ')'

example : evalTokens (ctx false false)
      ([.function ['s', 'u', 'm'], .gopen '(', .number 3, .comma] ++ [.gopen '('] ++ sampleExpr.render ++ [.gclose ')'] ++ [.binary ['*'], .number 2, .gclose ')']) = .ok (-11213) ∧
    evalTokens (ctx false false)
      ([.function ['s', 'u', 'm'], .gopen '(', .number 3, .comma] ++ [.gopen '('] ++ sampleExpr.render ++ [.gclose ')'] ++ [.binary ['*'], .number 2]) = .err .invalidInput := by
  constructor <;> rfl

/-- The brackets are needed: `1 + 2` and `3` have the same value, `2 * 1 + 2` and `2 * 3` do not. -/
theorem C107_brackets_needed : ∃ (e₁ e₂ : Expr Int), e₁.WF (ctx false false) ∧ e₂.WF (ctx false false) ∧
    e₁.denote (ctx false false) = e₂.denote (ctx false false) ∧
    evalTokens (ctx false false) ([.number 2, .binary ['*']] ++ e₁.render) ≠ evalTokens (ctx false false) ([.number 2, .binary ['*']] ++ e₂.render) :=
  ⟨.bin ['+'] (.atom (.num 1)) (.atom (.num 2)), .atom (.num 3),
    by simp [Expr.WF, Expr.leftSpine, Expr.rightSpine, GroupsLeft, ctx, Demo.add], trivial, rfl, by decide +kernel⟩

end Prexel
