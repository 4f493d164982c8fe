import Verif.Lemmas.RpnExpr
import Verif.Lemmas.Chain
import Verif.Lemmas.Wrap
import Verif.Lemmas.Conserve
import Verif.Examples.Demo
/-!
# Properties of the evaluator (C01-C13, C53-C55)

Beside each theorem, an `example` shows that a concrete non-trivial case meets the hypotheses.
-/

set_option linter.unusedVariables false
set_option linter.unusedSimpArgs false

namespace Prexel
variable {N : Type}

open Demo (ctx)

/-! ## C01, C02: the value of the syntax tree, and the postfix form -/

/-- C01. For every context and every tree that the registered precedences and associativities dictate, evaluating the tokens gives
exactly what evaluating the tree gives (value, error kind or panic of a registered function). -/
theorem C01_eval_eq_denote (c : Ctx N) (e : Expr N) (h : e.WF c) : evalTokens c e.render = e.denote c := by
  unfold evalTokens
  rw [infixToRpn_render c e h, Res.bind_ok]
  have := rpnLoop_expr c e [] []
  rw [List.append_nil] at this
  rw [this]
  cases e.denote c <;> simp [rpnLoop, rpnResult]

/-- C01, consequence: token lists are unambiguous. Two dictated trees with the same tokens have the same value. -/
theorem C01_unambiguous (c : Ctx N) (e e' : Expr N) (h : e.WF c) (h' : e'.WF c) (hr : e.render = e'.render) :
    e.denote c = e'.denote c ∧ e.postfix = e'.postfix := by
  refine ⟨by rw [← C01_eval_eq_denote c e h, ← C01_eval_eq_denote c e' h', hr], ?_⟩
  have h1 := infixToRpn_render c e h
  rw [hr, infixToRpn_render c e' h'] at h1
  exact (Res.ok.inj h1).symm

/-- `-2 ^ 3 * sum(1, (x + 4) %)` -/
def sampleExpr : Expr Int :=
  .bin ['*'] (.bin ['^'] (.signed ['-'] (.num 2)) (.atom (.num 3)))
    (.call ['s', 'u', 'm'] .parenthesis
      (.more (.atom (.num 1)) (.one (.postfixed ['%'] (.paren .parenthesis (.bin ['+'] (.atom (.var ['x'])) (.atom (.num 4))))))))

theorem sampleExpr_wf : sampleExpr.WF (ctx false false) := by
  simp [sampleExpr, Expr.WF, Args.WF, Expr.rightSpine, Expr.leftSpine, Expr.primary, GroupsLeft, ctx, Demo.neg, Demo.pct, Demo.add,
    Demo.mul, Demo.pow]

example : sampleExpr.WF (ctx false false) ∧ sampleExpr.denote (ctx false false) = .ok (-5608) :=
  ⟨sampleExpr_wf, by rfl⟩
example : evalTokens (ctx false false) sampleExpr.render = .ok (-5608) := by
  rw [C01_eval_eq_denote _ _ sampleExpr_wf]; rfl

/-- Implicit products: `2 x ^ 2` is a tree with an implicit product. -/
example : (Expr.imp (.atom (.num 2)) (.bin ['^'] (.atom (.var ['x'])) (.atom (.num 2))) : Expr Int).WF (ctx true false) := by
  simp [Expr.WF, Expr.impLeft, Expr.impRight, Expr.leftSpine, Expr.rightSpine, GroupsLeft, ctx, Demo.mul, Demo.pow]

/-- C02. -/
theorem C02_infix_to_rpn_postfix (c : Ctx N) (e : Expr N) (h : e.WF c) : infixToRpn c e.render = .ok e.postfix :=
  infixToRpn_render c e h

/-- C02, consequence: no grouping symbol or comma survives, and every call carries its number of arguments. -/
theorem C02_no_grouping (c : Ctx N) (e : Expr N) (h : e.WF c) (rpn : List (Token N)) (hr : infixToRpn c e.render = .ok rpn) :
    ∀ t ∈ rpn, (∀ x, t ≠ .gopen x) ∧ (∀ x, t ≠ .gclose x) ∧ t ≠ .comma := by
  rw [infixToRpn_render c e h] at hr
  cases hr
  have hat : ∀ a : Atom N, (∀ x, a.token ≠ .gopen x) ∧ (∀ x, a.token ≠ .gclose x) ∧ a.token ≠ .comma := by
    intro a; cases a <;> simp [Atom.token]
  clear h
  suffices (∀ e : Expr N, ∀ t ∈ e.postfix, (∀ x, t ≠ .gopen x) ∧ (∀ x, t ≠ .gclose x) ∧ t ≠ .comma) from this e
  intro e
  refine Expr.rec (motive_1 := fun e => ∀ t ∈ e.postfix, (∀ x, t ≠ .gopen x) ∧ (∀ x, t ≠ .gclose x) ∧ t ≠ .comma)
    (motive_2 := fun a => ∀ t ∈ a.postfix, (∀ x, t ≠ .gopen x) ∧ (∀ x, t ≠ .gclose x) ∧ t ≠ .comma)
    ?_ ?_ ?_ ?_ ?_ ?_ ?_ ?_ ?_ ?_ e
  all_goals intros
  all_goals simp_all only [Expr.postfix, Args.postfix, List.mem_append, List.mem_cons, List.not_mem_nil, or_false]
  all_goals grind

example : infixToRpn (ctx false false) sampleExpr.render =
    .ok [.number 2, .unary ['-'], .number 3, .binary ['^'], .number 1, .variable_ ['x'], .number 4, .binary ['+'], .unary ['%'],
      .argCount 2, .function ['s', 'u', 'm'], .binary ['*']] := by
  rw [C02_infix_to_rpn_postfix _ _ sampleExpr_wf]; rfl

/-! ## C03: chains -/

/-- C03. A chain of operands and registered binary operators has exactly one tree respecting precedence and associativity, and
evaluation evaluates that tree. -/
theorem C03_chain (c : Ctx N) (x : Expr N) (xs : List (Str × Expr N)) (hx : x.primary ∧ x.WF c)
    (hxs : ∀ p ∈ xs, (c.getBinary p.1).isSome ∧ p.2.primary ∧ p.2.WF c) :
    ∃ e : Expr N, (Frontier e x xs ∧ e.WF c) ∧ (∀ e', Frontier e' x xs → e'.WF c → e' = e) ∧
      evalTokens c (chainTokens x xs) = e.denote c := by
  obtain ⟨e, ⟨h1, h2⟩, h3⟩ := chain_tree c x hx.1 hx.2 xs hxs
  exact ⟨e, ⟨h1, h2⟩, h3, by rw [← h1.render]; exact C01_eval_eq_denote c e h2⟩

/-- `2 - 3 - 4 ^ 2 ^ x * 5` meets the hypotheses. -/
def sampleChain : List (Str × Expr Int) :=
  [(['-'], .atom (.num 3)), (['-'], .atom (.num 4)), (['^'], .atom (.num 2)), (['^'], .atom (.var ['x'])), (['*'], .atom (.num 5))]

example : ∀ p ∈ sampleChain, ((ctx false false).getBinary p.1).isSome ∧ p.2.primary ∧ p.2.WF (ctx false false) := by
  simp [sampleChain, Expr.primary, Expr.WF, ctx]

/-- The value is that of `(2 - 3) - ((4 ^ (2 ^ 3)) * 5)`. -/
example : evalTokens (ctx false false) (chainTokens (.atom (.num 2)) sampleChain) = .ok ((2 - 3) - ((4 ^ (2 ^ 3)) * 5)) := by rfl

/-! ## C04: no panics -/

/-- C04. -/
theorem C04_infix_to_rpn_never_panics (c : Ctx N) (ts : List (Token N)) : infixToRpn c ts ≠ .panic := infixToRpn_ne_panic' c ts

/-- C04. -/
theorem C04_eval_never_panics (c : Ctx N) (hs : c.Safe) (ts : List (Token N)) : evalTokens c ts ≠ .panic :=
  evalTokens_ne_panic' c hs ts

theorem demo_safe (a b : Bool) : (ctx a b).Safe := by
  refine ⟨?_, ?_, ?_⟩
  · intro s f hf xs
    simp only [ctx] at hf
    split at hf
    · cases hf; simp only [Demo.sum]; split <;> simp
    · split at hf
      · cases hf; simp [Demo.digits]
      · cases hf
  · intro s f hf x
    simp only [ctx] at hf
    split at hf
    · cases hf; simp [Demo.neg]
    · split at hf
      · cases hf; simp [Demo.pct]
      · cases hf
  · intro s f hf x y
    simp only [ctx] at hf
    repeat' split at hf
    all_goals first
      | (cases hf; done)
      | (cases hf; simp only [Demo.add, Demo.sub, Demo.mul, Demo.div, Demo.pow]; first | (split <;> simp) | simp)

example : (ctx true true).Safe := demo_safe _ _
example : evalTokens (ctx true true) [.comma, .argCount 3, .gclose 'z', .function []] = .err .invalidInput := by rfl

/-- A panic of a registered function is passed on, so the hypothesis of `C04_eval_never_panics` is needed. -/
example : evalTokens { ctx false false with getUnary := fun _ => some ⟨.pre, fun _ => .panic⟩ } [.unary ['-'], .number 1] = .panic := by
  rfl

/-! ## C05: brackets -/

/-- C05. -/
theorem C05_accepted_balanced (c : Ctx N) (ts : List (Token N)) (v : N) (h : evalTokens c ts = .ok v) : Balanced ts :=
  evalTokens_balanced h

/-- C05, second half: everything else is an error. -/
theorem C05_unbalanced_err (c : Ctx N) (hs : c.Safe) (ts : List (Token N)) (h : ¬ Balanced ts) : ∃ k, evalTokens c ts = .err k := by
  cases he : evalTokens c ts with
  | ok v => exact absurd (evalTokens_balanced he) h
  | err k => exact ⟨k, rfl⟩
  | panic => exact absurd he (evalTokens_ne_panic' c hs ts)

example : evalTokens (ctx false false) [.gopen '[', .gopen '(', .number 1, .gclose ')', .binary ['+'], .number 2, .gclose ']'] = .ok 3 := by
  rfl
example : ¬ Balanced ([.gopen '(', .number 1, .gclose ']'] : List (Token Int)) := by
  intro h
  cases h with
  | opn _ _ _ _ h =>
    cases h with
    | other _ _ _ _ _ _ h =>
      cases h with
      | cls _ _ _ _ _ hc h => revert hc; simp [Closes]
      | other _ _ _ _ ho hc h => exact hc _ rfl
  | other _ _ _ _ ho hc h => exact ho _ rfl

/-! ## C06: bracketing the whole expression -/

/-- C06. The one exception is a list that begins with an empty pair of brackets: see `C06_exception`. -/
theorem C06_wrap (c : Ctx N) (ts : List (Token N)) (v : N) (g : Grouping)
    (hstart : ∀ g' : Grouping, ∀ rest, ts ≠ .gopen g'.opn :: .gclose g'.cls :: rest)
    (h : evalTokens c ts = .ok v) : evalTokens c (.gopen g.opn :: (ts ++ [.gclose g.cls])) = .ok v := by
  have hs : ∀ a b rest, ts = .gopen a :: .gclose b :: rest → c.config.getGroupOpenFor b ≠ some a := by
    intro a b rest hts hb
    simp only [Config.getGroupOpenFor, Option.bind_eq_some_iff] at hb
    obtain ⟨g', h1, h2⟩ := hb
    simp only [Grouping.openFor] at h2
    split at h2
    · rename_i hcls
      rw [h1] at h2
      simp at h2
      exact hstart g' rest (by rw [hts, hcls, h2])
    · cases h2
  have := infixToRpn_wrap g hs h
  unfold evalTokens at h ⊢
  rw [this, h]

example : evalTokens (ctx false false) sampleExpr.render = .ok (-5608) ∧
    ∀ g' : Grouping, ∀ rest, sampleExpr.render ≠ .gopen g'.opn :: .gclose g'.cls :: rest :=
  ⟨by rw [C01_eval_eq_denote _ _ sampleExpr_wf]; rfl, by simp [sampleExpr, Expr.render, Atom.token]⟩

/-- `() 5` is accepted but `(() 5)` is not. -/
theorem C06_exception :
    evalTokens (ctx false false) [.gopen '(', .gclose ')', .number 5] = .ok 5 ∧
    evalTokens (ctx false false) [.gopen '(', .gopen '(', .gclose ')', .number 5, .gclose ')'] = .err .invalidInput :=
  ⟨rfl, rfl⟩

/-! ## C07: unknown text -/

/-- C07. -/
theorem C07_unknown_rejected (c : Ctx N) (hs : c.Safe) (ts : List (Token N))
    (h : (∃ s, .unknown s ∈ ts) ∨ (∃ n, .argCount n ∈ ts)) : ∃ k, evalTokens c ts = .err k := by
  cases he : evalTokens c ts with
  | err k => exact ⟨k, rfl⟩
  | panic => exact absurd he (evalTokens_ne_panic' c hs ts)
  | ok v =>
    exfalso
    obtain ⟨st, h1, _⟩ := evalTokens_ok he
    have key : ∀ t ∈ ts, (∀ s, t ≠ .unknown s) ∧ (∀ n, t ≠ .argCount n) := by
      intro t ht
      obtain ⟨i, hi⟩ := mem_getElem? ht
      obtain ⟨s1, s2, hstep⟩ := syLoop_steps (by simp) h1 i (by omega) t hi
      constructor
      · rintro s rfl; simp [syStep, dispatch] at hstep
      · rintro n rfl; simp [syStep, dispatch] at hstep
    rcases h with ⟨s, hm⟩ | ⟨n, hm⟩
    · exact (key _ hm).1 s rfl
    · exact (key _ hm).2 n rfl

example : (∃ s, Token.unknown s ∈ ([.number 1, .binary ['+'], .unknown ['q']] : List (Token Int))) := ⟨['q'], by simp⟩
example : evalTokens (ctx false false) [.number 1, .binary ['+'], .unknown ['q']] = .err .invalidInput := rfl

/-! ## C08: a function name is followed by its parenthesis -/

/-- C08. -/
theorem C08_function_parenthesis (c : Ctx N) (hc : c.config.customFunctionCall = false) (ts : List (Token N)) (v : N)
    (h : evalTokens c ts = .ok v) (i : Nat) (f : Str) (hf : ts[i]? = some (.function f)) : ts[i + 1]? = some (.gopen '(') := by
  obtain ⟨st, h1, _⟩ := evalTokens_ok h
  obtain ⟨s1, s2, hstep⟩ := syLoop_steps (by simp) h1 i (by omega) _ hf
  obtain ⟨s3, he, _⟩ := syStep_eff hstep
  cases he with
  | function _ _ hn =>
    rcases hn with hn | ⟨t, ht, hp⟩
    · rw [hc] at hn; cases hn
    · rw [ht]
      cases t with
      | gopen x => simp [Token.containsSymbol] at hp; rw [hp]
      | gclose x =>
        simp [Token.containsSymbol] at hp
        subst hp
        obtain ⟨s4, s5, hstep'⟩ := syLoop_steps (by simp) h1 (i + 1) (by omega) _ ht
        obtain ⟨s6, he', _⟩ := syStep_eff hstep'
        cases he' with
        | group _ c' _ popped kept g hg hc => cases g <;> simp [Grouping.cls] at hc
        | call _ c' _ popped kept g hg hc => cases g <;> simp [Grouping.cls] at hc
        | atom _ _ h => simp [Token.isAtom] at h
        | atomU _ _ h => simp [Token.isAtom] at h
      | _ => simp [Token.containsSymbol] at hp
  | atom _ _ h => simp [Token.isAtom] at h
  | atomU _ _ h => simp [Token.isAtom] at h

/-- C08, as a rejection. -/
theorem C08_missing_parenthesis_err (c : Ctx N) (hs : c.Safe) (hc : c.config.customFunctionCall = false) (ts : List (Token N))
    (i : Nat) (f : Str) (hf : ts[i]? = some (.function f)) (hn : ts[i + 1]? ≠ some (.gopen '(')) :
    ∃ k, evalTokens c ts = .err k := by
  cases he : evalTokens c ts with
  | err k => exact ⟨k, rfl⟩
  | panic => exact absurd he (evalTokens_ne_panic' c hs ts)
  | ok v => exact absurd (C08_function_parenthesis c hc ts v he i f hf) hn

example : (ctx false false).config.customFunctionCall = false ∧ evalTokens (ctx false false) sampleExpr.render = .ok (-5608) ∧
    sampleExpr.render[5]? = some (.function ['s', 'u', 'm']) :=
  ⟨rfl, by rw [C01_eval_eq_denote _ _ sampleExpr_wf]; rfl, rfl⟩

/-- With `custom_function_call` nothing of the kind holds: `(d 2 (3) +)` is accepted, as `2 + d(3)`. -/
theorem C08_custom_call_counterexample :
    evalTokens (ctx false true) [.gopen '(', .function ['d'], .number 2, .gopen '(', .number 3, .gclose ')', .binary ['+'], .gclose ')']
      = .ok 5 := rfl

/-! ## C09, C10: contexts and values -/

/-- C09. -/
theorem C09_frame (c1 c2 : Ctx N) (hc : c1.config = c2.config)
    (hmul : c1.config.implicitMul = true → c1.getBinary ['*'] = c2.getBinary ['*']) (ts : List (Token N))
    (h : ∀ t ∈ ts, AgreeOn c1 c2 t) :
    infixToRpn c1 ts = infixToRpn c2 ts ∧ evalTokens c1 ts = evalTokens c2 ts := evalTokens_congr hc hmul ts h

/-- A context that also knows `y`, and another `/`. -/
def demo2 : Ctx Int :=
  { ctx false false with
    getVariable := fun s => if s = ['y'] then some 9 else (ctx false false).getVariable s
    getBinary := fun s => if s = ['/'] then none else (ctx false false).getBinary s }

example : ∀ t ∈ sampleExpr.render, AgreeOn (ctx false false) demo2 t := by
  simp [sampleExpr, Expr.render, Args.render, Atom.token, AgreeOn, demo2, ctx]

/-- C10. Replacing any number of variables and constants by the numbers they are bound to does not change the result, when
implicit multiplication is off. -/
theorem C10_by_value (c : Ctx N) (hm : c.config.implicitMul = false) (ts ts' : List (Token N))
    (h : Pairwise2 (ByValue c) ts ts') : evalTokens c ts' = evalTokens c ts := evalTokens_byValue' hm h

example : Pairwise2 (ByValue (ctx false false)) [.number 2, .binary ['+'], .variable_ ['x']] [.number 2, .binary ['+'], .number 3] :=
  .cons (.inl rfl) (.cons (.inl rfl) (.cons (.inr (.inl ⟨['x'], 3, rfl, rfl, rfl⟩)) .nil))

/-- With implicit multiplication `3 (2)` is a product but `x (2)` is an error. -/
theorem C10_implicit_counterexample :
    evalTokens (ctx true false) [.number 3, .gopen '(', .number 2, .gclose ')'] = .ok 6 ∧
    evalTokens (ctx true false) [.variable_ ['x'], .gopen '(', .number 2, .gclose ')'] = .err .invalidExpression := ⟨rfl, rfl⟩

/-! ## C11, C12: arguments -/

/-- C11 for one or more arguments. A call with `k ≥ 1` written arguments, inside any surrounding expression `e` (any dictated tree that
contains the call), calls the function with exactly the values of its arguments in written order: by `C01_eval_eq_denote` the value
of the whole is the value of its tree, and the value of a call is the function applied to the list of its argument values. -/
theorem C11_call_arguments_partial (c : Ctx N) (f : Str) (g : Grouping) (args : Args N) (hw : (Expr.call f g args).WF c)
    (fn : Fn N) (hf : c.getFunction f = some fn) (xs : List N) (ha : args.denote c = .ok xs) :
    xs.length = args.count ∧ evalTokens c (.function f :: .gopen g.opn :: (args.render ++ [.gclose g.cls])) = fn xs := by
  refine ⟨Args.denote_length c args xs ha, ?_⟩
  have := C01_eval_eq_denote c (.call f g args) hw
  rw [Expr.render] at this
  rw [this]
  simp [Expr.denote, ha, hf, Res.ofOption]

/-- C11 for no arguments, when the call is the whole expression. -/
theorem C11_call_no_arguments_alone_partial (c : Ctx N) (f : Str) (fn : Fn N) (hf : c.getFunction f = some fn) :
    evalTokens c [.function f, .gopen '(', .gclose ')'] = fn [] := by
  simp [evalTokens, infixToRpn, syLoop, syStep, dispatch, SY.init, Token.containsSymbol, pushGroupingClose, popToOpen,
    Config.getGroupSymbol, Grouping.new, Grouping.symbols, Grouping.cls, Grouping.opn, emptyGroup, Token.isFunction,
    implicitMulBlock, implicitMulHere, flush, rpnLoop, rpnStep, hf, Res.ofOption, Config.getGroupOpenFor, Grouping.openFor]
  cases fn [] <;> simp [rpnResult]

/-- `d(1, 2, 3)` has the value 123: all three arguments, in order. -/
example : (Expr.call ['d'] .parenthesis (.more (.atom (.num 1)) (.more (.atom (.num 2)) (.one (.atom (.num 3)))))
    : Expr Int).WF (ctx false false) := by simp [Expr.WF, Args.WF]
example : evalTokens (ctx false false)
    [.function ['d'], .gopen '(', .number 1, .comma, .number 2, .comma, .number 3, .gclose ')'] = .ok 123 := by rfl

/-- C11 fails for calls without arguments inside an expression: in `5 + d()` the function is handed the 5 that belongs to `+`
(so the sum is refused), and `5 d()` is accepted with `d` receiving 5. -/
theorem C11_zero_arguments_counterexample :
    evalTokens (ctx false false) [.function ['d'], .gopen '(', .gclose ')'] = .ok 0 ∧
    evalTokens (ctx false false) [.number 5, .binary ['+'], .function ['d'], .gopen '(', .gclose ')'] = .err .invalidExpression ∧
    evalTokens (ctx false false) [.number 5, .function ['d'], .gopen '(', .gclose ')'] = .ok 5 := ⟨rfl, rfl, rfl⟩

/-- C12, proved part: in an accepted list no comma is the first or last token, directly follows an opening symbol or directly precedes a
closing symbol, so the first and the last argument are never empty. -/
theorem C12_comma_positions_partial (c : Ctx N) (ts : List (Token N)) (v : N) (h : evalTokens c ts = .ok v) (i : Nat)
    (hi : ts[i]? = some .comma) :
    0 < i ∧ (∃ t, ts[i + 1]? = some t ∧ ∀ x, t ≠ .gclose x) ∧ (∀ x, ts[i - 1]? ≠ some (.gopen x)) := by
  obtain ⟨st, h1, _⟩ := evalTokens_ok h
  obtain ⟨s1, s2, hstep⟩ := syLoop_steps (by simp) h1 i (by omega) _ hi
  obtain ⟨s3, he, _⟩ := syStep_eff hstep
  cases he with
  | atom _ _ h => simp [Token.isAtom] at h
  | atomU _ _ h => simp [Token.isAtom] at h
  | comma _ c' popped kept n ac hops hp hac hcheck =>
    unfold checkCommaPosition at hcheck
    split at hcheck
    · cases hcheck
    · split at hcheck
      · cases hcheck
      · split at hcheck
        · cases hcheck
        · rename_i h0 h2 h3
          refine ⟨by omega, ?_, ?_⟩
          · cases hn : ts[i + 1]? with
            | none =>
              exfalso
              have hlen : ts.length ≤ i + 1 := by simpa using hn
              have hlt : i < ts.length := by
                rcases Nat.lt_or_ge i ts.length with h | h
                · exact h
                · rw [List.getElem?_eq_none h] at hi; cases hi
              have hne : ts ≠ [] := by rintro rfl; simp at hlt
              apply no_trailing_comma h ts.dropLast
              have := List.dropLast_concat_getLast hne
              rw [List.getLast_eq_getElem] at this
              have e : ts.length - 1 = i := by omega
              simp only [e] at this
              rw [List.getElem?_eq_getElem hlt] at hi
              cases hi' : ts[i] <;> simp_all
            | some t => refine ⟨t, rfl, ?_⟩; rintro x rfl; simp [hn, Token.isGclose] at h3
          · intro x hx
            simp [hx, Token.isGopen] at h2

example : evalTokens (ctx false false) [.function ['d'], .gopen '(', .number 1, .comma, .number 2, .gclose ')'] = .ok 12 := by rfl

/-- C12 fails for positions in the middle: `d(1,,2)` is accepted as `d(1, 2)`, and `5 + d(1,,2)` hands the 5 to `d`. -/
theorem C12_empty_middle_counterexample :
    evalTokens (ctx false false) [.function ['d'], .gopen '(', .number 1, .comma, .comma, .number 2, .gclose ')'] = .ok 12 ∧
    evalTokens (ctx false false) [.number 5, .function ['d'], .gopen '(', .number 1, .comma, .comma, .number 2, .gclose ')']
      = .ok 512 := ⟨rfl, rfl⟩

/-! ## C13: infix order -/

/-- C13, proved part: without function calls and implicit products, an accepted list has exactly one operand more than it has binary
operators; so missing or surplus operands are always refused. -/
theorem C13_operand_count_partial (c : Ctx N) (hm : c.config.implicitMul = false) (ts : List (Token N)) (v : N)
    (hf : ∀ t ∈ ts, ∀ f, t ≠ .function f) (h : evalTokens c ts = .ok v) :
    (ts.filter Token.isAtom).length = (ts.filter Token.isBinary).length + 1 :=
  evalTokens_count hm (fun t ht => by cases t <;> first | rfl | exact absurd rfl (hf _ ht _)) h

example : evalTokens (ctx false false) [.number 2, .binary ['*'], .gopen '(', .number 2, .binary ['+'], .variable_ ['x'], .gclose ')'] =
    .ok 10 := by rfl

/-- C13 fails: `2 3 +`, `(2 3 +) 4 *` and `- 2 3` (binary minus) are accepted. -/
theorem C13_postfix_accepted_counterexample :
    evalTokens (ctx false false) [.number 2, .number 3, .binary ['+']] = .ok 5 ∧
    evalTokens (ctx false false) [.gopen '(', .number 2, .number 3, .binary ['+'], .gclose ')', .number 4, .binary ['*']] = .ok 20 ∧
    evalTokens (ctx false false) [.binary ['-'], .number 2, .number 3] = .ok (-1) := ⟨rfl, rfl, rfl⟩

/-! ## C53: nothing is lost or invented -/

/-- C53. The operands of the postfix list are the operands of the input, in order. -/
theorem C53_operands_in_order (c : Ctx N) (ts rpn : List (Token N)) (h : infixToRpn c ts = .ok rpn) :
    rpn.filter Token.isAtom = ts.filter Token.isAtom := infixToRpn_atoms h

/-- C53. The operators and functions of the postfix list are those of the input, each as often (implicit products off). -/
theorem C53_operators_conserved (c : Ctx N) (hm : c.config.implicitMul = false) (ts rpn : List (Token N))
    (h : infixToRpn c ts = .ok rpn) : List.Perm (rpn.filter Token.isOp) (ts.filter Token.isOp) := infixToRpn_ops hm h

example : infixToRpn (ctx false false) [.binary ['-'], .number 2, .number 3] = .ok [.number 2, .number 3, .binary ['-']] := by rfl

end Prexel
