import Verif.Spec.Effects
import Verif.Spec.Tokens
import Verif.Lemmas.RpnExpr
import Verif.Props.Evaluator
/-!
# C112: functions with effects
-/

namespace Prexel
variable {σ N α β γ : Type}

namespace Action

@[simp] theorem bind_lift_ok (a : α) (f : α → Action σ β) : Action.bind (.lift (.ok a)) f = f a := rfl
@[simp] theorem bind_lift_err (k : ErrorKind) (f : α → Action σ β) : Action.bind (.lift (.err k)) f = .lift (.err k) := rfl
@[simp] theorem bind_lift_panic (f : α → Action σ β) : Action.bind (.lift .panic) f = .lift .panic := rfl
theorem bind_assoc (m : Action σ α) (f : α → Action σ β) (g : β → Action σ γ) : (m.bind f).bind g = m.bind fun a => (f a).bind g := by
  funext s
  unfold Action.bind
  rcases m s with ⟨r, s'⟩
  cases r <;> rfl
theorem lift_bind (x : Res α) (f : α → Res β) : (.lift (x.bind f) : Action σ β) = Action.bind (.lift x) fun a => .lift (f a) := by
  cases x <;> rfl

end Action

/-! ## Trees -/

theorem rpnLoopE_cons (c : EffCtx σ N) (t : Token N) (rest : List (Token N)) (vals : List N) (ac : Option Nat) :
    rpnLoopE c (t :: rest) vals ac = (rpnStepE c t vals ac).bind fun r => rpnLoopE c rest r.1 r.2 := rfl

theorem rpnLoopE_atom (c : EffCtx σ N) (a : Atom N) (rest : List (Token N)) (vals : List N) (ac : Option Nat) :
    rpnLoopE c (a.token :: rest) vals ac = Action.bind (.lift (a.denote c.ctx)) fun v => rpnLoopE c rest (v :: vals) ac := by
  cases a <;> simp [rpnLoopE_cons, Atom.token, rpnStepE, Atom.denote, Action.lift_bind, Action.bind_assoc]

theorem rpnLoopE_unary (c : EffCtx σ N) (u : Str) (h : ∃ f, c.ctx.getUnary u = some f) (rest : List (Token N)) (v : N) (vals : List N)
    (ac : Option Nat) : rpnLoopE c (.unary u :: rest) (v :: vals) ac = (c.unary u v).bind fun w => rpnLoopE c rest (w :: vals) ac := by
  obtain ⟨f, hf⟩ := h
  simp [rpnLoopE_cons, rpnStepE, hf, Res.ofOption, Action.bind_assoc]

theorem rpnLoopE_binary (c : EffCtx σ N) (o : Str) (rest : List (Token N)) (v w : N) (vals : List N) (ac : Option Nat) :
    rpnLoopE c (.binary o :: rest) (w :: v :: vals) ac =
      Action.bind (.lift (Res.ofOption (c.ctx.getBinary o) .invalidInput)) fun _ => (c.binary o v w).bind fun x => rpnLoopE c rest (x :: vals) ac := by
  simp [rpnLoopE_cons, rpnStepE, Action.bind_assoc]

theorem rpnLoopE_call (c : EffCtx σ N) (f : Str) (rest : List (Token N)) (xs : List N) (vals : List N) :
    rpnLoopE c (.argCount xs.length :: .function f :: rest) (xs.reverse ++ vals) none =
      Action.bind (.lift (Res.ofOption (c.ctx.getFunction f) .invalidInput)) fun _ =>
        (c.function f xs).bind fun x => rpnLoopE c rest (x :: vals) none := by
  have h2 : List.drop xs.length (xs.reverse ++ vals) = vals := by
    rw [List.drop_append_of_le_length (by simp)]
    simp [List.drop_of_length_le]
  simp [rpnLoopE_cons, rpnStepE, Action.bind_assoc, Res.ofOption, h2]

theorem Args.run_length (c : EffCtx σ N) : (a : Args N) → ∀ s xs s', a.run c s = (.ok xs, s') → xs.length = a.count
  | .one e, s, xs, s', h => by
    simp only [Args.run, Action.bind] at h
    rcases hd : e.run c s with ⟨r, s1⟩
    rw [hd] at h
    cases r <;> simp [Action.lift] at h
    simp [← h.1, Args.count]
  | .more e rest, s, xs, s', h => by
    simp only [Args.run, Action.bind] at h
    rcases hd : e.run c s with ⟨r, s1⟩
    rw [hd] at h
    cases r <;> simp at h
    rcases hr : rest.run c s1 with ⟨r, s2⟩
    rw [hr] at h
    cases r <;> simp [Action.lift] at h
    simp [← h.1, Args.count, Args.run_length c rest _ _ _ hr]

mutual
theorem rpnLoopE_expr (c : EffCtx σ N) : (e : Expr N) → e.WF c.ctx → ∀ (rest : List (Token N)) (vals : List N),
    rpnLoopE c (e.postfix ++ rest) vals none = (e.run c).bind fun v => rpnLoopE c rest (v :: vals) none
  | .atom a, _, rest, vals => by simp [Expr.postfix, Expr.run, rpnLoopE_atom]
  | .signed u a, h, rest, vals => by
    have hu : ∃ f, c.ctx.getUnary u = some f := ⟨_, h.choose_spec.1⟩
    simp [Expr.postfix, Expr.run, rpnLoopE_atom, rpnLoopE_unary c u hu, Action.bind_assoc]
  | .prefixed u e, h, rest, vals => by
    have hu : ∃ f, c.ctx.getUnary u = some f := ⟨_, h.1.choose_spec.1⟩
    simp [Expr.postfix, Expr.run, rpnLoopE_expr c e h.2.2, rpnLoopE_unary c u hu, Action.bind_assoc]
  | .postfixed p e, h, rest, vals => by
    have hu : ∃ f, c.ctx.getUnary p = some f := ⟨_, h.1.choose_spec.1⟩
    simp [Expr.postfix, Expr.run, rpnLoopE_expr c e h.2.2, rpnLoopE_unary c p hu, Action.bind_assoc]
  | .paren g e, h, rest, vals => by simpa [Expr.postfix, Expr.run] using rpnLoopE_expr c e h rest vals
  | .call f g args, h, rest, vals => by
    simp only [Expr.postfix, Expr.run, Action.bind_assoc, List.append_assoc, List.cons_append, List.nil_append]
    rw [rpnLoopE_args c args h.2]
    funext s
    unfold Action.bind
    rcases hr : args.run c s with ⟨r, s'⟩
    cases r with
    | err k => rfl
    | panic => rfl
    | ok xs =>
      simp only
      rw [← Args.run_length c args s xs s' hr, rpnLoopE_call]
      rfl
  | .bin o l r, h, rest, vals => by
    obtain ⟨⟨f, hf⟩, -, -, hl, hr⟩ := h
    simp [Expr.postfix, Expr.run, rpnLoopE_expr c l hl, rpnLoopE_expr c r hr, rpnLoopE_binary, Action.bind_assoc, hf, Res.ofOption]
  | .imp l r, h, rest, vals => by
    obtain ⟨-, -, -, -, hl, hr⟩ := h
    simp [Expr.postfix, Expr.run, rpnLoopE_expr c l hl, rpnLoopE_expr c r hr, rpnLoopE_binary, Action.bind_assoc]
theorem rpnLoopE_args (c : EffCtx σ N) : (a : Args N) → a.WF c.ctx → ∀ (rest : List (Token N)) (vals : List N),
    rpnLoopE c (a.postfix ++ rest) vals none = (a.run c).bind fun xs => rpnLoopE c rest (xs.reverse ++ vals) none
  | .one e, h, rest, vals => by simp [Args.postfix, Args.run, rpnLoopE_expr c e h, Action.bind_assoc]
  | .more e as, h, rest, vals => by
    simp [Args.postfix, Args.run, rpnLoopE_expr c e h.1, rpnLoopE_args c as h.2, Action.bind_assoc]
end

/-- C112. Evaluating an expression has the effects of its tree, in the order of `Expr.run`: operands from left to right, then the operator; and its
value. Every state, every kind of effect. -/
theorem C112_order (c : EffCtx σ N) (e : Expr N) (h : e.WF c.ctx) : evalTokensE c e.render = e.run c := by
  unfold evalTokensE
  rw [infixToRpn_render c.ctx e h, Action.bind_lift_ok]
  have := rpnLoopE_expr c e h [] []
  rw [List.append_nil] at this
  rw [this, Action.bind_assoc]
  funext s
  unfold Action.bind
  rcases e.run c s with ⟨r, s'⟩
  cases r <;> rfl

/-! ## Without effects -/

theorem rpnStepE_noEffects (ctx : Ctx N) (t : Token N) (vals : List N) (ac : Option Nat) :
    rpnStepE (ctx.noEffects : EffCtx σ N) t vals ac = .lift (rpnStep ctx t vals ac) := by
  cases t with
  | unary name =>
    simp only [rpnStepE, rpnStep, Ctx.noEffects]
    cases ctx.getUnary name with
    | none => rfl
    | some f => cases vals <;> simp [Res.ofOption, Action.lift_bind]
  | binary name =>
    simp only [rpnStepE, rpnStep, Ctx.noEffects]
    cases ctx.getBinary name with
    | none => rfl
    | some f => rcases vals with _ | ⟨x, _ | ⟨y, vals⟩⟩ <;> simp [Res.ofOption, Action.lift_bind]
  | function name =>
    simp only [rpnStepE, rpnStep, Ctx.noEffects]
    cases ctx.getFunction name with
    | none => rfl
    | some f => cases ac <;> simp [Res.ofOption, Action.lift_bind]
  | _ => simp [rpnStepE, rpnStep, Ctx.noEffects]

theorem rpnLoopE_noEffects (ctx : Ctx N) (ts : List (Token N)) (vals : List N) (ac : Option Nat) :
    rpnLoopE (ctx.noEffects : EffCtx σ N) ts vals ac = .lift (rpnLoop ctx ts vals ac) := by
  induction ts generalizing vals ac with
  | nil => rfl
  | cons t ts ih =>
    rw [rpnLoopE_cons, rpnLoop_cons, rpnStepE_noEffects, Action.lift_bind]
    congr 1
    funext r
    exact ih r.1 r.2

/-- C112. Functions without effects: the state stays as it is and the outcome is that of the evaluator of the other properties. -/
theorem C112_pure (ctx : Ctx N) (ts : List (Token N)) (s : σ) : evalTokensE ctx.noEffects ts s = (evalTokens ctx ts, s) := by
  have : evalTokensE (ctx.noEffects : EffCtx σ N) ts = .lift (evalTokens ctx ts) := by
    unfold evalTokensE evalTokens
    rw [Action.lift_bind]
    congr 1
    funext rpn
    rw [rpnLoopE_noEffects, Action.lift_bind]
  rw [this]
  rfl

/-! ## The log -/

/-- `m'` is `m` with a log, to which it adds calls of these words, in this order: all of them if it succeeds, the first ones if it fails. -/
def Logs (m' : Action (σ × List (Call N)) α) (m : Action σ α) (ts : List (Token N)) : Prop :=
  ∀ s l, ∃ new, m' (s, l) = ((m s).1, ((m s).2, l ++ new)) ∧ new.map Call.token <+: ts ∧ ((m s).1.isOk = true → new.map Call.token = ts)

theorem Logs.lift (x : Res α) : Logs (N := N) (.lift x : Action (σ × List (Call N)) α) (.lift x) [] :=
  fun s l => ⟨[], by simp [Action.lift], by simp, fun _ => rfl⟩

theorem Logs.fail (x : Res α) (h : x.isOk = false) (ts : List (Token N)) : Logs (.lift x : Action (σ × List (Call N)) α) (.lift x) ts :=
  fun s l => ⟨[], by simp [Action.lift], by simp, fun h' => by simp [Action.lift, h] at h'⟩

theorem Logs.noting (k : Call N) (m : Action σ α) : Logs (noting k m) m [k.token] :=
  fun s l => ⟨[k], rfl, by simp, fun _ => rfl⟩

theorem Logs.bind {m' : Action (σ × List (Call N)) α} {m : Action σ α} {ts ts' : List (Token N)} (h : Logs m' m ts)
    {f' : α → Action (σ × List (Call N)) β} {f : α → Action σ β} (hf : ∀ a, Logs (f' a) (f a) ts') : Logs (m'.bind f') (m.bind f) (ts ++ ts') := by
  intro s l
  obtain ⟨new, h1, h2, h3⟩ := h s l
  unfold Action.bind
  rw [h1]
  rcases hm : m s with ⟨r, s1⟩
  rw [hm] at h3
  cases r with
  | ok a =>
    simp only
    obtain ⟨new', g1, g2, g3⟩ := hf a s1 (l ++ new)
    have hn := h3 rfl
    refine ⟨new ++ new', by rw [g1]; simp, ?_, fun hok => ?_⟩
    · rw [List.map_append, hn]
      exact (List.prefix_append_right_inj _).2 g2
    · rw [List.map_append, hn, g3 hok]
  | err k => exact ⟨new, rfl, h2.trans (List.prefix_append _ _), fun hok => by cases hok⟩
  | panic => exact ⟨new, rfl, h2.trans (List.prefix_append _ _), fun hok => by cases hok⟩

theorem rpnStepE_logs (c : EffCtx σ N) (t : Token N) (vals : List N) (ac : Option Nat) :
    Logs (rpnStepE c.logged t vals ac) (rpnStepE c t vals ac) ([t].filter Token.isOp) := by
  cases t with
  | unary name =>
    refine Logs.bind (ts := []) (.lift _) fun _ => ?_
    cases vals with
    | nil => exact .fail _ rfl _
    | cons n vals => exact Logs.bind (ts' := []) (.noting _ _) fun _ => .lift _
  | binary name =>
    refine Logs.bind (ts := []) (.lift _) fun _ => ?_
    rcases vals with _ | ⟨x, _ | ⟨y, vals⟩⟩
    · exact .fail _ rfl _
    · exact .fail _ rfl _
    · exact Logs.bind (ts' := []) (.noting _ _) fun _ => .lift _
  | function name =>
    refine Logs.bind (ts := []) (.lift _) fun _ => ?_
    refine Logs.bind (ts := []) (.lift _) fun _ => ?_
    exact Logs.bind (ts' := []) (.noting _ _) fun _ => .lift _
  | _ => exact .lift _

theorem rpnLoopE_logs (c : EffCtx σ N) (ts : List (Token N)) (vals : List N) (ac : Option Nat) :
    Logs (rpnLoopE c.logged ts vals ac) (rpnLoopE c ts vals ac) (ts.filter Token.isOp) := by
  induction ts generalizing vals ac with
  | nil => exact .lift _
  | cons t ts ih =>
    have : (t :: ts).filter Token.isOp = [t].filter Token.isOp ++ ts.filter Token.isOp := by rw [← List.filter_append]; rfl
    rw [this]
    exact Logs.bind (rpnStepE_logs c t vals ac) fun r => ih r.1 r.2

/-- Logging changes nothing else, and the calls are those of the postfix form. -/
theorem evalTokensE_logs (c : EffCtx σ N) (ts rpn : List (Token N)) (h : infixToRpn c.ctx ts = .ok rpn) :
    Logs (evalTokensE c.logged ts) (evalTokensE c ts) (rpn.filter Token.isOp) := by
  have h' : infixToRpn c.logged.ctx ts = .ok rpn := h
  unfold evalTokensE
  rw [h, h', Action.bind_lift_ok, Action.bind_lift_ok]
  have := Logs.bind (ts' := []) (rpnLoopE_logs c rpn [] none) (f' := fun vs => .lift (rpnResult vs)) (f := fun vs => .lift (rpnResult vs))
    fun _ => .lift _
  simpa using this

/-- C112. Evaluating a well-formed expression calls each of its operators and functions once, in postfix order; if it fails, the first of these
calls and no others. The log does not change the outcome or the effects. -/
theorem C112_calls (c : EffCtx σ N) (e : Expr N) (h : e.WF c.ctx) (s : σ) :
    (evalTokensE c.logged e.render (s, [])).1 = (evalTokensE c e.render s).1 ∧
    (evalTokensE c.logged e.render (s, [])).2.1 = (evalTokensE c e.render s).2 ∧
    (callsOf c e.render s).map Call.token <+: e.postfix.filter Token.isOp ∧
    ((evalTokensE c e.render s).1.isOk = true → (callsOf c e.render s).map Call.token = e.postfix.filter Token.isOp) := by
  obtain ⟨new, h1, h2, h3⟩ := evalTokensE_logs c e.render e.postfix (infixToRpn_render c.ctx e h) s []
  simp only [callsOf, h1, List.nil_append, true_and]
  exact ⟨h2, h3⟩

/-- C112, any list of tokens, also one that is no well-formed expression: if it has a value, each operator and function in it was called once, and
nothing else (products without `*` off). -/
theorem C112_once (c : EffCtx σ N) (hm : c.ctx.config.implicitMul = false) (ts : List (Token N)) (s : σ)
    (h : (evalTokensE c ts s).1.isOk = true) : ((callsOf c ts s).map Call.token).Perm (ts.filter Token.isOp) := by
  cases hr : infixToRpn c.ctx ts with
  | err k => simp [evalTokensE, hr, Action.lift, Res.isOk] at h
  | panic => simp [evalTokensE, hr, Action.lift, Res.isOk] at h
  | ok rpn =>
    obtain ⟨new, h1, h2, h3⟩ := evalTokensE_logs c ts rpn hr s []
    simp only [callsOf, h1, List.nil_append]
    rw [h3 h]
    exact C53_operators_conserved c.ctx hm ts rpn hr

/-- C112. A list of tokens that cannot be converted has no effects. -/
theorem C112_rejected (c : EffCtx σ N) (ts : List (Token N)) (h : (infixToRpn c.ctx ts).isOk = false) (s : σ) :
    callsOf c ts s = [] ∧ (evalTokensE c ts s).2 = s := by
  cases hr : infixToRpn c.ctx ts with
  | ok rpn => rw [hr] at h; cases h
  | err k =>
    have h' : infixToRpn c.logged.ctx ts = .err k := hr
    simp [callsOf, evalTokensE, hr, h', Action.lift]
  | panic =>
    have h' : infixToRpn c.logged.ctx ts = .panic := hr
    simp [callsOf, evalTokensE, hr, h', Action.lift]

/-! ## An example: a counter -/

/-- Every operator and function answers how often one was called before; `^` fails. -/
def Demo.counter : EffCtx Nat Int where
  ctx := Demo.ctx false false
  unary _ _ n := (.ok n, n + 1)
  binary o _ _ n := if o = ['^'] then (.err .overflow, n + 1) else (.ok n, n + 1)
  function _ _ n := (.ok n, n + 1)

/-- `(1 + 2) * sum(3 - 4, 5 % )` -/
def Demo.counted : Expr Int :=
  .bin ['*'] (.paren .parenthesis (.bin ['+'] (.atom (.num 1)) (.atom (.num 2))))
    (.call (str "sum") .parenthesis (.more (.bin ['-'] (.atom (.num 3)) (.atom (.num 4))) (.one (.postfixed ['%'] (.atom (.num 5))))))

example : Demo.counted.WF (Demo.counter).ctx := by
  simp [Demo.counted, Expr.WF, Args.WF, Demo.counter, Demo.ctx, Expr.rightSpine, Expr.leftSpine, Expr.primary, Demo.pct]

example : evalTokensE Demo.counter Demo.counted.render 7 = (.ok 11, 12) ∧
    callsOf Demo.counter Demo.counted.render 7 =
      [.binary ['+'] 1 2, .binary ['-'] 3 4, .unary ['%'] 5, .function (str "sum") [8, 9], .binary ['*'] 7 10] := by decide +kernel

/-- `1 + 2 ^ 3 - 4`: the call of `^` fails and nothing is called afterwards. -/
example : evalTokensE Demo.counter [.number 1, .binary ['+'], .number 2, .binary ['^'], .number 3, .binary ['-'], .number 4] 0 = (.err .overflow, 1) := by
  decide +kernel

end Prexel
