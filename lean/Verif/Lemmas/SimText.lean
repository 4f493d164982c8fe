import Verif.Lemmas.SimContext
import Verif.Model.Tokenizer
import Verif.Props.Evaluator
/-!
# Lemmas: related contexts read a text as related tokens
-/

set_option linter.unusedVariables false
set_option linter.unusedSimpArgs false

namespace Prexel
variable {N M F : Type} {R : N → M → Prop} {slack : Slack}

/-- Contexts that know the same names. -/
structure ShapeRel (c : Ctx N) (d : Ctx M) : Prop where
  config : c.config = d.config
  variables : ∀ s, c.isVariable s = d.isVariable s
  constants : ∀ s, c.isConstant s = d.isConstant s
  functions : ∀ s, c.isFunction s = d.isFunction s
  binary : ∀ s, c.isBinary s = d.isBinary s
  unary : ∀ s, Both (fun f g => f.notation_ = g.notation_) (c.getUnary s) (d.getUnary s)

variable {c : Ctx N} {d : Ctx M} {parse : Str → Option N} {parse' : Str → Option M}

theorem ShapeRel.isUnary (h : ShapeRel c d) (s : Str) : c.isUnary s = d.isUnary s := (h.unary s).isSome

theorem isUnaryOp_sim (h : ShapeRel c d) {prev : Option Str} (hp : ∀ p ∈ prev, (parse p).isSome = (parse' p).isSome) (w : Str)
    (next : Option Str) : isUnaryOp parse c prev w next = isUnaryOp parse' d prev w next := by
  unfold isUnaryOp
  have hu := h.unary w
  cases hc : c.getUnary w <;> cases hd : d.getUnary w <;> rw [hc, hd] at hu <;> cases hu <;> try rfl
  · rename_i hn
    simp only [hn]
    split
    · cases prev with
      | none => rfl
      | some s => simp only [h.config, hp s rfl, h.constants, h.variables]
    · cases prev with
      | none => rfl
      | some s => simp only [h.config, hp s rfl, h.constants, h.variables, h.isUnary, h.binary]

theorem operatorToken_sim (h : ShapeRel c d) {prev : Option Str} (hp : ∀ p ∈ prev, (parse p).isSome = (parse' p).isSome) (w : Str)
    (last : Bool) : Lift (TokenRel R) slack (operatorToken parse c prev w last) (operatorToken parse' d prev w last) := by
  unfold operatorToken
  simp only [isUnaryOp_sim h hp]
  refine (Lift.refl _).bind fun u u' hu => ?_
  subst hu
  split
  · exact .ok (.unary w)
  · cases (prev.isNone || (if last then none else some w).isNone)
    · exact .ok (.binary w)
    · exact .err _

theorem otherToken_sim (h : ShapeRel c d) (w : Str) : Both (TokenRel R) (otherToken c w) (otherToken d w) := by
  unfold otherToken
  split
  · exact .some .comma
  · split
    · exact .none
    · split
      · rename_i x _ _
        simp only [h.config]
        split
        · split
          · split
            · exact .some (.gopen _)
            · exact .some (.gclose _)
          · exact .some (.unknown _)
        · exact .some (.unknown _)
      · exact .some (.unknown _)

theorem tokenizeLoop_sim (h : ShapeRel c d) (hp : ∀ w, Both R (parse w) (parse' w)) (prev : Option Str) (ws : List Str) :
    Lift (TokensRel R) slack (tokenizeLoop parse c prev ws) (tokenizeLoop parse' d prev ws) := by
  have hps : ∀ w, (parse w).isSome = (parse' w).isSome := fun w => (hp w).isSome
  fun_induction tokenizeLoop parse c prev ws with
  | case1 prev => exact .ok .nil
  | case2 prev w n hn w' rest' hi hm =>
    have h1 := hp w
    have h2 := hp (w ++ w')
    rw [hn] at h1; rw [hm] at h2
    rw [tokenizeLoop.eq_def parse' d]
    cases hd : parse' w with
    | none => rw [hd] at h1; cases h1
    | some n' =>
      simp only [hd, ← h.config, hi, if_true]
      cases hd2 : parse' (w ++ w') with
      | none => simp only [hd2]; exact .err _
      | some _ => rw [hd2] at h2; cases h2
  | case3 prev w n hn w' rest' hi m hm ih =>
    have h1 := hp w
    have h2 := hp (w ++ w')
    rw [hn] at h1; rw [hm] at h2
    rw [tokenizeLoop.eq_def parse' d]
    cases hd : parse' w with
    | none => rw [hd] at h1; cases h1
    | some n' =>
      simp only [hd, ← h.config, hi, if_true]
      cases hd2 : parse' (w ++ w') with
      | none => rw [hd2] at h2; cases h2
      | some m' =>
        rw [hd2] at h2
        cases h2 with
        | some h2 => simp only [hd2]; exact ih.bind fun _ _ ht => .ok (.cons (.number h2) ht)
  | case4 prev w n hn w' rest' hi ih =>
    have h1 := hp w
    rw [hn] at h1
    rw [tokenizeLoop.eq_def parse' d]
    cases hd : parse' w with
    | none => rw [hd] at h1; cases h1
    | some n' =>
      simp only [hd, ← h.config, hi, Bool.false_eq_true, if_false]
      rw [hd] at h1
      cases h1 with
      | some h1 => exact ih.bind fun _ _ ht => .ok (.cons (.number h1) ht)
  | case5 prev w n hn =>
    have h1 := hp w
    rw [hn] at h1
    rw [tokenizeLoop.eq_def parse' d]
    cases hd : parse' w with
    | none => rw [hd] at h1; cases h1
    | some n' =>
      rw [hd] at h1
      cases h1 with
      | some h1 => simp only [hd]; exact .ok (.cons (.number h1) .nil)
  | case6 prev w rest hn hv ih =>
    have h1 := hp w
    rw [hn] at h1
    rw [tokenizeLoop.eq_def parse' d]
    cases hd : parse' w with
    | some n' => rw [hd] at h1; cases h1
    | none =>
      simp only [hd, ← h.variables, hv, if_true]
      exact ih.bind fun _ _ ht => .ok (.cons (.variable_ w) ht)
  | case7 prev w rest hn hv hk ih =>
    have h1 := hp w
    rw [hn] at h1
    rw [tokenizeLoop.eq_def parse' d]
    cases hd : parse' w with
    | some n' => rw [hd] at h1; cases h1
    | none =>
      simp only [hd, ← h.variables, hv, ← h.constants, hk, if_true, Bool.false_eq_true, if_false]
      exact ih.bind fun _ _ ht => .ok (.cons (.constant w) ht)
  | case8 prev w rest hn hv hk hf ih =>
    have h1 := hp w
    rw [hn] at h1
    rw [tokenizeLoop.eq_def parse' d]
    cases hd : parse' w with
    | some n' => rw [hd] at h1; cases h1
    | none =>
      simp only [hd, ← h.variables, hv, ← h.constants, hk, ← h.functions, hf, if_true, Bool.false_eq_true, if_false]
      exact ih.bind fun _ _ ht => .ok (.cons (.function w) ht)
  | case9 prev w rest hn hv hk hf hb ih =>
    have h1 := hp w
    rw [hn] at h1
    rw [tokenizeLoop.eq_def parse' d]
    cases hd : parse' w with
    | some n' => rw [hd] at h1; cases h1
    | none =>
      simp only [hd, ← h.variables, hv, ← h.constants, hk, ← h.functions, hf, ← h.binary, ← h.isUnary, hb, if_true, Bool.false_eq_true, if_false]
      refine (operatorToken_sim h (fun p _ => hps p) w _).bind fun _ _ ht1 => ih.bind fun _ _ ht => .ok (.cons ht1 ht)
  | case10 prev w rest hn hv hk hf hb t ht ih =>
    have h1 := hp w
    rw [hn] at h1
    rw [tokenizeLoop.eq_def parse' d]
    have ho := otherToken_sim (R := R) h w
    rw [ht] at ho
    cases hd : parse' w with
    | some n' => rw [hd] at h1; cases h1
    | none =>
      simp only [hd, ← h.variables, hv, ← h.constants, hk, ← h.functions, hf, ← h.binary, ← h.isUnary, hb, Bool.false_eq_true, if_false]
      cases ho2 : otherToken d w with
      | none => rw [ho2] at ho; cases ho
      | some u =>
        rw [ho2] at ho
        cases ho with
        | some ho => simp only [ho2]; exact ih.bind fun _ _ ht => .ok (.cons ho ht)
  | case11 prev w rest hn hv hk hf hb ht ih =>
    have h1 := hp w
    rw [hn] at h1
    rw [tokenizeLoop.eq_def parse' d]
    have ho := otherToken_sim (R := R) h w
    rw [ht] at ho
    cases hd : parse' w with
    | some n' => rw [hd] at h1; cases h1
    | none =>
      simp only [hd, ← h.variables, hv, ← h.constants, hk, ← h.functions, hf, ← h.binary, ← h.isUnary, hb, Bool.false_eq_true, if_false]
      cases ho2 : otherToken d w with
      | some u => rw [ho2] at ho; cases ho
      | none => simp only [ho2]; exact ih

theorem Lift.of_ok {α β : Type} {R : α → β → Prop} {v : α} {y : Res β} (h : Lift R slack (.ok v) y) : ∃ w, y = .ok w ∧ R v w := by
  cases h with
  | ok h => exact ⟨_, rfl, h⟩

/-- A word that is a number only for the second context means nothing in the first one. -/
def OnlyNumber (c : Ctx N) (w : Str) : Prop :=
  c.isVariable w = false ∧ c.isConstant w = false ∧ c.isFunction w = false ∧ c.isBinary w = false ∧ c.isUnary w = false ∧
    otherToken c w = some (.unknown w)

theorem tokenizeLoop_grow (h : ShapeRel c d) (hp : ∀ w n, parse w = some n → ∃ m, parse' w = some m ∧ R n m)
    (hn : ∀ w, parse w = none → (parse' w).isSome = true → OnlyNumber c w) (hi : (parse ['i']).isSome = (parse' ['i']).isSome)
    (prev : Option Str) (hprev : ∀ p ∈ prev, (parse p).isSome = (parse' p).isSome) (ws : List Str) (ts : List (Token N))
    (hts : tokenizeLoop parse c prev ws = .ok ts) :
    (∃ s, .unknown s ∈ ts) ∨ ∃ us, tokenizeLoop parse' d prev ws = .ok us ∧ TokensRel R ts us := by
  -- the cases in which the word is not a number in the first context
  have key : ∀ (prev : Option Str) (w : Str) (rest : List Str) (ts : List (Token N)), parse w = none →
      tokenizeLoop parse c prev (w :: rest) = .ok ts → (∃ s, .unknown s ∈ ts) ∨ parse' w = none := by
    intro prev w rest ts hw hts
    cases hw' : parse' w with
    | none => exact .inr rfl
    | some m =>
      left
      obtain ⟨h1, h2, h3, h4, h5, h6⟩ := hn w hw (by simp [hw'])
      rw [tokenizeLoop.eq_def] at hts
      simp only [hw, h1, h2, h3, h4, h5, h6, Bool.or_self, Bool.false_eq_true, if_false] at hts
      cases hr : tokenizeLoop parse c (some w) rest with
      | ok ts' => rw [hr] at hts; simp at hts; subst hts; exact ⟨w, by simp⟩
      | err k => rw [hr] at hts; cases hts
      | panic => rw [hr] at hts; cases hts
  have some_eq : ∀ w n, parse w = some n → (parse w).isSome = (parse' w).isSome := by
    intro w n hw
    obtain ⟨m, hm, -⟩ := hp w n hw
    rw [hw, hm]; rfl
  have cont : ∀ (t : Token N) (u : Token M) (r : Res (List (Token N))) (r' : Res (List (Token M))), TokenRel R t u →
      (∀ ts, r = .ok ts → (∃ s, .unknown s ∈ ts) ∨ ∃ us, r' = .ok us ∧ TokensRel R ts us) →
      ∀ ts, (r.bind fun ts => .ok (t :: ts)) = .ok ts →
        (∃ s, .unknown s ∈ ts) ∨ ∃ us, (r'.bind fun us => .ok (u :: us)) = .ok us ∧ TokensRel R ts us := by
    intro t u r r' htu hr ts hts
    cases r with
    | err k => cases hts
    | panic => cases hts
    | ok l =>
      simp at hts
      subst hts
      rcases hr l rfl with ⟨s, hs⟩ | ⟨us, rfl, hus⟩
      · exact .inl ⟨s, by simp [hs]⟩
      · exact .inr ⟨u :: us, rfl, .cons htu hus⟩
  fun_induction tokenizeLoop parse c prev ws generalizing ts with
  | case1 prev =>
    simp at hts; subst hts
    exact .inr ⟨[], by simp [tokenizeLoop], .nil⟩
  | case2 prev w n hw w' rest' hi' hm => cases hts
  | case3 prev w n hw w' rest' hi' m hm ih =>
    obtain ⟨n', hn', -⟩ := hp w n hw
    obtain ⟨m', hm', hr⟩ := hp _ m hm
    rw [tokenizeLoop.eq_def parse' d]
    simp only [hn', ← h.config, hi', if_true, hm']
    have hw' : w' = ['i'] := by simp at hi'; exact hi'.2
    refine cont _ _ _ _ (.number hr) (fun ts hts => ih ?_ _ hts) ts hts
    intro p hp'
    simp only [Option.mem_def, Option.some.injEq] at hp'
    subst hp'; rw [hw']; exact hi
  | case4 prev w n hw w' rest' hi' ih =>
    obtain ⟨n', hn', hr⟩ := hp w n hw
    rw [tokenizeLoop.eq_def parse' d]
    simp only [hn', ← h.config, hi']
    refine cont _ _ _ _ (.number hr) (fun ts hts => ih ?_ _ hts) ts hts
    intro p hp'
    simp only [Option.mem_def, Option.some.injEq] at hp'
    subst hp'; exact some_eq _ _ hw
  | case5 prev w n hw =>
    obtain ⟨n', hn', hr⟩ := hp w n hw
    simp at hts; subst hts
    rw [tokenizeLoop.eq_def parse' d]
    simp only [hn']
    exact .inr ⟨_, rfl, .cons (.number hr) .nil⟩
  | case6 prev w rest hw hv ih =>
    rcases key prev w rest ts hw (by rw [tokenizeLoop.eq_def]; simp only [hw, hv, if_true]; exact hts) with hu | hw'
    · exact .inl hu
    · rw [tokenizeLoop.eq_def parse' d]
      simp only [hw', ← h.variables, hv, if_true]
      refine cont _ _ _ _ (.variable_ w) (fun ts hts => ih ?_ _ hts) ts hts
      intro p hp'
      simp only [Option.mem_def, Option.some.injEq] at hp'
      subst hp'; rw [hw, hw']; rfl
  | case7 prev w rest hw hv hk ih =>
    rcases key prev w rest ts hw (by rw [tokenizeLoop.eq_def]; simp only [hw, hv, hk, if_true]; exact hts) with hu | hw'
    · exact .inl hu
    · rw [tokenizeLoop.eq_def parse' d]
      simp only [hw', ← h.variables, hv, ← h.constants, hk, if_true]
      refine cont _ _ _ _ (.constant w) (fun ts hts => ih ?_ _ hts) ts hts
      intro p hp'
      simp only [Option.mem_def, Option.some.injEq] at hp'
      subst hp'; rw [hw, hw']; rfl
  | case8 prev w rest hw hv hk hf ih =>
    rcases key prev w rest ts hw (by rw [tokenizeLoop.eq_def]; simp only [hw, hv, hk, hf, if_true]; exact hts) with hu | hw'
    · exact .inl hu
    · rw [tokenizeLoop.eq_def parse' d]
      simp only [hw', ← h.variables, hv, ← h.constants, hk, ← h.functions, hf, if_true]
      refine cont _ _ _ _ (.function w) (fun ts hts => ih ?_ _ hts) ts hts
      intro p hp'
      simp only [Option.mem_def, Option.some.injEq] at hp'
      subst hp'; rw [hw, hw']; rfl
  | case9 prev w rest hw hv hk hf hb ih =>
    rcases key prev w rest ts hw (by rw [tokenizeLoop.eq_def]; simp only [hw, hv, hk, hf, hb, if_true]; exact hts) with hu | hw'
    · exact .inl hu
    · rw [tokenizeLoop.eq_def parse' d]
      simp only [hw', ← h.variables, hv, ← h.constants, hk, ← h.functions, hf, ← h.binary, ← h.isUnary, hb, if_true]
      have ho := operatorToken_sim (R := R) (slack := .none) h hprev w rest.isEmpty
      cases hot : operatorToken parse c prev w rest.isEmpty with
      | err k => rw [hot] at hts; cases hts
      | panic => rw [hot] at hts; cases hts
      | ok t =>
        rw [hot] at ho hts
        obtain ⟨u, hu, htu⟩ := ho.of_ok
        rw [hu]
        refine cont _ _ _ _ htu (fun ts hts => ih ?_ _ hts) ts hts
        intro p hp'
        simp only [Option.mem_def, Option.some.injEq] at hp'
        subst hp'; rw [hw, hw']; rfl
  | case10 prev w rest hw hv hk hf hb t ht ih =>
    rcases key prev w rest ts hw (by rw [tokenizeLoop.eq_def]; simp only [hw, hv, hk, hf, hb, ht, if_true]; exact hts) with hu | hw'
    · exact .inl hu
    · rw [tokenizeLoop.eq_def parse' d]
      simp only [hw', ← h.variables, hv, ← h.constants, hk, ← h.functions, hf, ← h.binary, ← h.isUnary, hb]
      have ho := otherToken_sim (R := R) h w
      rw [ht] at ho
      cases ho2 : otherToken d w with
      | none => rw [ho2] at ho; cases ho
      | some u =>
        rw [ho2] at ho
        cases ho with
        | some ho =>
          refine cont _ _ _ _ ho (fun ts hts => ih ?_ _ hts) ts hts
          intro p hp'
          simp only [Option.mem_def, Option.some.injEq] at hp'
          subst hp'; rw [hw, hw']; rfl
  | case11 prev w rest hw hv hk hf hb ht ih =>
    rcases key prev w rest ts hw (by rw [tokenizeLoop.eq_def]; simp only [hw, hv, hk, hf, hb, ht, if_true]; exact hts) with hu | hw'
    · exact .inl hu
    · rw [tokenizeLoop.eq_def parse' d]
      simp only [hw', ← h.variables, hv, ← h.constants, hk, ← h.functions, hf, ← h.binary, ← h.isUnary, hb]
      have ho := otherToken_sim (R := R) h w
      rw [ht] at ho
      cases ho2 : otherToken d w with
      | some u => rw [ho2] at ho; cases ho
      | none =>
        refine ih ?_ _ hts
        intro p hp'
        simp only [Option.mem_def, Option.some.injEq] at hp'
        subst hp'; rw [hw, hw']; rfl

/-- Reading and evaluating a text, if both number types read the same numbers. -/
theorem eval_sim (h : ShapeRel c d) (hp : ∀ w, Both R (parse w) (parse' w)) (splitter : Str → List Str) (s : Str)
    (hts : ∀ ts, tokenize parse splitter c s = .ok ts → CtxRel R slack c d ts) :
    Lift R slack (eval parse splitter c s) (eval parse' splitter d s) := by
  unfold eval
  unfold tokenize at hts ⊢
  split at hts
  · rename_i hw
    simp only [if_pos hw]
    exact .err _
  · rename_i hw
    simp only [if_neg hw]
    have ht := tokenizeLoop_sim (slack := .none) h hp none (splitter s)
    cases h1 : tokenizeLoop parse c none (splitter s) with
    | ok ts =>
      rw [h1] at ht
      obtain ⟨us, hus, hrel⟩ := ht.of_ok
      rw [hus]
      exact evalTokens_sim hrel (hts ts h1)
    | err k =>
      rw [h1] at ht
      cases h2 : tokenizeLoop parse' d none (splitter s) with
      | ok _ => rw [h2] at ht; cases ht with | anyErr _ _ h => cases h
      | err k' =>
        rw [h2] at ht
        cases ht with
        | err _ => exact .err _
        | anyErr _ _ h => cases h
      | panic => rw [h2] at ht; cases ht with | anyErr _ _ h => cases h
    | panic =>
      rw [h1] at ht
      cases h2 : tokenizeLoop parse' d none (splitter s) with
      | ok _ => rw [h2] at ht; cases ht with | anyPanic _ h => exact absurd rfl h
      | err k' => rw [h2] at ht; cases ht with | anyPanic _ h => exact absurd rfl h
      | panic => exact .panic

theorem unknown_not_ok (c : Ctx N) {ts : List (Token N)} {s : Str} (h : .unknown s ∈ ts) (v : N) : evalTokens c ts ≠ .ok v := by
  intro he
  obtain ⟨st, h1, _⟩ := evalTokens_ok he
  obtain ⟨i, hi⟩ := mem_getElem? h
  obtain ⟨s1, s2, hstep⟩ := syLoop_steps (by simp) h1 i (by omega) _ hi
  simp [syStep, dispatch] at hstep

/-- Reading and evaluating a text, if the second number type reads more numbers. -/
theorem eval_grow (h : ShapeRel c d) (hp : ∀ w n, parse w = some n → ∃ m, parse' w = some m ∧ R n m)
    (hn : ∀ w, parse w = none → (parse' w).isSome = true → OnlyNumber c w) (hi : (parse ['i']).isSome = (parse' ['i']).isSome)
    (splitter : Str → List Str) (s : Str) (hts : ∀ ts, tokenize parse splitter c s = .ok ts → CtxRel R .failures c d ts)
    (v : N) (hv : eval parse splitter c s = .ok v) : ∃ w, eval parse' splitter d s = .ok w ∧ R v w := by
  unfold eval at hv ⊢
  unfold tokenize at hv hts ⊢
  split at hv
  · cases hv
  · rename_i hw
    simp only [if_neg hw] at hts ⊢
    cases h1 : tokenizeLoop parse c none (splitter s) with
    | err k => rw [h1] at hv; cases hv
    | panic => rw [h1] at hv; cases hv
    | ok ts =>
      rw [h1] at hv
      rcases tokenizeLoop_grow h hp hn hi none (by simp) (splitter s) ts h1 with ⟨u, hu⟩ | ⟨us, hus, hrel⟩
      · exact absurd hv (unknown_not_ok c hu v)
      · rw [hus]
        have := evalTokens_sim hrel (hts ts h1)
        simp only [Res.bind_ok] at hv
        rw [hv] at this
        exact this.of_ok

/-! ## Contexts that were built from tables -/

/-- `c` has these tables, and other variables and constants. -/
theorem view_values (K : Keys) (debug : Bool) {os : List (Op N)} (hos : OnlyValues os) {c : Context N} {config : Config}
    {cs : List (Str × N)} {bs : List (Named (BinFn N))} {us : List (Named (UnFn N))} {fs : List (Named (Fn N))}
    (hv : c.view K = tablesCtx config cs bs us fs) :
    ((c.runAll K debug os).view K).config = config ∧ ((c.runAll K debug os).view K).getFunction = lookup hashSame fs ∧
      ((c.runAll K debug os).view K).getUnary = lookup hashSame us ∧ ((c.runAll K debug os).view K).getBinary = lookup hashSame bs := by
  obtain ⟨h1, h2, h3, h4⟩ := runAll_values K debug hos c
  have e1 := congrArg Ctx.config hv
  have e2 := congrArg Ctx.getFunction hv
  have e3 := congrArg Ctx.getUnary hv
  have e4 := congrArg Ctx.getBinary hv
  simp only [Context.view, tablesCtx] at e1 e2 e3 e4 ⊢
  rw [h1, h2, h3, h4]
  exact ⟨e1, e2, e3, e4⟩

/-- Tokens that use none of the binary operators `bb` and none of the unary operators `bu`. -/
def Avoids (bb bu : List Str) (ts : List (Token N)) : Prop :=
  (∀ s, .binary s ∈ ts → ∀ n ∈ bb, ¬ CaseVariant n s) ∧ (∀ s, .unary s ∈ ts → ∀ n ∈ bu, ¬ CaseVariant n s)

section
variable {K : Keys} {debug debug' : Bool} {config : Config} {cs : List (Str × N)} {bs : List (Named (BinFn N))} {us : List (Named (UnFn N))}
  {fs : List (Named (Fn N))} {cs' : List (Str × M)} {bs' : List (Named (BinFn M))} {us' : List (Named (UnFn M))}
  {fs' : List (Named (Fn M))} {c : Context N} {d : Context M} {os : List (Op N)} {os' : List (Op M)} {bb bu : List Str}

theorem built_ctxRel (hc : c.view K = tablesCtx config cs bs us fs) (hd : d.view K = tablesCtx config cs' bs' us' fs') (hval : ValRel R c d)
    (hb : TableRelExcept (BinRel R slack) bb bs bs') (hu : TableRelExcept (UnRel R slack) bu us us')
    (hf : TableRel (FnRel R slack) fs fs') (hos : Pairwise2 (OpRel R) os os') (hn : SameChecks debug debug' os) (hstar : ∀ n ∈ bb, ¬ CaseVariant n ['*'])
    (ts : List (Token N)) (hts : Avoids bb bu ts) :
    CtxRel R slack ((c.runAll K debug os).view K) ((d.runAll K debug' os').view K) ts := by
  obtain ⟨c1, c2, c3, c4⟩ := view_values K debug hos.onlyValues.1 hc
  obtain ⟨d1, d2, d3, d4⟩ := view_values K debug' hos.onlyValues.2 hd
  have hval' := hval.runAll K hos hn
  refine ⟨by rw [c1, d1], fun s _ => hval'.variables.get _ _, fun s _ => hval'.constants.get _ _, fun s _ => ?_, fun s hs => ?_, fun s hs => ?_,
    fun _ => ?_⟩
  · rw [c2, d2]; exact hf.lookup _ _
  · rw [c3, d3]; exact hu.lookup _ (hts.2 s hs)
  · rw [c4, d4]; exact hb.lookup _ (hts.1 s hs)
  · rw [c4, d4]; exact hb.lookup _ hstar

theorem built_shapeRel (hc : c.view K = tablesCtx config cs bs us fs) (hd : d.view K = tablesCtx config cs' bs' us' fs') (hval : ValRel R c d)
    (hb : TableRel (fun _ _ => True) bs bs') (hu : TableRel (fun f g => f.notation_ = g.notation_) us us')
    (hf : TableRel (fun _ _ => True) fs fs') (hos : Pairwise2 (OpRel R) os os') (hn : SameChecks debug debug' os) :
    ShapeRel ((c.runAll K debug os).view K) ((d.runAll K debug' os').view K) := by
  obtain ⟨c1, c2, c3, c4⟩ := view_values K debug hos.onlyValues.1 hc
  obtain ⟨d1, d2, d3, d4⟩ := view_values K debug' hos.onlyValues.2 hd
  have hval' := hval.runAll K hos hn
  refine ⟨by rw [c1, d1], fun s => (hval'.variables.get _ _).isSome, fun s => (hval'.constants.get _ _).isSome, fun s => ?_, fun s => ?_,
    fun s => ?_⟩
  · simp only [Ctx.isFunction]; rw [c2, d2]; exact (hf.lookup _ _).isSome
  · simp only [Ctx.isBinary]; rw [c4, d4]; exact (hb.lookup _ _).isSome
  · rw [c3, d3]; exact hu.lookup _ _
end

theorem TableRel.toExcept {V W : Type} {Rel : V → W → Prop} {bad : List Str} {fs : List (Named V)} {gs : List (Named W)}
    (h : TableRel Rel fs gs) : TableRelExcept Rel bad fs gs := by
  induction h with
  | nil => exact .nil
  | cons hab _ ih => exact .cons ⟨hab.1, .inr hab.2⟩ ih

theorem TableRel.weaken {V W : Type} {Rel Rel' : V → W → Prop} {fs : List (Named V)} {gs : List (Named W)}
    (h : TableRel Rel fs gs) (hw : ∀ f g, Rel f g → Rel' f g) : TableRel Rel' fs gs := by
  induction h with
  | nil => exact .nil
  | cons hab _ ih => exact .cons ⟨hab.1, hw _ _ hab.2⟩ ih

/-- What a constructor that succeeded has found. -/
theorem checked_parts {K : Keys} {debug docs : Bool} {f : F64 F} {num : Num N F} {config : Config} {c : Context N}
    (hc : Context.checked K debug docs f num config = .ok c) :
    ∃ pi e, num.fromF64 f.pi = some pi ∧ num.fromF64 f.e = some e ∧
      (Context.withConfig config).runUnwrap K debug (buildOps [(str "PI", pi), (str "E", e)] (Ops.checkedBinary f num)
        (Ops.checkedUnary f num) (Ops.checkedFunctions docs f num)) = .ok c := by
  unfold Context.checked at hc
  split at hc
  · rename_i pi e h1 h2; exact ⟨pi, e, h1, h2, hc⟩
  · cases hc

theorem unchecked_parts {K : Keys} {debug : Bool} {f : F64 F} {num : Num N F} {config : Config} {c : Context N}
    (hc : Context.unchecked K debug f num config = .ok c) :
    ∃ pi e, num.fromF64 f.pi = some pi ∧ num.fromF64 f.e = some e ∧
      (Context.withConfig config).runUnwrap K debug (buildOps [(str "PI", pi), (str "E", e)] (Ops.uncheckedBinary f num)
        (Ops.uncheckedUnary f num) (Ops.uncheckedFunctions f num)) = .ok c := by
  unfold Context.unchecked at hc
  split at hc
  · rename_i pi e h1 h2; exact ⟨pi, e, h1, h2, hc⟩
  · cases hc

theorem fromF64_rel {a : Num N F} {b : Num M F} (h : NumRel R slack a b) {v : F} {x : N} {y : M} (hx : a.fromF64 v = some x)
    (hy : b.fromF64 v = some y) : R x y := by
  have := h.fromF64 v
  rw [hx, hy] at this
  obtain ⟨w, hw, hr⟩ := this.of_ok
  simp only [Res.ofOption, Res.ok.injEq] at hw
  rw [hw]; exact hr

end Prexel
