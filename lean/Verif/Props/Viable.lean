import Verif.Props.Messages
/-!
# C118: the first unknown word is named

Without condition on what comes before it, other than that it could be continued to something that converts.
-/

namespace Prexel
variable {N : Type}

theorem checkComma_other {ts us : List (Token N)} {grp : List Nat} {pos : Nat} (h : ∀ i < pos, ts[i]? = us[i]?)
    (hn : (us[pos + 1]?).any Token.isGclose = true → (ts[pos + 1]?).any Token.isGclose = true) (hg : ∀ g ∈ grp, g < pos)
    (hc : checkCommaPosition ts grp pos = .ok ()) : checkCommaPosition us grp pos = .ok () := by
  unfold checkCommaPosition at hc ⊢
  split at hc
  · cases hc
  rename_i h0
  rw [h (pos - 1) (by omega)] at hc
  simp only [h0, if_false]
  split at hc
  · cases hc
  rename_i h1
  simp only [h1]
  split at hc
  · cases hc
  rename_i h2
  have h2' : ¬ (us[pos + 1]?).any Token.isGclose = true := fun h => h2 (hn h)
  simp only [h2']
  simp only [Bool.false_eq_true, if_false]
  match grp, hg, hc with
  | [], _, _ => rfl
  | 0 :: _, _, hc => cases hc
  | (g + 1) :: _, hg, hc =>
    have := hg (g + 1) (by simp)
    simpa only [h g (by omega)] using hc

theorem emptyGroup_other {ctx : Ctx N} {ts us : List (Token N)} {pos : Nat} {c : Char} (h : ∀ i < pos, ts[i]? = us[i]?) :
    emptyGroup ctx ts pos c = emptyGroup ctx us pos c := by
  unfold emptyGroup
  split
  · rw [h (pos - 1) (by omega), h (pos - 2) (by omega)]
  · rfl

/-- What a token does depends on the tokens before it, and on the next one only in two ways. -/
theorem dispatch_other {ctx : Ctx N} {ts us : List (Token N)} {pos : Nat} {t : Token N} {next next' : Option (Token N)} {st st' : SY N}
    (h : ∀ i < pos, ts[i]? = us[i]?) (hn : (us[pos + 1]?).any Token.isGclose = true → (ts[pos + 1]?).any Token.isGclose = true)
    (hg : ∀ g ∈ st.grp, g < pos) (hf : t.isFunction = true → ctx.config.customFunctionCall = true ∨ next = next')
    (hd : dispatch ctx ts pos t next st = .ok st') : dispatch ctx us pos t next' st = .ok st' := by
  cases t with
  | function f =>
    rcases hf rfl with hf | rfl
    · simp only [dispatch, hf] at hd ⊢; simpa using hd
    · exact hd
  | gclose c =>
    simp only [dispatch] at hd ⊢
    rw [← emptyGroup_other h]; exact hd
  | comma =>
    simp only [dispatch] at hd ⊢
    cases hc : checkCommaPosition ts st.grp pos with
    | ok _ => rw [hc] at hd; rw [checkComma_other h hn hg hc]; exact hd
    | err k => rw [hc] at hd; cases hd
    | panic => rw [hc] at hd; cases hd
  | _ => exact hd

theorem dispatch_grp {ctx : Ctx N} {ts : List (Token N)} {pos : Nat} {t : Token N} {next : Option (Token N)} {st st' : SY N}
    (hg : ∀ g ∈ st.grp, g < pos) (hd : dispatch ctx ts pos t next st = .ok st') : ∀ g ∈ st'.grp, g < pos + 1 := by
  have same : st'.grp = st.grp → ∀ g ∈ st'.grp, g < pos + 1 := fun e g h => by
    rw [e] at h; have := hg g h; omega
  cases t with
  | number _ | variable_ _ | constant _ =>
    simp only [dispatch, Res.ok.injEq] at hd
    subst hd
    apply same
    unfold pushNumber
    split
    · split <;> rfl
    · rfl
  | binary o =>
    simp only [dispatch, pushBinaryFunction] at hd
    split at hd
    · cases hd
    · simp only [Res.ok.injEq] at hd; subst hd; exact same rfl
  | unary u =>
    simp only [dispatch, pushUnaryFunction] at hd
    split at hd
    · split at hd
      · simp only [Res.ok.injEq] at hd; subst hd; exact same rfl
      · split at hd
        · cases hd
        · simp only [Res.ok.injEq] at hd; subst hd; exact same rfl
    · cases hd
  | function f =>
    simp only [dispatch] at hd
    split at hd
    · cases hd
    · simp only [Res.ok.injEq] at hd; subst hd; exact same rfl
  | gopen c =>
    simp only [dispatch, Res.ok.injEq] at hd
    subst hd
    simp only
    split
    · exact fun g h => by have := hg g h; omega
    · intro g h
      rcases List.mem_cons.1 h with rfl | h
      · omega
      · have := hg g h; omega
  | gclose c =>
    simp only [dispatch] at hd
    cases hc : pushGroupingClose ctx c st with
    | err k => rw [hc] at hd; cases hd
    | panic => rw [hc] at hd; cases hd
    | ok s =>
      rw [hc] at hd
      have hs : s.grp = st.grp := by
        unfold pushGroupingClose at hc
        split at hc
        · cases hc
        · split at hc
          · cases hc
          · split at hc
            · split at hc <;> (simp only [Res.ok.injEq] at hc; subst hc; rfl)
            · cases hc
      simp only [Res.bind_ok] at hd
      split at hd
      · cases hd
      · cases hd
      · simp only [Res.ok.injEq] at hd
        subst hd
        simp only [hs]
        split
        · exact fun g h => by have := hg g h; omega
        · exact fun g h => by have := hg g (List.mem_of_mem_tail h); omega
  | comma =>
    simp only [dispatch] at hd
    cases hc : checkCommaPosition ts st.grp pos with
    | err k => rw [hc] at hd; cases hd
    | panic => rw [hc] at hd; cases hd
    | ok s =>
      rw [hc] at hd
      simp only [Res.bind_ok, pushComma] at hd
      split at hd
      · cases hd
      · split at hd
        · cases hd
        · simp only [Res.ok.injEq] at hd; subst hd; exact same rfl
  | _ => cases hd

theorem Told.of_plain_ok {α : Type} {x : Told α} {v : α} (h : x.plain = .ok v) : x = .ok v := by
  cases x with
  | ok w => simp only [Told.plain_ok, Res.ok.injEq] at h; rw [h]
  | err e => cases h
  | panic => cases h

/-- The end of a list of tokens is the name of a function, which then is not followed by a parenthesis. -/
def EndsInFunction (l : List (Token N)) (f : Str) : Prop := ∃ k, l = k ++ [.function f]

/-- C118. Whatever comes before it, as long as it could be continued to something that converts: a word that is neither a number nor a
registered name, nor a comma or a bracket, is the one that the message names. The one exception is a function name just before it, which must be
followed by a parenthesis: then the message names the function. -/
theorem C118_unknown (D : Debugs N) (M : Inner N) (c : Ctx N) (l r r' rpn : List (Token N)) (w : Str)
    (hl : infixToRpn c (l ++ r') = .ok rpn) :
    ((∀ f, EndsInFunction l f → c.config.customFunctionCall = true) →
      Told.evalTokens D M c (l ++ .unknown w :: r) = .err (.new .invalidInput (str "Invalid token: Unknown(" ++ D.string w ++ str ")"))) ∧
    (∀ f, EndsInFunction l f → c.config.customFunctionCall = false →
      Told.evalTokens D M c (l ++ .unknown w :: r) =
        .err (.new .invalidInput (str "Function arguments of `" ++ f ++ str "` are not within a parentheses"))) := by
  -- the loop over `l`, with the tokens before it
  have key : ∀ (k l : List (Token N)) (st : SY N), (∀ g ∈ st.grp, g < k.length) →
      (∃ s, syLoop c (k ++ (l ++ r')) k.length (l ++ r') st = .ok s) →
      ((∀ f, EndsInFunction l f → c.config.customFunctionCall = true) →
        Told.syLoop D c (k ++ (l ++ .unknown w :: r)) k.length (l ++ .unknown w :: r) st =
          .err (.new .invalidInput (str "Invalid token: Unknown(" ++ D.string w ++ str ")"))) ∧
      (∀ f, EndsInFunction l f → c.config.customFunctionCall = false →
        Told.syLoop D c (k ++ (l ++ .unknown w :: r)) k.length (l ++ .unknown w :: r) st =
          .err (.new .invalidInput (str "Function arguments of `" ++ f ++ str "` are not within a parentheses"))) := by
    intro k l
    induction l generalizing k with
    | nil =>
      intro st _ _
      refine ⟨fun _ => rfl, fun f hf => ?_⟩
      obtain ⟨k, hk⟩ := hf
      simp at hk
    | cons t l ih =>
      intro st hg hs
      obtain ⟨s, hs⟩ := hs
      have hbefore : ∀ i < k.length, (k ++ (t :: l ++ r'))[i]? = (k ++ (t :: l ++ .unknown w :: r))[i]? := by
        intro i hi
        rw [List.getElem?_append_left hi, List.getElem?_append_left hi]
      have hnext : ((k ++ (t :: l ++ .unknown w :: r))[k.length + 1]?).any Token.isGclose = true →
          ((k ++ (t :: l ++ r'))[k.length + 1]?).any Token.isGclose = true := by
        have second : ∀ x : List (Token N), (k ++ (t :: l ++ x))[k.length + 1]? = (l ++ x)[0]? := by
          intro x
          rw [List.getElem?_append_right (Nat.le_add_right _ _)]
          have e : k.length + 1 - k.length = 1 := by omega
          rw [e]
          rfl
        rw [second, second]
        cases l with
        | nil => intro h; simp [Token.isGclose] at h
        | cons u l => exact id
      simp only [List.cons_append, syLoop, syStep] at hs
      cases hd : dispatch c (k ++ (t :: (l ++ r'))) k.length t (l ++ r').head? st with
      | err e => rw [hd] at hs; cases hs
      | panic => rw [hd] at hs; cases hs
      | ok st' =>
        rw [hd] at hs
        simp only [Res.bind_ok] at hs
        by_cases hlast : t.isFunction = true ∧ l = [] ∧ c.config.customFunctionCall = false
        · obtain ⟨hf, rfl, hc⟩ := hlast
          cases t <;> simp only [Token.isFunction, Bool.false_eq_true] at hf
          rename_i f
          constructor
          · intro h
            have := h f ⟨[], rfl⟩
            rw [hc] at this
            cases this
          · intro g hg _
            obtain ⟨k', hk'⟩ := hg
            have : k' = [] ∧ f = g := by
              cases k' with
              | nil => simpa using hk'
              | cons a k' => simp at hk'
            obtain ⟨rfl, rfl⟩ := this
            simp [Told.syLoop, Told.syStep, Told.dispatch, hc, Token.containsSymbol, Told.bind, quoted, str]
        · have hf : t.isFunction = true → c.config.customFunctionCall = true ∨ (l ++ r').head? = (l ++ .unknown w :: r).head? := by
            intro ht
            cases hc : c.config.customFunctionCall with
            | true => exact .inl rfl
            | false =>
              right
              cases l with
              | nil => exact absurd ⟨ht, rfl, hc⟩ hlast
              | cons u l => rfl
          have hd' := dispatch_other hbefore hnext hg hf hd
          have ht' := Told.of_plain_ok ((Told.dispatch_plain D c _ k.length t (l ++ .unknown w :: r).head? st).trans hd')
          have hgrp := dispatch_grp hg hd
          have hlen : (k ++ [t]).length = k.length + 1 := by simp
          have hends : ∀ f, EndsInFunction (t :: l) f → (∃ k', t :: l = [] ++ t :: k' ∧ EndsInFunction l f) ∨ (l = [] ∧ t = .function f) := by
            rintro f ⟨k', hk'⟩
            cases k' with
            | nil => right; simp at hk'; exact ⟨hk'.2, hk'.1⟩
            | cons a k' => left; simp at hk'; exact ⟨l, rfl, k', hk'.2⟩
          cases l with
          | nil =>
            refine ⟨fun _ => ?_, fun f hf' hc => ?_⟩
            · simp only [List.cons_append, List.nil_append, Told.syLoop, Told.syStep] at ht' ⊢
              rw [ht']
              rfl
            · rcases hends f hf' with ⟨k', _, k'', h⟩ | ⟨_, rfl⟩
              · simp at h
              · exact absurd ⟨rfl, rfl, hc⟩ hlast
          | cons u l =>
            have hI : implicitMulBlock c t (u :: l ++ r').head? st' = implicitMulBlock c t (u :: l ++ .unknown w :: r).head? st' := rfl
            have hgI : ∀ g ∈ (implicitMulBlock c t (u :: l ++ r').head? st').grp, g < (k ++ [t]).length := by
              rw [hlen]
              unfold implicitMulBlock
              split
              · exact hgrp
              · exact hgrp
            have hs' : ∃ s, syLoop c ((k ++ [t]) ++ (u :: l ++ r')) (k ++ [t]).length (u :: l ++ r')
                (implicitMulBlock c t (u :: l ++ r').head? st') = .ok s := by
              rw [hlen]
              refine ⟨s, ?_⟩
              simpa using hs
            have hr := ih (k ++ [t]) _ hgI hs'
            rw [hlen, hI] at hr
            have hstep : Told.syLoop D c (k ++ (t :: u :: l ++ .unknown w :: r)) k.length (t :: u :: l ++ .unknown w :: r) st =
                Told.syLoop D c ((k ++ [t]) ++ (u :: l ++ .unknown w :: r)) (k.length + 1) (u :: l ++ .unknown w :: r)
                  (implicitMulBlock c t (u :: l ++ .unknown w :: r).head? st') := by
              have e : (k ++ [t]) ++ (u :: l ++ .unknown w :: r) = k ++ (t :: u :: l ++ .unknown w :: r) := by simp
              rw [e]
              simp only [List.cons_append, Told.syLoop, Told.syStep] at ht' ⊢
              rw [ht']
              rfl
            rw [hstep]
            refine ⟨fun h => hr.1 fun f hf' => ?_, fun f hf' hc => hr.2 f ?_ hc⟩
            · obtain ⟨k', hk'⟩ := hf'
              exact h f ⟨t :: k', by rw [hk']; rfl⟩
            · rcases hends f hf' with ⟨_, _, h⟩ | ⟨h, _⟩
              · exact h
              · cases h
  have hs : ∃ s, syLoop c (l ++ r') 0 (l ++ r') SY.init = .ok s := by
    unfold infixToRpn at hl
    cases h : syLoop c (l ++ r') 0 (l ++ r') SY.init with
    | ok s => exact ⟨s, rfl⟩
    | err k => rw [h] at hl; cases hl
    | panic => rw [h] at hl; cases hl
  have := key [] l SY.init (by simp [SY.init]) (by simpa using hs)
  constructor
  · intro h
    have := this.1 h
    simp only [List.nil_append, List.length_nil] at this
    simp only [Told.evalTokens, Told.infixToRpn, this, Told.bind]
  · intro f hf hc
    have := this.2 f hf hc
    simp only [List.nil_append, List.length_nil] at this
    simp only [Told.evalTokens, Told.infixToRpn, this, Told.bind]

/-- C118, for texts: the first word that is unknown, if what is before it could be continued. -/
theorem C118_unknown_text (D : Debugs N) (M : Inner N) (parse : Str → Option N) (splitter : Str → List Str) (c : Ctx N) (s : Str)
    (l r r' rpn : List (Token N)) (w : Str) (ht : tokenize parse splitter c s = .ok (l ++ .unknown w :: r)) (hl : infixToRpn c (l ++ r') = .ok rpn)
    (hf : ∀ f, ¬ EndsInFunction l f) :
    Told.eval D M parse splitter c s = .err (.new .invalidInput (str "Invalid token: Unknown(" ++ D.string w ++ str ")")) := by
  have := Told.of_plain_ok ((Told.tokenize_plain D parse splitter c s).trans ht)
  unfold Told.eval
  rw [this]
  exact (C118_unknown D M c l r r' rpn w hl).1 fun f h => absurd h (hf f)

/-- In `sum(1, 2%) * (3 - foo bar` the message names `foo`: the text before it could go on with `4)`. -/
example : Demo.say (str "sum(1, 2%) * (3 - foo bar") = some (str "Invalid token: Unknown(\"foo\")") ∧
    ∃ l r r' rpn, tokenize Demo.parse (split defaultRules) (Demo.ctx false false) (str "sum(1, 2%) * (3 - foo bar") = .ok (l ++ .unknown (str "foo") :: r) ∧
      infixToRpn (Demo.ctx false false) (l ++ r') = .ok rpn ∧ ∀ f, ¬ EndsInFunction l f := by
  refine ⟨by decide +kernel, [.function (str "sum"), .gopen '(', .number 1, .comma, .number 2, .unary (str "%"), .gclose ')', .binary (str "*"),
    .gopen '(', .number 3, .binary (str "-")], [.unknown (str "bar")], [.number 4, .gclose ')'], [.number 1, .number 2, .unary (str "%"), .argCount 2, .function (str "sum"), .number 3, .number 4, .binary (str "-"), .binary (str "*")],
    by decide +kernel, by decide +kernel, ?_⟩
  rintro f ⟨k, hk⟩
  have := congrArg List.getLast? hk
  simp at this

end Prexel
