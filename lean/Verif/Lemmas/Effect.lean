import Verif.Spec.Tokens
import Verif.Model.Evaluator
/-!
# What one iteration of the shunting-yard loop does
-/

set_option linter.unusedVariables false
set_option linter.unusedSimpArgs false

namespace Prexel
variable {N : Type}

def NoOpen (l : List (Token N)) : Prop := ∀ t ∈ l, t.isGopen = false

theorem popForBinary_eff (ctx : Ctx N) (f : BinFn N) (ops out : List (Token N)) :
    ∃ popped, ops = popped ++ (popForBinary ctx f ops out).1 ∧ (popForBinary ctx f ops out).2 = out ++ popped ∧ NoOpen popped := by
  induction ops generalizing out with
  | nil => exact ⟨[], by simp [popForBinary, NoOpen]⟩
  | cons t ops ih =>
    unfold popForBinary
    split
    · exact ⟨[], by simp [NoOpen]⟩
    · rename_i s
      obtain ⟨p, h1, h2, h3⟩ := ih (out ++ [.function s])
      refine ⟨.function s :: p, ?_, ?_, ?_⟩
      · rw [List.cons_append, ← h1]
      · simp [h2]
      · intro t ht
        simp only [List.mem_cons] at ht
        rcases ht with rfl | ht
        · rfl
        · exact h3 t ht
    · rename_i s
      split
      · split
        · obtain ⟨p, h1, h2, h3⟩ := ih (out ++ [.binary s])
          refine ⟨.binary s :: p, ?_, ?_, ?_⟩
          · rw [List.cons_append, ← h1]
          · simp [h2]
          · intro t ht
            simp only [List.mem_cons] at ht
            rcases ht with rfl | ht
            · rfl
            · exact h3 t ht
        · exact ⟨[], by simp [NoOpen]⟩
      · exact ⟨[], by simp [NoOpen]⟩
    · exact ⟨[], by simp [NoOpen]⟩

theorem popToOpen_some {ops out : List (Token N)} {c : Char} {ops' out' : List (Token N)}
    (h : popToOpen ops out = some (c, ops', out')) :
    ∃ popped, ops = popped ++ .gopen c :: ops' ∧ out' = out ++ popped ∧ NoOpen popped := by
  induction ops generalizing out with
  | nil => simp [popToOpen] at h
  | cons t ops ih =>
    by_cases ht : t.isGopen = true
    · cases t <;> simp [Token.isGopen] at ht
      simp [popToOpen] at h
      obtain ⟨rfl, rfl, rfl⟩ := h
      exact ⟨[], by simp [NoOpen]⟩
    · have h' : popToOpen ops (out ++ [t]) = some (c, ops', out') := by
        rw [← h]; cases t <;> simp_all [popToOpen, Token.isGopen]
      obtain ⟨p, h1, h2, h3⟩ := ih h'
      refine ⟨t :: p, by simp [h1], by simp [h2], ?_⟩
      intro x hx
      simp only [List.mem_cons] at hx
      rcases hx with rfl | hx
      · simpa using ht
      · exact h3 x hx

theorem popToOpen_append {popped : List (Token N)} (hp : NoOpen popped) (c : Char) (ops out : List (Token N)) :
    popToOpen (popped ++ .gopen c :: ops) out = some (c, ops, out ++ popped) := by
  induction popped generalizing out with
  | nil => simp [popToOpen]
  | cons t p ih =>
    have ht : t.isGopen = false := hp t (by simp)
    have := ih (fun x hx => hp x (by simp [hx])) (out ++ [t])
    cases t <;> simp_all [popToOpen, Token.isGopen]

theorem popToOpen_none {ops out : List (Token N)} (h : popToOpen ops out = none) : NoOpen ops := by
  induction ops generalizing out with
  | nil => simp [NoOpen]
  | cons t ops ih =>
    have ht : t.isGopen = false := by
      cases t <;> simp_all [popToOpen, Token.isGopen]
    have h' : popToOpen ops (out ++ [t]) = none := by
      rw [← h]; cases t <;> simp_all [popToOpen, Token.isGopen]
    intro x hx
    simp only [List.mem_cons] at hx
    rcases hx with rfl | hx
    · exact ht
    · exact ih h' x hx

theorem popUntilOpen_eq (ops out : List (Token N)) :
    popUntilOpen ops out = (popToOpen ops out).map (fun r => (.gopen r.1 :: r.2.1, r.2.2)) := by
  induction ops generalizing out with
  | nil => rfl
  | cons t ops ih => cases t <;> simp [popUntilOpen, popToOpen, ih]

/-- The effect of the `match token` part of one iteration. -/
inductive Eff (ctx : Ctx N) (tokens : List (Token N)) (pos : Nat) (next : Option (Token N)) : Token N → SY N → SY N → Prop
  | atom (t : Token N) (st : SY N) (ht : t.isAtom = true)
      (hu : ∀ u ops, st.ops = .unary u :: ops → ctx.getUnary u = none) :
      Eff ctx tokens pos next t st { st with output := st.output ++ [t] }
  | atomU (t : Token N) (st : SY N) (ht : t.isAtom = true) (u : Str) (f : UnFn N) (hf : ctx.getUnary u = some f)
      (ops : List (Token N)) (hops : st.ops = .unary u :: ops) :
      Eff ctx tokens pos next t st { st with output := st.output ++ [t, .unary u], ops := ops }
  | bin (o : Str) (st : SY N) (f : BinFn N) (hf : ctx.getBinary o = some f) (popped kept : List (Token N))
      (hops : st.ops = popped ++ kept) (hp : NoOpen popped) :
      Eff ctx tokens pos next (.binary o) st { st with output := st.output ++ popped, ops := .binary o :: kept }
  | pre (u : Str) (st : SY N) (f : UnFn N) (hf : ctx.getUnary u = some f) (hn : f.notation_ = .pre) :
      Eff ctx tokens pos next (.unary u) st { st with ops := .unary u :: st.ops }
  | post (u : Str) (st : SY N) (f : UnFn N) (hf : ctx.getUnary u = some f) (hn : f.notation_ = .post)
      (ho : st.output ≠ []) :
      Eff ctx tokens pos next (.unary u) st { st with output := st.output ++ [.unary u] }
  | function (f : Str) (st : SY N)
      (hn : ctx.config.customFunctionCall = true ∨ ∃ t, next = some t ∧ t.containsSymbol '(' = true) :
      Eff ctx tokens pos next (.function f) st { st with ops := .function f :: st.ops, argc := 0 :: st.argc }
  | gopen (c : Char) (st : SY N) :
      Eff ctx tokens pos next (.gopen c) st
        { st with ops := .gopen c :: st.ops, grp := if st.argc.isEmpty then st.grp else pos :: st.grp }
  | group (c c' : Char) (st : SY N) (popped kept : List (Token N)) (g : Grouping) (hg : Grouping.new c' = some g) (hc : g.cls = c)
      (hops : st.ops = popped ++ .gopen c' :: kept) (hp : NoOpen popped)
      (hk : st.argc = [] ∨ ∀ f k, kept ≠ .function f :: k) (he : emptyGroup ctx tokens pos c = some false) :
      Eff ctx tokens pos next (.gclose c) st
        { st with output := st.output ++ popped, ops := kept, grp := if st.argc.isEmpty then st.grp else st.grp.tail }
  | call (c c' : Char) (st : SY N) (popped kept : List (Token N)) (g : Grouping) (hg : Grouping.new c' = some g) (hc : g.cls = c)
      (f : Str) (n : Nat) (ac : List Nat)
      (hops : st.ops = popped ++ .gopen c' :: .function f :: kept) (hp : NoOpen popped) (hac : st.argc = n :: ac)
      (he : emptyGroup ctx tokens pos c = some false) :
      Eff ctx tokens pos next (.gclose c) st
        { output := st.output ++ popped ++ [.argCount (n + 1), .function f], ops := kept, argc := ac,
          grp := if ac.isEmpty then st.grp else st.grp.tail }
  | comma (st : SY N) (c : Char) (popped kept : List (Token N)) (n : Nat) (ac : List Nat)
      (hops : st.ops = popped ++ .gopen c :: kept) (hp : NoOpen popped) (hac : st.argc = n :: ac)
      (hcheck : checkCommaPosition tokens st.grp pos = .ok ()) :
      Eff ctx tokens pos next .comma st
        { st with output := st.output ++ popped, ops := .gopen c :: kept, argc := (n + 1) :: ac }

theorem dispatch_eff {ctx : Ctx N} {tokens : List (Token N)} {pos : Nat} {t : Token N} {next : Option (Token N)} {st st' : SY N}
    (h : dispatch ctx tokens pos t next st = .ok st') : Eff ctx tokens pos next t st st' := by
  have hatom : ∀ t : Token N, t.isAtom = true → pushNumber ctx st t = st' → Eff ctx tokens pos next t st st' := by
    intro t ht h
    unfold pushNumber at h
    split at h
    · rename_i u ops hops
      split at h
      · rename_i hs
        obtain ⟨f, hf⟩ := Option.isSome_iff_exists.1 hs
        subst h
        exact .atomU t st ht u f hf ops hops
      · rename_i hs
        subst h
        refine .atom t st ht ?_
        intro u' ops' h'
        rw [hops] at h'
        cases h'
        simpa using hs
    · rename_i hne
      subst h
      refine .atom t st ht ?_
      intro u ops h'
      exact absurd h' (hne u ops)
  cases t with
  | number n => simp only [dispatch, Res.ok.injEq] at h; exact hatom _ rfl h
  | variable_ n => simp only [dispatch, Res.ok.injEq] at h; exact hatom _ rfl h
  | constant n => simp only [dispatch, Res.ok.injEq] at h; exact hatom _ rfl h
  | function f =>
    simp only [dispatch] at h
    split at h
    · simp at h
    · rename_i hc
      simp only [Res.ok.injEq] at h
      subst h
      refine .function f st ?_
      simp only [Bool.and_eq_true, Bool.not_eq_true', not_and, Bool.not_eq_false] at hc
      by_cases hcc : ctx.config.customFunctionCall = true
      · exact .inl hcc
      · right
        have := hc (by simpa using hcc)
        cases next with
        | none => simp at this
        | some t => exact ⟨t, rfl, by simpa using this⟩
  | binary o =>
    simp only [dispatch, pushBinaryFunction] at h
    split at h
    · simp at h
    · rename_i f hf
      simp only [Res.ok.injEq] at h
      obtain ⟨p, h1, h2, h3⟩ := popForBinary_eff ctx f st.ops st.output
      rw [h2] at h
      subst h
      exact .bin o st f hf p _ h1 h3
  | unary u =>
    simp only [dispatch, pushUnaryFunction] at h
    split at h
    · rename_i f hf
      split at h
      · rename_i hn
        simp only [Res.ok.injEq] at h
        subst h
        exact .pre u st f hf hn
      · rename_i hn
        split at h
        · simp at h
        · rename_i ho
          simp only [Res.ok.injEq] at h
          subst h
          exact .post u st f hf hn (by simpa using ho)
    · simp at h
  | argCount n => simp [dispatch] at h
  | unknown n => simp [dispatch] at h
  | gopen c =>
    simp only [dispatch, Res.ok.injEq] at h
    subst h
    exact .gopen c st
  | gclose c =>
    simp only [dispatch] at h
    cases hp : pushGroupingClose ctx c st with
    | err k => simp [hp] at h
    | panic => simp [hp] at h
    | ok st1 =>
      rw [hp, Res.bind_ok] at h
      split at h
      · simp at h
      · simp at h
      · rename_i he
        simp only [Res.ok.injEq] at h
        unfold pushGroupingClose at hp
        split at hp
        · simp at hp
        · rename_i c' ops' out' hpop
          obtain ⟨popped, h1, h2, h3⟩ := popToOpen_some hpop
          cases hg : Grouping.new c' with
          | none => simp [Config.getGroupSymbol, hg] at hp
          | some g =>
            simp only [Config.getGroupSymbol, hg, Option.map_some, Grouping.symbols] at hp
            split at hp
            · rename_i hcls
              split at hp
              · rename_i n ac f ops'' hac
                simp only [Res.ok.injEq] at hp
                subst hp h h2
                exact .call c c' st popped _ g hg hcls f n ac h1 h3 hac he
              · rename_i hne
                simp only [Res.ok.injEq] at hp
                subst hp h h2
                refine .group c c' st popped _ g hg hcls h1 h3 ?_ he
                cases hac : st.argc with
                | nil => exact .inl rfl
                | cons n ac =>
                  right
                  intro f k hk
                  exact hne n ac f k hac hk
            · simp at hp
  | comma =>
    simp only [dispatch] at h
    cases hc : checkCommaPosition tokens st.grp pos with
    | err k => simp [hc] at h
    | panic => simp [hc] at h
    | ok u =>
      rw [hc, Res.bind_ok] at h
      unfold pushComma at h
      split at h
      · simp at h
      · rename_i n ac hac
        rw [popUntilOpen_eq] at h
        cases hpop : popToOpen st.ops st.output with
        | none => simp [hpop] at h
        | some r =>
          obtain ⟨c, ops', out'⟩ := r
          obtain ⟨popped, h1, h2, h3⟩ := popToOpen_some hpop
          simp only [hpop, Option.map_some, Res.ok.injEq] at h
          subst h h2
          exact .comma st c popped _ n ac h1 h3 hac hc

/-- One iteration: an effect, then possibly a `*` on top of the operators. -/
theorem syStep_eff {ctx : Ctx N} {tokens : List (Token N)} {pos : Nat} {t : Token N} {next : Option (Token N)} {st st' : SY N}
    (h : syStep ctx tokens pos t next st = .ok st') :
    ∃ st1, Eff ctx tokens pos next t st st1 ∧
      (st' = st1 ∨ (ctx.config.implicitMul = true ∧ (t.isNumber = true ∨ t.isGclose = true) ∧ (∃ t', next = some t') ∧
        st' = { st1 with ops := .binary ['*'] :: st1.ops })) := by
  unfold syStep at h
  cases hd : dispatch ctx tokens pos t next st with
  | err k => simp [hd] at h
  | panic => simp [hd] at h
  | ok st1 =>
    refine ⟨st1, dispatch_eff hd, ?_⟩
    simp only [hd, Res.bind_ok, Res.ok.injEq] at h
    unfold implicitMulBlock at h
    split at h
    · rename_i hi
      right
      simp only [implicitMulHere, Bool.and_eq_true] at hi
      refine ⟨hi.1, ?_, ?_, h.symm⟩
      · cases t <;> simp_all [Token.isNumber, Token.isGclose]
      · cases next with
        | none => cases t <;> simp at hi
        | some t' => exact ⟨t', rfl⟩
    · exact .inl h.symm

/-- Induction over the loop for accepting runs. -/
theorem syLoop_inv (ctx : Ctx N) (tokens : List (Token N)) (I : Nat → SY N → Prop)
    (hstep : ∀ pos t rest st st', tokens.drop pos = t :: rest → I pos st → syStep ctx tokens pos t rest.head? st = .ok st' →
      I (pos + 1) st')
    (pos : Nat) (rest : List (Token N)) (hrest : tokens.drop pos = rest) (st st' : SY N) (h0 : I pos st)
    (h : syLoop ctx tokens pos rest st = .ok st') : I (pos + rest.length) st' := by
  induction rest generalizing pos st with
  | nil => simp only [syLoop, Res.ok.injEq] at h; subst h; simpa using h0
  | cons t rest ih =>
    simp only [syLoop] at h
    cases hs : syStep ctx tokens pos t rest.head? st with
    | err k => simp [hs] at h
    | panic => simp [hs] at h
    | ok st1 =>
      rw [hs, Res.bind_ok] at h
      have := ih (pos + 1) (by rw [← List.drop_drop, hrest]; simp) st1 (hstep pos t rest st st1 hrest h0 hs) h
      rw [List.length_cons]
      rw [show pos + (rest.length + 1) = pos + 1 + rest.length by omega]
      exact this

theorem flush_ok {ops out out' : List (Token N)} (h : flush ops out = .ok out') : out' = out ++ ops := by
  induction ops generalizing out with
  | nil => simp [flush] at h; simp [h]
  | cons t ops ih =>
    simp only [flush] at h
    split at h
    · simp at h
    · rw [ih h]; simp

theorem infixToRpn_ok {ctx : Ctx N} {tokens rpn : List (Token N)} (h : infixToRpn ctx tokens = .ok rpn) :
    ∃ st, syLoop ctx tokens 0 tokens SY.init = .ok st ∧ rpn = st.output ++ st.ops := by
  unfold infixToRpn at h
  cases hl : syLoop ctx tokens 0 tokens SY.init with
  | err k => simp [hl] at h
  | panic => simp [hl] at h
  | ok st => rw [hl, Res.bind_ok] at h; exact ⟨st, rfl, flush_ok h⟩

theorem evalTokens_ok {ctx : Ctx N} {tokens : List (Token N)} {v : N} (h : evalTokens ctx tokens = .ok v) :
    ∃ st, syLoop ctx tokens 0 tokens SY.init = .ok st ∧ rpnLoop ctx (st.output ++ st.ops) [] none = .ok [v] := by
  unfold evalTokens at h
  cases hi : infixToRpn ctx tokens with
  | err k => simp [hi] at h
  | panic => simp [hi] at h
  | ok rpn =>
    obtain ⟨st, hst, rfl⟩ := infixToRpn_ok hi
    refine ⟨st, hst, ?_⟩
    rw [hi, Res.bind_ok] at h
    cases hr : rpnLoop ctx (st.output ++ st.ops) [] none with
    | err k => simp [hr] at h
    | panic => simp [hr] at h
    | ok vs =>
      rw [hr, Res.bind_ok] at h
      unfold rpnResult at h
      split at h
      · simp only [Res.ok.injEq] at h; rw [h]
      · simp at h

end Prexel
