import Verif.Lemmas.Universal2
/-!
# Wrapping an accepted token list in brackets
-/

set_option linter.unusedVariables false
set_option linter.unusedSimpArgs false

namespace Prexel
variable {N : Type}

/-- The state of the wrapped run. -/
def SY.wrap (o : Char) (st : SY N) : SY N :=
  { st with ops := st.ops ++ [.gopen o], grp := st.grp.map (· + 1) }

theorem popForBinary_wrap (ctx : Ctx N) (f : BinFn N) (o : Char) (ops out : List (Token N)) :
    popForBinary ctx f (ops ++ [.gopen o]) out =
      ((popForBinary ctx f ops out).1 ++ [.gopen o], (popForBinary ctx f ops out).2) := by
  induction ops generalizing out with
  | nil => simp [popForBinary]
  | cons t ops ih =>
    cases t <;> simp only [List.cons_append, popForBinary, ih]
    split
    · split <;> simp
    · simp

theorem checkComma_wrap {tokens : List (Token N)} {grp : List Nat} {pos : Nat} (o : Char) (c : Char)
    (h : checkCommaPosition tokens grp pos = .ok ()) (hlast : pos + 1 < tokens.length) :
    checkCommaPosition (.gopen o :: (tokens ++ [.gclose c])) (grp.map (· + 1)) (pos + 1) = .ok () := by
  unfold checkCommaPosition at h ⊢
  split at h
  · simp at h
  · rename_i h0
    obtain ⟨p, rfl⟩ : ∃ p, pos = p + 1 := ⟨pos - 1, by omega⟩
    simp only [Nat.add_one_ne_zero, if_false, Nat.add_sub_cancel] at h ⊢
    have e1 : (Token.gopen o :: (tokens ++ [Token.gclose c]))[p + 1]? = tokens[p]? := by
      rw [List.getElem?_cons_succ, List.getElem?_append_left (by omega)]
    have e2 : (Token.gopen o :: (tokens ++ [Token.gclose c]))[p + 1 + 1 + 1]? = tokens[p + 1 + 1]? := by
      rw [List.getElem?_cons_succ, List.getElem?_append_left (by omega)]
    split at h
    · simp at h
    · split at h
      · simp at h
      · rename_i h1 h2
        simp only [e1, e2, h1, h2, if_false]
        cases grp with
        | nil => simp
        | cons g grp =>
          cases g with
          | zero => simp at h
          | succ g =>
            simp only [List.map_cons, List.getElem?_cons_succ] at h ⊢
            split at h
            · rename_i hg
              have hl : g < tokens.length := by
                rcases Nat.lt_or_ge g tokens.length with h | h
                · exact h
                · rw [List.getElem?_eq_none h] at hg; simp at hg
              have e3 : (Token.gopen o :: (tokens ++ [Token.gclose c]))[g + 1]? = tokens[g]? := by
                rw [List.getElem?_cons_succ, List.getElem?_append_left hl]
              simp only [List.getElem?_cons_succ] at e3
              simp [e3, hg]
            · simp at h

theorem emptyGroup_wrap {ctx : Ctx N} {tokens : List (Token N)} {pos : Nat} {c : Char} (o c' : Char)
    (h : emptyGroup ctx tokens pos c = some false) (hpos : pos < tokens.length) (ht : tokens[pos]? = some (.gclose c))
    (hstart : ∀ a b rest, tokens = .gopen a :: .gclose b :: rest → ctx.config.getGroupOpenFor b ≠ some a) :
    emptyGroup ctx (.gopen o :: (tokens ++ [.gclose c'])) (pos + 1) c = some false := by
  unfold emptyGroup at h ⊢
  match pos, h, hpos, ht with
  | 0, h, hpos, ht => simp
  | 1, h, hpos, ht =>
    cases tokens with
    | nil => simp at hpos
    | cons a rest =>
      cases rest with
      | nil => simp at hpos
      | cons b rest =>
        simp at ht
        subst ht
        cases a with
        | gopen a => simp [hstart a c rest rfl]
        | _ => simp
  | p + 2, h, hpos, ht =>
    have h1 : p + 2 > 1 := by omega
    have h2 : p + 2 + 1 > 1 := by omega
    rw [if_pos h1] at h
    rw [if_pos h2]
    have e1 : p + 2 - 1 = p + 1 := by omega
    have e2 : p + 2 - 2 = p := by omega
    have e3 : p + 2 + 1 - 1 = p + 2 := by omega
    have e4 : p + 2 + 1 - 2 = p + 1 := by omega
    rw [e1, e2] at h
    rw [e3, e4]
    simp only [List.getElem?_cons_succ]
    rw [List.getElem?_append_left (by omega), List.getElem?_append_left (by omega)]
    exact h

theorem dispatch_wrap {ctx : Ctx N} {tokens : List (Token N)} {pos : Nat} {t : Token N} {next next' : Option (Token N)} {st st' : SY N}
    (o c : Char) (ht : tokens[pos]? = some t) (hn : next = next' ∨ next = none)
    (hlast : t = .comma → pos + 1 < tokens.length)
    (hstart : ∀ a b rest, tokens = .gopen a :: .gclose b :: rest → ctx.config.getGroupOpenFor b ≠ some a)
    (h : dispatch ctx tokens pos t next st = .ok st') :
    dispatch ctx (.gopen o :: (tokens ++ [.gclose c])) (pos + 1) t next' (st.wrap o) = .ok (st'.wrap o) := by
  have hpos : pos < tokens.length := by
    rcases Nat.lt_or_ge pos tokens.length with h | h
    · exact h
    · rw [List.getElem?_eq_none h] at ht; cases ht
  have hatom : ∀ t : Token N, pushNumber ctx (st.wrap o) t = (pushNumber ctx st t).wrap o := by
    intro t
    obtain ⟨out, ops, ac, grp⟩ := st
    cases ops with
    | nil => simp [pushNumber, SY.wrap]
    | cons x ops =>
      cases x <;> simp [pushNumber, SY.wrap]
      split <;> simp
  cases t with
  | number n => simp only [dispatch, Res.ok.injEq] at h ⊢; rw [hatom, h]
  | variable_ n => simp only [dispatch, Res.ok.injEq] at h ⊢; rw [hatom, h]
  | constant n => simp only [dispatch, Res.ok.injEq] at h ⊢; rw [hatom, h]
  | function f =>
    simp only [dispatch] at h ⊢
    split at h
    · simp at h
    · rename_i hc
      have hc' : ¬ ((!ctx.config.customFunctionCall && !Option.any (fun t => t.containsSymbol '(') next') = true) := by
        rcases hn with rfl | rfl
        · exact hc
        · simp at hc; simp [hc]
      rw [if_neg hc']
      simp only [Res.ok.injEq] at h
      subst h
      simp [SY.wrap]
  | binary b =>
    simp only [dispatch, pushBinaryFunction] at h ⊢
    split at h
    · simp at h
    · rename_i f hf
      simp only [Res.ok.injEq] at h
      subst h
      simp [SY.wrap, popForBinary_wrap]
  | unary u =>
    simp only [dispatch, pushUnaryFunction] at h ⊢
    split at h
    · rename_i f hf
      split at h
      · simp only [Res.ok.injEq] at h; subst h; simp [SY.wrap]
      · split at h
        · simp at h
        · rename_i ho
          simp only [Res.ok.injEq] at h
          subst h
          simp [SY.wrap, ho]
    · simp at h
  | gopen a =>
    simp only [dispatch, Res.ok.injEq] at h ⊢
    subst h
    simp only [SY.wrap, SY.mk.injEq, List.cons_append, true_and]
    split <;> simp_all
  | gclose a =>
    have hEff := dispatch_eff h
    have hgo : ∀ popped kept : List (Token N), ∀ c' , st.ops = popped ++ .gopen c' :: kept → NoOpen popped →
        popToOpen (st.wrap o).ops (st.wrap o).output = some (c', kept ++ [.gopen o], st.output ++ popped) := by
      intro popped kept c' hops hp
      simp only [SY.wrap, hops, List.append_assoc, List.cons_append]
      exact popToOpen_append hp _ _ _
    cases hEff with
    | group _ c' _ popped kept g hg hc hops hp hk he =>
      simp only [dispatch, pushGroupingClose, hgo popped kept c' hops hp, Config.getGroupSymbol, hg, Option.map_some,
        Grouping.symbols, hc, if_true]
      have hmatch : ∀ f k, ∀ n ac, st.argc = n :: ac → kept ++ [.gopen o] ≠ .function f :: k := by
        intro f k n ac hac
        rcases hk with hk | hk
        · rw [hk] at hac; cases hac
        · cases kept with
          | nil => simp
          | cons x kept =>
            intro hx
            simp only [List.cons_append, List.cons.injEq] at hx
            exact hk f kept (by rw [hx.1])
      split
      · rename_i n ac f k h1 h2
        exact absurd h2 (hmatch f k n ac (by simpa [SY.wrap] using h1))
      rw [Res.bind_ok, emptyGroup_wrap o c he hpos ht hstart]
      simp only [SY.wrap, Res.ok.injEq, SY.mk.injEq, true_and]
      split <;> simp_all
    | call _ c' _ popped kept g hg hc f n ac hops hp hac he =>
      simp only [dispatch, pushGroupingClose, hgo popped (.function f :: kept) c' hops hp, Config.getGroupSymbol, hg,
        Option.map_some, Grouping.symbols, hc, if_true]
      have e1 : (st.wrap o).argc = n :: ac := by simp [SY.wrap, hac]
      rw [e1]
      simp only [List.cons_append, Res.bind_ok]
      rw [emptyGroup_wrap o c he hpos ht hstart]
      simp only [SY.wrap, Res.ok.injEq, SY.mk.injEq, true_and]
      split <;> simp_all
    | atom => simp_all [Token.isAtom]
    | atomU => simp_all [Token.isAtom]
  | comma =>
    have hEff := dispatch_eff h
    cases hEff with
    | comma _ c' popped kept n ac hops hp hac hcheck =>
      simp only [dispatch]
      have := checkComma_wrap o c hcheck (hlast rfl)
      simp only [SY.wrap] at this ⊢
      rw [this]
      simp only [Res.bind_ok, pushComma, hac, popUntilOpen_eq, hops, List.append_assoc, List.cons_append]
      rw [popToOpen_append hp]
      simp
    | atom => simp_all [Token.isAtom]
    | atomU => simp_all [Token.isAtom]
  | argCount n => simp [dispatch] at h
  | unknown n => simp [dispatch] at h

theorem implicitMulHere_none (ctx : Ctx N) (t : Token N) : implicitMulHere ctx t none = false := by
  cases t <;> simp [implicitMulHere]

theorem implicitMulHere_gclose (ctx : Ctx N) (t : Token N) (c : Char) : implicitMulHere ctx t (some (.gclose c)) = false := by
  cases t <;> simp [implicitMulHere]

theorem implicitMulHere_gopen (ctx : Ctx N) (c : Char) (next : Option (Token N)) :
    implicitMulHere ctx (.gopen c) next = false := by
  cases next <;> simp [implicitMulHere]

theorem syLoop_wrap {ctx : Ctx N} {tokens : List (Token N)} (o c : Char)
    (hlast : ∀ l, tokens ≠ l ++ [.comma])
    (hstart : ∀ a b rest, tokens = .gopen a :: .gclose b :: rest → ctx.config.getGroupOpenFor b ≠ some a)
    (rest : List (Token N)) (pos : Nat) (hpos : pos ≤ tokens.length) (hrest : tokens.drop pos = rest) (st st' : SY N)
    (h : syLoop ctx tokens pos rest st = .ok st') :
    syLoop ctx (.gopen o :: (tokens ++ [.gclose c])) (pos + 1) (rest ++ [.gclose c]) (st.wrap o) =
      syLoop ctx (.gopen o :: (tokens ++ [.gclose c])) (tokens.length + 1) [.gclose c] (st'.wrap o) := by
  induction rest generalizing pos st with
  | nil =>
    simp only [syLoop, Res.ok.injEq] at h
    subst h
    have hp : tokens.length ≤ pos := by simpa using hrest
    obtain rfl : pos = tokens.length := by omega
    rfl
  | cons t rest ih =>
    simp only [syLoop] at h
    have ht := drop_getElem? hrest
    have hlt := drop_lt hrest
    have hdrop : tokens.drop (pos + 1) = rest := by rw [← List.drop_drop, hrest]; simp
    cases hs : syStep ctx tokens pos t rest.head? st with
    | err k => simp [hs] at h
    | panic => simp [hs] at h
    | ok st1 =>
      rw [hs, Res.bind_ok] at h
      have ih := ih (pos + 1) hlt hdrop st1 h
      rw [← ih]
      simp only [List.cons_append, syLoop]
      have key : syStep ctx (.gopen o :: (tokens ++ [.gclose c])) (pos + 1) t (rest ++ [Token.gclose c]).head? (st.wrap o) =
          .ok (st1.wrap o) := by
        unfold syStep at hs ⊢
        cases hd : dispatch ctx tokens pos t rest.head? st with
        | err k => simp [hd] at hs
        | panic => simp [hd] at hs
        | ok s =>
          rw [hd, Res.bind_ok] at hs
          have hcomma : t = .comma → pos + 1 < tokens.length := by
            rintro rfl
            rcases Nat.lt_or_ge (pos + 1) tokens.length with h | h
            · exact h
            · exfalso
              have : rest = [] := by rw [← hdrop]; simpa using h
              subst this
              apply hlast (tokens.take pos)
              rw [← hrest]; simp
          have hnext : rest.head? = (rest ++ [Token.gclose c]).head? ∨ rest.head? = none := by cases rest <;> simp
          have hdw := dispatch_wrap o c ht hnext hcomma hstart hd
          rw [hdw, Res.bind_ok]
          simp only [Res.ok.injEq] at hs ⊢
          subst hs
          unfold implicitMulBlock
          cases rest with
          | nil => simp [implicitMulHere_none, implicitMulHere_gclose]
          | cons x rest =>
            simp only [List.head?_cons, List.cons_append]
            by_cases hm : implicitMulHere ctx t (some x) = true <;> simp [hm, SY.wrap]
      rw [key, Res.bind_ok]

/-- An accepted list does not end with a comma or an opening symbol. -/
theorem last_token {ctx : Ctx N} {tokens : List (Token N)} {v : N} (h : evalTokens ctx tokens = .ok v) :
    ∀ l t, tokens = l ++ [t] → t ≠ .comma ∧ t.isGopen = false := by
  obtain ⟨st, h1, h2⟩ := evalTokens_ok h
  have hnoopen : NoOpen st.ops := by
    intro t ht
    have := rpnLoop_inRpn h2 t (by simp [ht])
    cases t <;> simp_all [Token.inRpn, Token.isGopen]
  intro l t hl
  have hdrop : tokens.drop l.length = [t] := by rw [hl]; simp
  suffices ¬ (t = .comma ∨ t.isGopen = true) by simpa using this
  intro hbad
  have key := syLoop_inv ctx tokens (fun pos st => pos = l.length + 1 → ∃ c k, st.ops = .gopen c :: k) ?_ 0 tokens (by simp) SY.init st
    (by omega) h1 (by rw [hl]; simp)
  · obtain ⟨c, k, hk⟩ := key
    have := hnoopen (.gopen c) (by simp [hk])
    simp [Token.isGopen] at this
  · intro pos t rest s s' hd _ hs hp
    obtain rfl : pos = l.length := by omega
    rw [hdrop] at hd
    cases hd
    obtain ⟨s1, he, h'⟩ := syStep_eff hs
    rcases h' with rfl | ⟨_, _, ⟨x, hx⟩, _⟩
    · cases he with
      | comma _ c' popped kept n ac hops hp hac hcheck => exact ⟨_, _, rfl⟩
      | gopen _ _ => exact ⟨_, _, rfl⟩
      | atom _ _ h => exact absurd hbad (by cases t <;> simp_all [Token.isAtom, Token.isGopen])
      | atomU _ _ h => exact absurd hbad (by cases t <;> simp_all [Token.isAtom, Token.isGopen])
      | _ => simp [Token.isGopen] at hbad
    · simp at hx

theorem no_trailing_comma {ctx : Ctx N} {tokens : List (Token N)} {v : N} (h : evalTokens ctx tokens = .ok v) (l : List (Token N)) :
    tokens ≠ l ++ [.comma] := fun hl => (last_token h l _ hl).1 rfl

/-- The list ends in a token the loop accepted with no bracket left open. -/
theorem infixToRpn_wrap {ctx : Ctx N} {tokens : List (Token N)} (g : Grouping) {v : N}
    (hstart : ∀ a b rest, tokens = .gopen a :: .gclose b :: rest → ctx.config.getGroupOpenFor b ≠ some a)
    (h : evalTokens ctx tokens = .ok v) :
    infixToRpn ctx (.gopen g.opn :: (tokens ++ [.gclose g.cls])) = infixToRpn ctx tokens := by
  obtain ⟨st, h1, h2⟩ := evalTokens_ok h
  have hnoopen : NoOpen st.ops := by
    intro t ht
    have := rpnLoop_inRpn h2 t (by simp [ht])
    cases t <;> simp_all [Token.inRpn, Token.isGopen]
  have hbal := evalTokens_balanced h
  have hlastc := last_token h
  have hne : tokens ≠ [] := by
    rintro rfl
    simp [evalTokens, infixToRpn, syLoop, SY.init, flush, rpnLoop, rpnResult] at h
  obtain ⟨l, t, hl⟩ : ∃ l t, tokens = l ++ [t] := ⟨_, _, (List.dropLast_concat_getLast hne).symm⟩
  have hlen : tokens.length = l.length + 1 := by rw [hl]; simp
  have e := syLoop_wrap g.opn g.cls (fun l h => (hlastc l _ h).1 rfl) hstart tokens 0 (by omega) (by simp) SY.init st h1
  have hg : Grouping.new g.opn = some g := by cases g <;> decide
  have hclose : syLoop ctx (.gopen g.opn :: (tokens ++ [.gclose g.cls])) (tokens.length + 1) [.gclose g.cls] (st.wrap g.opn) =
      .ok ⟨st.output ++ st.ops, [], st.argc, if st.argc.isEmpty then st.grp.map (· + 1) else (st.grp.map (· + 1)).tail⟩ := by
    have he : emptyGroup ctx (.gopen g.opn :: (tokens ++ [.gclose g.cls])) (tokens.length + 1) g.cls = some false := by
      unfold emptyGroup
      rw [if_pos (by omega)]
      have : (Token.gopen g.opn :: (tokens ++ [Token.gclose g.cls]))[tokens.length + 1 - 1]? = some t := by
        rw [hlen, hl]; simp
      rw [this]
      have := (hlastc l t hl).2
      cases t <;> simp_all [Token.isGopen]
    have hp : popToOpen (st.wrap g.opn).ops (st.wrap g.opn).output = some (g.opn, [], st.output ++ st.ops) := by
      simp only [SY.wrap]
      exact popToOpen_append hnoopen _ _ _
    simp only [syLoop, syStep, dispatch, pushGroupingClose, hp, Config.getGroupSymbol, hg, Option.map_some, Grouping.symbols,
      if_true, Res.bind_ok, he, List.head?_nil, implicitMulBlock, implicitMulHere_none, Bool.false_eq_true, if_false]
    simp [SY.wrap]
  have hfirst : syLoop ctx (.gopen g.opn :: (tokens ++ [.gclose g.cls])) 0 (.gopen g.opn :: (tokens ++ [.gclose g.cls])) SY.init =
      syLoop ctx (.gopen g.opn :: (tokens ++ [.gclose g.cls])) 1 (tokens ++ [.gclose g.cls]) (SY.init.wrap g.opn) := by
    rw [syLoop]
    simp [syStep, dispatch, implicitMulBlock, implicitMulHere_gopen, SY.init, SY.wrap]
  unfold infixToRpn
  rw [hfirst, e, hclose, h1]
  simp only [Res.bind_ok, flush]
  clear e hclose hfirst h1 hlastc
  have hc : ∀ t ∈ st.ops, t.isGclose = false := by
    intro t ht
    have := rpnLoop_inRpn h2 t (by simp [ht])
    cases t <;> simp_all [Token.inRpn, Token.isGclose]
  generalize st.output = out at *
  generalize st.ops = ops at *
  clear h2 hnoopen
  induction ops generalizing out with
  | nil => simp [flush]
  | cons x ops ih =>
    simp only [flush, hc x (by simp)]
    have := ih (out ++ [x]) (fun t ht => hc t (by simp [ht]))
    simpa using this

end Prexel
