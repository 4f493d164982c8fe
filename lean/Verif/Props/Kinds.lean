import Verif.Spec.Kinds
import Verif.Props.Tokenizer
/-!
# C123: kinds of brackets
-/

namespace Prexel
variable {N : Type}

def SY.round (st : SY N) : SY N := { st with output := st.output.map Token.round, ops := st.ops.map Token.round }

theorem Res.map_err {α β : Type} (f : α → β) (k : ErrorKind) : (Res.err k).map f = .err k := rfl

theorem isGopen_round (t : Token N) : t.round.isGopen = t.isGopen := by cases t <;> rfl
theorem isGclose_round (t : Token N) : t.round.isGclose = t.isGclose := by cases t <;> rfl
theorem isFunction_round (t : Token N) : t.round.isFunction = t.isFunction := by cases t <;> rfl

theorem pushNumber_round (c : Ctx N) (st : SY N) (t : Token N) : pushNumber c st.round t.round = (pushNumber c st t).round := by
  obtain ⟨out, ops, argc, grp⟩ := st
  rcases ops with _ | ⟨u, ops⟩
  · simp [pushNumber, SY.round]
  · cases u <;> simp [pushNumber, SY.round, Token.round]
    split <;> simp [Token.round]

theorem popForBinary_round (c : Ctx N) (f : BinFn N) (ops out : List (Token N)) :
    popForBinary c f (ops.map Token.round) (out.map Token.round) =
      ((popForBinary c f ops out).1.map Token.round, (popForBinary c f ops out).2.map Token.round) := by
  induction ops generalizing out with
  | nil => rfl
  | cons t ops ih =>
    cases t with
    | function g =>
      have := ih (out ++ [.function g])
      simpa [popForBinary, Token.round] using this
    | binary o =>
      have := ih (out ++ [.binary o])
      simp only [List.map_cons, Token.round, popForBinary]
      cases c.getBinary o with
      | none => rfl
      | some top =>
        simp only
        split
        · simpa [Token.round] using this
        · rfl
    | _ => simp [popForBinary, Token.round]

theorem popToOpen_round (ops out : List (Token N)) :
    popToOpen (ops.map Token.round) (out.map Token.round) =
      (popToOpen ops out).map fun x => ('(', x.2.1.map Token.round, x.2.2.map Token.round) := by
  induction ops generalizing out with
  | nil => rfl
  | cons t ops ih =>
    have := ih (out ++ [t])
    rw [List.map_append] at this
    cases t <;> first | rfl | exact this

theorem popUntilOpen_round (ops out : List (Token N)) :
    popUntilOpen (ops.map Token.round) (out.map Token.round) =
      (popUntilOpen ops out).map fun x => (x.1.map Token.round, x.2.map Token.round) := by
  induction ops generalizing out with
  | nil => rfl
  | cons t ops ih =>
    have := ih (out ++ [t])
    rw [List.map_append] at this
    cases t <;> first | rfl | exact this

theorem popToOpen_opens {ops out : List (Token N)} {o : Char} {k p : List (Token N)} (h : popToOpen ops out = some (o, k, p)) :
    opensOf ops = o :: opensOf k := by
  induction ops generalizing out with
  | nil => cases h
  | cons t ops ih =>
    cases t <;> simp only [popToOpen] at h
    case gopen c => cases h; rfl
    all_goals
      have := ih h
      simpa [opensOf] using this

theorem popToOpen_no_opens {ops out : List (Token N)} (h : popToOpen ops out = none) : opensOf ops = [] := by
  induction ops generalizing out with
  | nil => rfl
  | cons t ops ih =>
    cases t <;> simp only [popToOpen] at h
    case gopen c => cases h
    all_goals
      have := ih h
      simpa [opensOf] using this

theorem closes_symbol {cfg : Config} {o c : Char} (h : Closes o c) : ∃ g : Grouping, cfg.getGroupSymbol o = some (g.opn, c) := by
  rcases h with ⟨h, rfl⟩ | ⟨h, rfl⟩ | ⟨h, rfl⟩ <;> simp only [List.mem_cons, List.not_mem_nil, or_false] at h <;> rcases h with rfl | rfl
  · exact ⟨.parenthesis, rfl⟩
  · exact ⟨.parenthesis, rfl⟩
  · exact ⟨.bracket, rfl⟩
  · exact ⟨.bracket, rfl⟩
  · exact ⟨.brace, rfl⟩
  · exact ⟨.brace, rfl⟩

theorem closes_open {cfg : Config} {o c : Char} (h : Closes o c) (ho : o = '(' ∨ o = '[' ∨ o = '{') : cfg.getGroupOpenFor c = some o := by
  rcases h with ⟨h, rfl⟩ | ⟨h, rfl⟩ | ⟨h, rfl⟩ <;> rcases ho with rfl | rfl | rfl <;> first | rfl | (exact absurd h (by decide))

theorem pushGroupingClose_round (c : Ctx N) {ch : Char} {st : SY N} {rest : List (Token N)} {e : List Char}
    (hb : Brackets (opensOf st.ops) (.gclose ch :: rest) e) :
    pushGroupingClose c ')' st.round = (pushGroupingClose c ch st).map SY.round := by
  unfold pushGroupingClose
  have h1 := popToOpen_round st.ops st.output
  cases h : popToOpen st.ops st.output with
  | none =>
    rw [popToOpen_no_opens h] at hb
    cases hb with
    | other _ _ _ _ _ hc _ => exact absurd rfl (hc ch)
  | some x =>
    obtain ⟨o, k, p⟩ := x
    rw [h] at h1
    have h2 : popToOpen st.round.ops st.round.output = some ('(', k.map Token.round, p.map Token.round) := h1
    rw [popToOpen_opens h] at hb
    have hc : Closes o ch := by
      cases hb with
      | cls _ _ _ _ _ hc _ => exact hc
      | other _ _ _ _ _ hc _ => exact absurd rfl (hc ch)
    obtain ⟨g, hg⟩ := closes_symbol (cfg := c.config) hc
    have hr : c.config.getGroupSymbol '(' = some ('(', ')') := rfl
    rw [h2]
    simp only [hg, hr, if_true]
    obtain ⟨out, ops, argc, grp⟩ := st
    simp only [SY.round]
    rcases argc with _ | ⟨n, argc⟩
    · rfl
    · rcases k with _ | ⟨f, k⟩
      · rfl
      · cases f <;> simp [Token.round, Res.map, SY.round]

theorem brackets_adjacent {s e : List Char} {l r : List (Token N)} {o c : Char} (h : Brackets s (l ++ .gopen o :: .gclose c :: r) e) : Closes o c := by
  induction l generalizing s with
  | nil =>
    cases h with
    | opn _ _ _ _ h =>
      cases h with
      | cls _ _ _ _ _ hc _ => exact hc
      | other _ _ _ _ _ hc _ => exact absurd rfl (hc c)
    | other _ _ _ _ ho _ _ => exact absurd rfl (ho o)
  | cons t l ih =>
    cases h with
    | opn _ _ _ _ h => exact ih h
    | cls _ _ _ _ _ _ h => exact ih h
    | other _ _ _ _ _ _ h => exact ih h

theorem emptyGroup_round (c : Ctx N) {ts rest : List (Token N)} {pos : Nat} {ch : Char} (hd : ts.drop pos = .gclose ch :: rest) (hb : Balanced ts)
    (ho : Opening ts) : emptyGroup c (ts.map Token.round) pos ')' = emptyGroup c ts pos ch := by
  unfold emptyGroup
  split
  · rename_i hp
    simp only [List.getElem?_map]
    cases h1 : ts[pos - 1]? with
    | none => rfl
    | some t =>
      cases t with
      | gopen o =>
        have hts : ts = ts.take (pos - 1) ++ .gopen o :: .gclose ch :: rest := by
          have : ts.drop (pos - 1) = .gopen o :: .gclose ch :: rest := by
            obtain ⟨hlt, hg⟩ := List.getElem?_eq_some_iff.1 h1
            rw [List.drop_eq_getElem_cons hlt, hg]
            have : pos - 1 + 1 = pos := by omega
            rw [this, hd]
          rw [← this, List.take_append_drop]
        have hcl : Closes o ch := by
          unfold Balanced at hb
          rw [hts] at hb
          exact brackets_adjacent hb
        have hop : c.config.getGroupOpenFor ch = some o := closes_open hcl (ho o (by rw [hts]; simp))
        have hr : c.config.getGroupOpenFor ')' = some '(' := rfl
        simp only [Option.map_some, Token.round, hop, hr, if_true]
        cases ts[pos - 2]? with
        | none => rfl
        | some t => simp [isFunction_round]
      | _ => rfl
  · rfl

theorem any_round (p : Token N → Bool) (hp : ∀ t : Token N, p t.round = p t) (o : Option (Token N)) : (o.map Token.round).any p = o.any p := by
  cases o <;> simp [hp]

theorem checkComma_round (ts : List (Token N)) (grp : List Nat) (pos : Nat) :
    checkCommaPosition (ts.map Token.round) grp pos = checkCommaPosition ts grp pos := by
  unfold checkCommaPosition
  simp only [List.getElem?_map, any_round _ isGopen_round, any_round _ isGclose_round]
  rcases grp with _ | ⟨_ | g, grp⟩
  · rfl
  · rfl
  · simp only [any_round _ isFunction_round]

theorem dispatch_round (c : Ctx N) {ts rest : List (Token N)} {pos : Nat} {t : Token N} {st : SY N} {e : List Char} (hd : ts.drop pos = t :: rest)
    (hb : Balanced ts) (ho : Opening ts) (hf : c.config.customFunctionCall = true ∨ RoundCalls ts) (hs : Brackets (opensOf st.ops) (t :: rest) e) :
    dispatch c (ts.map Token.round) pos t.round ((rest.map Token.round).head?) st.round = (dispatch c ts pos t rest.head? st).map SY.round := by
  cases t with
  | number n => exact congrArg Res.ok (pushNumber_round c st (.number n))
  | variable_ n => exact congrArg Res.ok (pushNumber_round c st (.variable_ n))
  | constant n => exact congrArg Res.ok (pushNumber_round c st (.constant n))
  | binary o =>
    simp only [dispatch, Token.round, pushBinaryFunction]
    cases c.getBinary o with
    | none => rfl
    | some f =>
      have := popForBinary_round c f st.ops st.output
      simp only [SY.round, this, Res.map]
      rfl
  | unary u =>
    simp only [dispatch, Token.round, pushUnaryFunction]
    cases c.getUnary u with
    | none => rfl
    | some f =>
      simp only
      cases f.notation_ with
      | pre => rfl
      | post =>
        simp only [SY.round, List.isEmpty_map]
        split
        · rfl
        · simp [Res.map, SY.round, Token.round]
  | function f =>
    have hn : (c.config.customFunctionCall = true) ∨
        ((rest.map Token.round).head?.any fun t => t.containsSymbol '(') = rest.head?.any fun t => t.containsSymbol '(' := by
      refine hf.imp id fun hf => ?_
      rcases rest with _ | ⟨t, rest⟩
      · rfl
      · cases t with
        | gopen o =>
          have hts : ts = ts.take pos ++ .function f :: .gopen o :: rest := by rw [← hd, List.take_append_drop]
          have := hf _ _ _ _ hts
          subst this
          rfl
        | gclose o =>
          have : o ≠ '(' := by
            rintro rfl
            generalize opensOf st.ops = s at hs
            have : Brackets s (.gclose '(' :: rest) e := by
              cases hs with
              | other _ _ _ _ _ _ h => exact h
            cases this with
            | cls _ _ _ _ _ hc _ => rcases hc with ⟨_, h⟩ | ⟨_, h⟩ | ⟨_, h⟩ <;> exact absurd h (by decide)
            | other _ _ _ _ _ hc _ => exact absurd rfl (hc _)
          simp [Token.round, Token.containsSymbol, this]
        | _ => rfl
    simp only [dispatch, Token.round]
    rcases hn with hn | hn
    · simp [hn, Res.map, SY.round, Token.round]
    · rw [hn]
      split
      · rfl
      · simp [Res.map, SY.round, Token.round]
  | gopen o => simp [dispatch, Token.round, Res.map, SY.round]
  | gclose ch =>
    simp only [dispatch, Token.round, pushGroupingClose_round c hs, emptyGroup_round c hd hb ho]
    cases pushGroupingClose c ch st with
    | ok st1 =>
      simp only [Res.map, Res.bind]
      cases emptyGroup c ts pos ch with
      | none => rfl
      | some b => cases b <;> rfl
    | err k => rfl
    | panic => rfl
  | comma =>
    simp only [dispatch, Token.round, checkComma_round]
    have : st.round.grp = st.grp := rfl
    rw [this]
    cases checkCommaPosition ts st.grp pos with
    | ok _ =>
      simp only [Res.bind, pushComma]
      have : st.round.argc = st.argc := rfl
      rw [this]
      cases st.argc with
      | nil => rfl
      | cons n argc =>
        have := popUntilOpen_round st.ops st.output
        simp only [SY.round, this]
        cases popUntilOpen st.ops st.output with
        | none => rfl
        | some x => rfl
    | err k => rfl
    | panic => rfl
  | argCount n => rfl
  | unknown s => rfl

theorem implicitMul_round (c : Ctx N) (t : Token N) (next : Option (Token N)) (st : SY N) :
    implicitMulBlock c t.round (next.map Token.round) st.round = (implicitMulBlock c t next st).round := by
  have : implicitMulHere c t.round (next.map Token.round) = implicitMulHere c t next := by
    unfold implicitMulHere
    congr 1
    cases t <;> rcases next with _ | u <;> try rfl
    all_goals cases u <;> rfl
  unfold implicitMulBlock
  rw [this]
  split
  · rfl
  · rfl

theorem Brackets.rest {s s' e : List Char} {t : Token N} {rest : List (Token N)} (h : Brackets s (t :: rest) e) (h' : Brackets s [t] s') :
    Brackets s' rest e := by
  cases h with
  | opn _ _ _ _ h =>
    cases h' with
    | opn _ _ _ _ h' => cases h'; exact h
    | other _ _ _ _ ho _ _ => exact absurd rfl (ho _)
  | cls _ _ _ _ _ _ h =>
    cases h' with
    | cls _ _ _ _ _ _ h' => cases h'; exact h
    | other _ _ _ _ _ hc _ => exact absurd rfl (hc _)
  | other _ _ _ _ ho hc h =>
    cases h' with
    | opn => exact absurd rfl (ho _)
    | cls => exact absurd rfl (hc _)
    | other _ _ _ _ _ _ h' => cases h'; exact h

theorem syLoop_round (c : Ctx N) {ts : List (Token N)} (hb : Balanced ts) (ho : Opening ts) (hf : c.config.customFunctionCall = true ∨ RoundCalls ts)
    (rest : List (Token N)) (pos : Nat) (st : SY N) (e : List Char) (hd : ts.drop pos = rest) (hs : Brackets (opensOf st.ops) rest e) :
    syLoop c (ts.map Token.round) pos (rest.map Token.round) st.round = (syLoop c ts pos rest st).map SY.round := by
  induction rest generalizing pos st with
  | nil => rfl
  | cons t rest ih =>
    have hst : syStep c (ts.map Token.round) pos t.round ((rest.map Token.round).head?) st.round = (syStep c ts pos t rest.head? st).map SY.round := by
      unfold syStep
      rw [dispatch_round c hd hb ho hf hs]
      cases dispatch c ts pos t rest.head? st with
      | ok st1 =>
        have := implicitMul_round c t rest.head? st1
        simp only [Res.map, Res.bind, List.head?_map, this]
      | err k => rfl
      | panic => rfl
    simp only [List.map_cons, syLoop, hst]
    cases h : syStep c ts pos t rest.head? st with
    | ok st1 =>
      simp only [Res.map, Res.bind]
      obtain ⟨st2, he, h'⟩ := syStep_eff h
      have h1 := brackets_eff he
      have h2 : opensOf st1.ops = opensOf st2.ops := by
        rcases h' with rfl | ⟨_, _, _, rfl⟩ <;> simp [opensOf]
      have h3 : ts.drop (pos + 1) = rest := by
        rw [← List.drop_drop, hd]; rfl
      exact ih (pos + 1) st1 h3 (h2 ▸ hs.rest h1)
    | err k => rfl
    | panic => rfl

theorem flush_round (ops out : List (Token N)) : flush (ops.map Token.round) (out.map Token.round) = (flush ops out).map (List.map Token.round) := by
  induction ops generalizing out with
  | nil => rfl
  | cons t ops ih =>
    simp only [List.map_cons, flush, isGclose_round]
    split
    · rfl
    · have := ih (out ++ [t])
      simpa using this

theorem rpnLoop_round (c : Ctx N) (rpn : List (Token N)) (vs : List N) (n : Option Nat) : rpnLoop c (rpn.map Token.round) vs n = rpnLoop c rpn vs n := by
  induction rpn generalizing vs n with
  | nil => rfl
  | cons t rpn ih =>
    have : rpnStep c t.round vs n = rpnStep c t vs n := by cases t <;> rfl
    simp only [List.map_cons, rpnLoop, this, ih]

theorem evalTokens_round (c : Ctx N) {ts : List (Token N)} (hb : Balanced ts) (ho : Opening ts)
    (hf : c.config.customFunctionCall = true ∨ RoundCalls ts) : evalTokens c (ts.map Token.round) = evalTokens c ts := by
  unfold evalTokens infixToRpn
  have := syLoop_round c hb ho hf ts 0 SY.init [] rfl hb
  have h0 : (SY.init : SY N).round = SY.init := rfl
  rw [h0] at this
  rw [this]
  cases syLoop c ts 0 ts SY.init with
  | ok st =>
    have hfl := flush_round st.ops st.output
    simp only [Res.map, Res.bind, SY.round, hfl]
    cases flush st.ops st.output with
    | ok rpn => simp only [rpnLoop_round]
    | err k => rfl
    | panic => rfl
  | err k => rfl
  | panic => rfl

/-- C123. Two lists of tokens that differ only in the kinds of their brackets, both with every bracket closed by its own kind, evaluate alike:
same value, same error, same panic. The lists need not be expressions. Calls need parentheses unless `custom_function_call` is on. -/
theorem C123_kinds (c : Ctx N) (ts ts' : List (Token N)) (h : ts.map Token.round = ts'.map Token.round) (hb : Balanced ts) (hb' : Balanced ts')
    (ho : Opening ts) (ho' : Opening ts') (hf : c.config.customFunctionCall = true ∨ RoundCalls ts ∧ RoundCalls ts') :
    evalTokens c ts = evalTokens c ts' := by
  rw [← evalTokens_round c hb ho (hf.imp id And.left), ← evalTokens_round c hb' ho' (hf.imp id And.right), h]

/-! ## Text -/

def isBracketChar (c : Char) : Bool := c ∈ ['(', ')', '[', ']', '{', '}']

theorem roundChar_other {c : Char} (h : isBracketChar c = false) : roundChar c = c := by
  simp only [isBracketChar, List.mem_cons, List.not_mem_nil, or_false, decide_eq_false_iff_not, not_or] at h
  simp [roundChar, h]

theorem bracket_cases {c : Char} (h : isBracketChar c = true) : c = '(' ∨ c = ')' ∨ c = '[' ∨ c = ']' ∨ c = '{' ∨ c = '}' := by
  simpa [isBracketChar] using h

theorem invariant_round {p : Char → Bool} (h : ∀ b ∈ ['(', ')', '[', ']', '{', '}'], p b = false) (c : Char) : p (roundChar c) = p c := by
  cases hc : isBracketChar c with
  | false => rw [roundChar_other hc]
  | true => rcases bracket_cases hc with rfl | rfl | rfl | rfl | rfl | rfl <;> (rw [h _ (by decide), h _ (by decide)])

theorem valid_round {p : Char → Bool} (h : ∀ b ∈ ['(', ')', '[', ']', '{', '}'], p b = false) {c : Char} (hc : p c = true) : roundChar c = c := by
  refine roundChar_other ?_
  cases hb : isBracketChar c with
  | false => rfl
  | true => rw [h c (by simpa [isBracketChar] using hb)] at hc; cases hc

def Outcome.round : Outcome → Outcome
  | .data s => .data (s.map roundChar)
  | o => o

def Rule.Round (r : Rule) : Prop := ∀ c a, r (roundChar c) (a.map roundChar) = ((r c a).1.round, (r c a).2)

theorem takeWhile_round {p : Char → Bool} (h : ∀ b ∈ ['(', ')', '[', ']', '{', '}'], p b = false) (a : Str) :
    (a.map roundChar).takeWhile p = (a.takeWhile p).map roundChar := by
  induction a with
  | nil => rfl
  | cons c a ih =>
    simp only [List.map_cons, List.takeWhile_cons, invariant_round h, ih]
    split <;> rfl

theorem spanRule_round {start valid : Char → Bool} (h : ∀ b ∈ ['(', ')', '[', ']', '{', '}'], start b = false ∧ valid b = false) :
    (spanRule start valid).Round := by
  intro c a
  simp only [spanRule, takeWhile_round fun b hb => (h b hb).2, invariant_round (p := start) fun b hb => (h b hb).1]
  split
  · simp [Outcome.round]
  · rfl

theorem numericLoop_round (b : Bool) (a : Str) : numericLoop b (a.map roundChar) = ((numericLoop b a).1.map roundChar, (numericLoop b a).2) := by
  induction a generalizing b with
  | nil => rfl
  | cons c a ih =>
    have h1 := invariant_round (p := isDigit) (by decide) c
    have h2 := invariant_round (p := fun c => c == '.') (by decide) c
    simp only [List.map_cons, numericLoop, h1, h2, ih]
    split
    · rfl
    · split
      · split <;> rfl
      · rfl

theorem splitNumeric_round : splitNumeric.Round := by
  intro c a
  have h1 := invariant_round (p := isDigit) (by decide) c
  simp only [splitNumeric, h1, numericLoop_round]
  split <;> rfl

theorem splitIdentifier_round : splitIdentifier.Round := spanRule_round (by decide)
theorem splitOperator_round : splitOperator.Round := spanRule_round (by decide)

theorem skipWhitespace_round : skipWhitespace.Round := by
  intro c a
  have h1 := invariant_round (p := isWhitespace) (by decide) c
  simp only [skipWhitespace, h1]
  split <;> rfl

theorem splitBinary_round : splitBinary.Round := by
  intro c a
  have h1 := invariant_round (p := fun c => c == 'b') (by decide) c
  have h2 : ((a.map roundChar).head? == some '1' || (a.map roundChar).head? == some '0') = (a.head? == some '1' || a.head? == some '0') := by
    cases a with
    | nil => rfl
    | cons d a =>
      have h1 := invariant_round (p := fun c => c == '1' || c == '0') (by decide) d
      simpa using h1
  simp only [splitBinary, h1, h2, takeWhile_round (p := isDigit) (by decide)]
  split
  · simp [Outcome.round]
  · rfl

theorem runRules_round {rules : List Rule} (h : ∀ r ∈ rules, r.Round) (c : Char) (a : Str) :
    runRules rules (roundChar c) (a.map roundChar) = ((runRules rules c a).1.round, (runRules rules c a).2.map roundChar) := by
  induction rules generalizing a with
  | nil => rfl
  | cons r rules ih =>
    have hr := h r (by simp) c a
    simp only [runRules, hr]
    rcases hra : r c a with ⟨o, n⟩
    cases o with
    | data s => simp [Outcome.round, List.map_drop]
    | skip => simp [Outcome.round, List.map_drop]
    | cont =>
      simp only [Outcome.round]
      rw [← List.map_drop]
      exact ih (fun r hr => h r (by simp [hr])) _

theorem split_round {rules : List Rule} (h : ∀ r ∈ rules, r.Round) (s : Str) : split rules (s.map roundChar) = (split rules s).map (List.map roundChar) := by
  have : ∀ n s, splitLoop rules n (s.map roundChar) = (splitLoop rules n s).map (List.map roundChar) := by
    intro n
    induction n with
    | zero => intro s; simp [splitLoop]
    | succ n ih =>
      intro s
      cases s with
      | nil => simp [splitLoop]
      | cons c a =>
        simp only [List.map_cons, splitLoop, runRules_round h]
        rcases runRules rules c a with ⟨o, rest⟩
        cases o <;> simp [Outcome.round, ih]
  unfold split
  rw [List.length_map]
  exact this _ _

/-- A word that is a bracket, or has none. -/
def PlainWord (w : Str) : Prop := (∃ b, isBracketChar b = true ∧ w = [b]) ∨ w.map roundChar = w

/-- The rules make words with brackets of single brackets only. -/
theorem words_plain {rules : List Rule} (h : ∀ r ∈ rules, ∀ c a s n, r c a = (.data s, n) → s.map roundChar = s) (s : Str) :
    ∀ w ∈ split rules s, PlainWord w := by
  have hr : ∀ (rs : List Rule), (∀ r ∈ rs, ∀ c a s n, r c a = (.data s, n) → s.map roundChar = s) → ∀ c a s t, runRules rs c a = (.data s, t) → PlainWord s := by
    intro rs hrs
    induction rs with
    | nil =>
      intro c a s t h
      simp only [runRules, Prod.mk.injEq, Outcome.data.injEq] at h
      obtain ⟨rfl, _⟩ := h
      cases hb : isBracketChar c with
      | true => exact .inl ⟨c, hb, rfl⟩
      | false => exact .inr (by simp [roundChar_other hb])
    | cons r rs ih =>
      intro c a s t h
      simp only [runRules] at h
      rcases hra : r c a with ⟨o, n⟩
      rw [hra] at h
      cases o with
      | data s' =>
        simp only [Prod.mk.injEq, Outcome.data.injEq] at h
        obtain ⟨rfl, _⟩ := h
        exact .inr (hrs r (by simp) c a _ n hra)
      | skip => simp at h
      | cont => exact ih (fun r hr => hrs r (by simp [hr])) c _ s t h
  have : ∀ n s, ∀ w ∈ splitLoop rules n s, PlainWord w := by
    intro n
    induction n with
    | zero => intro s w hw; simp [splitLoop] at hw
    | succ n ih =>
      intro s w hw
      cases s with
      | nil => simp [splitLoop] at hw
      | cons c a =>
        simp only [splitLoop] at hw
        rcases hrr : runRules rules c a with ⟨o, rest⟩
        rw [hrr] at hw
        cases o with
        | data s' =>
          simp only [List.mem_cons] at hw
          rcases hw with rfl | hw
          · exact hr rules h c a _ _ hrr
          · exact ih _ w hw
        | skip => exact ih _ w hw
        | cont => exact ih _ w hw
  exact this _ _

theorem map_round_id {s : Str} (h : ∀ x ∈ s, roundChar x = x) : s.map roundChar = s := by
  induction s with
  | nil => rfl
  | cons c s ih => rw [List.map_cons, h c (by simp), ih fun x hx => h x (by simp [hx])]

theorem spanRule_noBrackets {start valid : Char → Bool} (h : ∀ b ∈ ['(', ')', '[', ']', '{', '}'], start b = false ∧ valid b = false) (c : Char) (a s : Str)
    (n : Nat) (hr : spanRule start valid c a = (.data s, n)) : s.map roundChar = s := by
  simp only [spanRule] at hr
  split at hr
  · rename_i hs
    simp only [Prod.mk.injEq, Outcome.data.injEq] at hr
    obtain ⟨rfl, _⟩ := hr
    have hw : ∀ x ∈ a.takeWhile valid, roundChar x = x := by
      intro x hx
      have := List.all_takeWhile (l := a) (p := valid)
      rw [List.all_eq_true] at this
      exact valid_round (fun b hb => (h b hb).2) (this x hx)
    simp only [List.map_cons, valid_round (p := start) (fun b hb => (h b hb).1) hs, map_round_id hw]
  · simp at hr

theorem numericLoop_noBrackets (b : Bool) (a : Str) : ∀ x ∈ (numericLoop b a).1, roundChar x = x := by
  induction a generalizing b with
  | nil => simp [numericLoop]
  | cons c a ih =>
    simp only [numericLoop]
    split
    · rename_i hd
      intro x hx
      rcases List.mem_cons.1 hx with rfl | hx
      · exact valid_round (p := isDigit) (by decide) hd
      · exact ih b x hx
    · split
      · split
        · simp
        · rename_i hd _
          intro x hx
          rcases List.mem_cons.1 hx with rfl | hx
          · exact valid_round (p := fun c => c == '.') (by decide) hd
          · exact ih true x hx
      · simp

theorem defaultRules_round : ∀ r ∈ defaultRules, r.Round := by
  intro r hr
  simp only [defaultRules, splitterNew, if_true, List.cons_append, List.nil_append, List.mem_cons, List.not_mem_nil, or_false] at hr
  rcases hr with rfl | rfl | rfl | rfl
  · exact splitNumeric_round
  · exact splitIdentifier_round
  · exact splitOperator_round
  · exact skipWhitespace_round

theorem defaultRules_noBrackets : ∀ r ∈ defaultRules, ∀ c a s n, r c a = (.data s, n) → s.map roundChar = s := by
  intro r hr c a s n h
  simp only [defaultRules, splitterNew, if_true, List.cons_append, List.nil_append, List.mem_cons, List.not_mem_nil, or_false] at hr
  rcases hr with rfl | rfl | rfl | rfl
  · simp only [splitNumeric] at h
    split at h
    · rename_i hd
      simp only [Prod.mk.injEq, Outcome.data.injEq] at h
      obtain ⟨rfl, _⟩ := h
      refine map_round_id fun x hx => ?_
      rcases List.mem_cons.1 hx with rfl | hx
      · exact valid_round (p := isDigit) (by decide) hd
      · exact numericLoop_noBrackets false a x hx
    · simp at h
  · exact spanRule_noBrackets (by decide) c a s n h
  · exact spanRule_noBrackets (by decide) c a s n h
  · simp only [skipWhitespace] at h
    split at h <;> simp at h

theorem bracket_free {parse : Str → Option N} {ctx : Ctx N} (hf : BracketsFree parse ctx) {b : Char} (hb : isBracketChar b = true) :
    parse [b] = none ∧ ctx.getVariable [b] = none ∧ ctx.getConstant [b] = none ∧ ctx.getFunction [b] = none ∧
    ctx.getBinary [b] = none ∧ ctx.getUnary [b] = none := hf b (by simpa [isBracketChar] using hb)

theorem roundChar_bracket {b : Char} (hb : isBracketChar b = true) : isBracketChar (roundChar b) = true := by
  rcases bracket_cases hb with rfl | rfl | rfl | rfl | rfl | rfl <;> decide

theorem isUnaryOp_round {parse : Str → Option N} {ctx : Ctx N} (hf : BracketsFree parse ctx) {prev : Option Str} (hp : ∀ p ∈ prev, PlainWord p) (cur : Str)
    (next : Option Str) : isUnaryOp parse ctx (prev.map (List.map roundChar)) cur next = isUnaryOp parse ctx prev cur next := by
  cases prev with
  | none => rfl
  | some p =>
    rcases hp p rfl with ⟨b, hb, rfl⟩ | h
    · obtain ⟨a1, a2, a3, a4, a5, a6⟩ := bracket_free hf hb
      obtain ⟨b1, b2, b3, b4, b5, b6⟩ := bracket_free hf (roundChar_bracket hb)
      have hg : ctx.config.isGroupClose (roundChar b) = ctx.config.isGroupClose b := by
        rcases bracket_cases hb with rfl | rfl | rfl | rfl | rfl | rfl <;> rfl
      have hq : isAsciiPunctuation (roundChar b) = isAsciiPunctuation b := by
        rcases bracket_cases hb with rfl | rfl | rfl | rfl | rfl | rfl <;> rfl
      have hl : b.toNat < 128 ∧ (roundChar b).toNat < 128 := by
        rcases bracket_cases hb with rfl | rfl | rfl | rfl | rfl | rfl <;> decide
      simp only [isUnaryOp, Option.map_some, List.map_cons, List.map_nil, singleChar, Option.any_some, hg, a1, b1, Ctx.isVariable, Ctx.isConstant, Ctx.isUnary,
        a2, a3, a6, b2, b3, b6, firstByte, hl.1, hl.2, if_true, hq, Res.bind,
        Option.isSome_none, Bool.false_and]
    · rw [Option.map_some, h]

theorem otherToken_round (ctx : Ctx N) {w : Str} (h : w.map roundChar = w) : (otherToken ctx w).map Token.round = otherToken ctx w := by
  rcases w with _ | ⟨c, _ | ⟨d, t⟩⟩
  · rfl
  · have hc : roundChar c = c := by simpa using h
    cases hb : isBracketChar c with
    | true => rcases bracket_cases hb with rfl | rfl | rfl | rfl | rfl | rfl <;> first | rfl | exact absurd hc (by decide)
    | false =>
      have : ctx.config.getGroupSymbol c = none := by
        simp only [isBracketChar, List.mem_cons, List.not_mem_nil, or_false, decide_eq_false_iff_not, not_or] at hb
        simp [Config.getGroupSymbol, Grouping.new, hb]
      unfold otherToken
      repeat' split
      all_goals first | rfl | (rename_i h1 h2 h3; simp_all)
  · unfold otherToken
    repeat' split
    all_goals first | rfl | simp_all

theorem tokenizeLoop_round {parse : Str → Option N} {ctx : Ctx N} (hf : BracketsFree parse ctx) (ws : List Str) (hw : ∀ w ∈ ws, PlainWord w)
    (prev : Option Str) (hp : ∀ p ∈ prev, PlainWord p) :
    tokenizeLoop parse ctx (prev.map (List.map roundChar)) (ws.map (List.map roundChar)) =
      (tokenizeLoop parse ctx prev ws).map (List.map Token.round) := by
  generalize hn : ws.length = n
  induction n using Nat.strongRecOn generalizing ws prev with
  | ind n ih =>
    cases ws with
    | nil => rfl
    | cons w rest =>
      have hr := ih rest.length (by rw [← hn]; simp) rest (fun x hx => hw x (by simp [hx])) (some w) (fun p hp => by cases hp; exact hw w (by simp)) rfl
      rw [Option.map_some] at hr
      have comb : ∀ t : Token N, ((tokenizeLoop parse ctx (some w) rest).map (List.map Token.round)).bind (fun ts => .ok (t.round :: ts)) =
          ((tokenizeLoop parse ctx (some w) rest).bind fun ts => .ok (t :: ts)).map (List.map Token.round) := by
        intro t
        cases tokenizeLoop parse ctx (some w) rest <;> rfl
      rcases hw w (by simp) with ⟨b, hb, rfl⟩ | h
      · obtain ⟨a1, a2, a3, a4, a5, a6⟩ := bracket_free hf hb
        obtain ⟨b1, b2, b3, b4, b5, b6⟩ := bracket_free hf (roundChar_bracket hb)
        have ho : ∃ t, otherToken ctx [b] = some t ∧ otherToken ctx [roundChar b] = some t.round := by
          rcases bracket_cases hb with rfl | rfl | rfl | rfl | rfl | rfl <;> exact ⟨_, rfl, rfl⟩
        obtain ⟨t, ho1, ho2⟩ := ho
        simp only [List.map_cons, List.map_nil] at hr ⊢
        rw [tokenizeLoop.eq_2, tokenizeLoop.eq_2]
        simp only [a1, b1, Ctx.isVariable, Ctx.isConstant, Ctx.isFunction, Ctx.isUnary, Ctx.isBinary, a2, a3, a4, a5, a6, b2, b3, b4, b5, b6,
          Option.isSome_none, Bool.or_self, Bool.false_eq_true, if_false, ho1, ho2, hr, comb]
      · rw [h] at hr
        simp only [List.map_cons, h]
        rw [tokenizeLoop.eq_2, tokenizeLoop.eq_2]
        cases hpw : parse w with
        | some m =>
          simp only
          cases rest with
          | nil => rfl
          | cons w' rest' =>
            have hi : (w'.map roundChar == ['i']) = (w' == ['i']) := by
              rcases hw w' (by simp) with ⟨b, hb, rfl⟩ | h'
              · rcases bracket_cases hb with rfl | rfl | rfl | rfl | rfl | rfl <;> decide
              · rw [h']
            simp only [List.map_cons, hi]
            split
            · rename_i hci
              have hwi : w' = ['i'] := by simpa using (Bool.and_eq_true_iff.1 hci).2
              have hwi' : w'.map roundChar = w' := by rw [hwi]; decide
              have hr' := ih rest'.length (by rw [← hn]; simp; omega) rest' (fun x hx => hw x (by simp [hx])) (some w')
                (fun p hp => by cases hp; exact hw w' (by simp)) rfl
              rw [Option.map_some, hwi'] at hr'
              rw [hwi']
              cases parse (w ++ w') with
              | none => rfl
              | some m' =>
                simp only [hr']
                cases tokenizeLoop parse ctx (some w') rest' <;> rfl
            · rw [List.map_cons] at hr
              rw [hr]
              exact comb (.number m)
        | none =>
          simp only
          split
          · rw [hr]; exact comb (.variable_ w)
          · split
            · rw [hr]; exact comb (.constant w)
            · split
              · rw [hr]; exact comb (.function w)
              · split
                · have hop : operatorToken parse ctx (prev.map (List.map roundChar)) w (rest.map (List.map roundChar)).isEmpty =
                      (operatorToken parse ctx prev w rest.isEmpty).map Token.round := by
                    simp only [operatorToken, isUnaryOp_round hf hp, List.isEmpty_map, Option.isNone_map]
                    cases isUnaryOp parse ctx prev w (if rest.isEmpty = true then none else some w) with
                    | ok u =>
                      simp only [Res.bind]
                      repeat' split
                      all_goals rfl
                    | err k => rfl
                    | panic => rfl
                  rw [hop]
                  cases operatorToken parse ctx prev w rest.isEmpty with
                  | ok t =>
                    simp only [Res.map, Res.bind]
                    have := comb t
                    rw [hr]
                    exact this
                  | err k => rfl
                  | panic => rfl
                · have ho := otherToken_round ctx h
                  cases hot : otherToken ctx w with
                  | none => exact hr
                  | some t =>
                    rw [hot] at ho
                    have ht : t.round = t := by simpa using ho
                    have := comb t
                    rw [ht] at this
                    simp only [hr]
                    exact this

theorem tokenize_round {parse : Str → Option N} {ctx : Ctx N} (hf : BracketsFree parse ctx) (s : Str) :
    tokenize parse (split defaultRules) ctx (s.map roundChar) = (tokenize parse (split defaultRules) ctx s).map (List.map Token.round) := by
  unfold tokenize
  have h1 : (s.map roundChar).all isWhitespace = s.all isWhitespace := by
    rw [List.all_map]
    congr 1
    funext c
    exact invariant_round (p := isWhitespace) (by decide) c
  rw [h1]
  split
  · rfl
  · rw [split_round defaultRules_round]
    exact tokenizeLoop_round hf _ (words_plain defaultRules_noBrackets s) none (by simp)

theorem otherToken_open {ctx : Ctx N} {w : Str} {o : Char} (h : otherToken ctx w = some (.gopen o)) : o = '(' ∨ o = '[' ∨ o = '{' := by
  unfold otherToken at h
  split at h
  · cases h
  · split at h
    · cases h
    · split at h
      · split at h
        · split at h
          · rename_i a b hg
            split at h
            · rename_i hc
              cases h
              subst hc
              simp only [Config.getGroupSymbol, Option.map_eq_some_iff] at hg
              obtain ⟨g, _, hg⟩ := hg
              cases g <;> simp [Grouping.symbols, Grouping.opn, Grouping.cls] at hg <;> simp [← hg.1]
            · cases h
          · cases h
        · cases h
      · cases h

theorem bindOk_inv {α β : Type} {x : Res α} {f : α → Res β} {v : β} (h : x.bind f = .ok v) : ∃ u, x = .ok u ∧ f u = .ok v := by
  cases x with
  | ok u => exact ⟨u, rfl, h⟩
  | err k => cases h
  | panic => cases h

theorem operatorToken_open {parse : Str → Option N} {ctx : Ctx N} {prev : Option Str} {w : Str} {l : Bool} {t : Token N}
    (h : operatorToken parse ctx prev w l = .ok t) : t = .unary w ∨ t = .binary w := by
  unfold operatorToken at h
  obtain ⟨u, _, h⟩ := bindOk_inv h
  split at h
  · cases h; exact .inl rfl
  · cases hc : prev.isNone || (if l = true then none else some w).isNone <;> simp only [hc] at h
    · cases h; exact .inr rfl
    · cases h

theorem tokenizeLoop_opening {parse : Str → Option N} {ctx : Ctx N} (ws : List Str) (prev : Option Str) (ts : List (Token N))
    (h : tokenizeLoop parse ctx prev ws = .ok ts) : Opening ts := by
  generalize hn : ws.length = n
  induction n using Nat.strongRecOn generalizing ws prev ts with
  | ind n ih =>
    have step : ∀ (t : Token N) (ws' : List Str) (p : Option Str), ws'.length < n → (∀ o, t = .gopen o → o = '(' ∨ o = '[' ∨ o = '{') →
        ((tokenizeLoop parse ctx p ws').bind fun ts => .ok (t :: ts)) = .ok ts → Opening ts := by
      intro t ws' p hl ht h
      obtain ⟨ts', h1, h2⟩ := bindOk_inv h
      cases h2
      intro o ho
      rcases List.mem_cons.1 ho with ho | ho
      · exact ht o ho.symm
      · exact ih _ hl ws' p ts' h1 rfl o ho
    cases ws with
    | nil => cases h; intro o ho; cases ho
    | cons w rest =>
      have hl : rest.length < n := by rw [← hn]; simp
      rw [tokenizeLoop.eq_2] at h
      split at h
      · split at h
        · rename_i w' rest' 
          have hl' : rest'.length < n := by rw [← hn]; simp; omega
          split at h
          · split at h
            · cases h
            · exact step _ _ _ hl' (by simp) h
          · exact step _ _ _ hl (by simp) h
        · cases h; intro o ho; simp at ho
      · split at h
        · exact step _ _ _ hl (by simp) h
        · split at h
          · exact step _ _ _ hl (by simp) h
          · split at h
            · exact step _ _ _ hl (by simp) h
            · split at h
              · obtain ⟨t, h1, h2⟩ := bindOk_inv h
                refine step t _ _ hl ?_ h2
                rintro o rfl
                rcases operatorToken_open h1 with h | h <;> cases h
              · split at h
                · rename_i t ht
                  refine step t _ _ hl ?_ h
                  rintro o rfl
                  exact otherToken_open ht
                · exact ih _ hl _ _ _ h rfl

/-- C123, for text: if `s` and `s'` differ only in the kinds of their brackets, then one can be read if the other can, and if in both every bracket
is closed by its own kind, they evaluate alike. Calls need parentheses unless `custom_function_call` is on. -/
theorem C123_text (parse : Str → Option N) (c : Ctx N) (hf : BracketsFree parse c) (s s' : Str) (h : s.map roundChar = s'.map roundChar)
    (hs : ∀ ts, tokenize parse (split defaultRules) c s = .ok ts → Balanced ts ∧ (c.config.customFunctionCall = true ∨ RoundCalls ts))
    (hs' : ∀ ts, tokenize parse (split defaultRules) c s' = .ok ts → Balanced ts ∧ (c.config.customFunctionCall = true ∨ RoundCalls ts)) :
    eval parse (split defaultRules) c s = eval parse (split defaultRules) c s' := by
  have h1 := tokenize_round hf s
  have h2 := tokenize_round hf s'
  have ho : ∀ s ts, tokenize parse (split defaultRules) c s = .ok ts → Opening ts := by
    intro s ts h
    unfold tokenize at h
    split at h
    · cases h
    · exact tokenizeLoop_opening _ _ _ h
  have ho1 := ho s
  have ho2 := ho s'
  rw [h, h2] at h1
  unfold eval
  cases ht : tokenize parse (split defaultRules) c s with
  | ok ts =>
    cases ht' : tokenize parse (split defaultRules) c s' with
    | ok ts' =>
      rw [ht, ht'] at h1
      have h1 := Res.ok.inj h1
      simp only [Res.bind]
      refine C123_kinds c ts ts' h1.symm (hs ts ht).1 (hs' ts' ht').1 (ho1 ts ht) (ho2 ts' ht') ?_
      rcases (hs ts ht).2 with h | h
      · exact .inl h
      · exact (hs' ts' ht').2.imp id fun h' => ⟨h, h'⟩
    | err k => rw [ht, ht'] at h1; cases h1
    | panic => rw [ht, ht'] at h1; cases h1
  | err k =>
    cases ht' : tokenize parse (split defaultRules) c s' with
    | ok ts' => rw [ht, ht'] at h1; cases h1
    | err k' => rw [ht, ht'] at h1; cases h1; rfl
    | panic => rw [ht, ht'] at h1; cases h1
  | panic =>
    cases ht' : tokenize parse (split defaultRules) c s' with
    | ok ts' => rw [ht, ht'] at h1; cases h1
    | err k' => rw [ht, ht'] at h1; cases h1
    | panic => rfl

/-- The hypotheses are met by `-[2+{x}]*sum(3)` and `-{2+(x)}*sum(3)`. -/
example : BracketsFree Demo.parse (Demo.ctx false false) ∧
    (str "-[2+{x}]*sum(3)").map roundChar = (str "-{2+(x)}*sum(3)").map roundChar ∧
    eval Demo.parse (split defaultRules) (Demo.ctx false false) (str "-[2+{x}]*sum(3)") = .ok (-15) ∧
    ∀ ts, tokenize Demo.parse (split defaultRules) (Demo.ctx false false) (str "-[2+{x}]*sum(3)") = .ok ts → Balanced ts ∧ RoundCalls ts := by
  refine ⟨by simp [BracketsFree, Demo.parse, Demo.ctx], by decide +kernel, by decide +kernel, ?_⟩
  intro ts h
  have : tokenize Demo.parse (split defaultRules) (Demo.ctx false false) (str "-[2+{x}]*sum(3)") = .ok [.unary ['-'], .gopen '[', .number 2, .binary ['+'],
      .gopen '{', .variable_ ['x'], .gclose '}', .gclose ']', .binary ['*'], .function ['s', 'u', 'm'], .gopen '(', .number 3, .gclose ')'] := by decide +kernel
  rw [this] at h
  cases h
  constructor
  · repeat' first | exact .nil _ | refine .opn _ _ _ _ ?_ | refine .cls _ _ _ _ _ (by simp [Closes]) ?_ | refine .other _ _ _ _ (by simp) (by simp) ?_
  · intro l r f o h
    have hm : ∀ l' : List (Token Int), l' = l → l'.length < 12 := by
      intro l' e
      have := congrArg List.length h
      simp at this
      rw [e]; omega
    have := hm l rfl
    match l, this with
    | [], _ => simp at h
    | [_], _ => simp at h
    | [_, _], _ => simp at h
    | [_, _, _], _ => simp at h
    | [_, _, _, _], _ => simp at h
    | [_, _, _, _, _], _ => simp at h
    | [_, _, _, _, _, _], _ => simp at h
    | [_, _, _, _, _, _, _], _ => simp at h
    | [_, _, _, _, _, _, _, _], _ => simp at h
    | [_, _, _, _, _, _, _, _, _], _ => simp at h; exact h.2.2.2.2.2.2.2.2.2.2.1.symm
    | [_, _, _, _, _, _, _, _, _, _], _ => simp at h
    | [_, _, _, _, _, _, _, _, _, _, _], _ => simp at h

/-- `sum[1, {2 + 3}] * (4)` and `sum(1, [2 + 3]) * {4}`. -/
example :
    let ts : List (Token Int) := [.function ['s', 'u', 'm'], .gopen '[', .number 1, .comma, .gopen '{', .number 2, .binary ['+'], .number 3, .gclose '}',
      .gclose ']', .binary ['*'], .gopen '(', .number 4, .gclose ')']
    let ts' : List (Token Int) := [.function ['s', 'u', 'm'], .gopen '(', .number 1, .comma, .gopen '[', .number 2, .binary ['+'], .number 3, .gclose ']',
      .gclose ')', .binary ['*'], .gopen '{', .number 4, .gclose '}']
    ts.map Token.round = ts'.map Token.round ∧ Opening ts ∧ Opening ts' ∧ evalTokens (Demo.ctx false true) ts = .ok 24 ∧
      evalTokens (Demo.ctx false true) ts' = .ok 24 := by
  refine ⟨rfl, ?_, ?_, by decide +kernel, by decide +kernel⟩ <;> (intro o h; simp at h; grind)

/-- C123. Without `custom_function_call` only parentheses make a call: `sum[2]` is an error, `sum(2)` is 2. -/
theorem C123_calls_counterexample :
    evalTokens (Demo.ctx false false) [.function ['s', 'u', 'm'], .gopen '[', .number 2, .gclose ']'] = .err .invalidInput ∧
    evalTokens (Demo.ctx false false) [.function ['s', 'u', 'm'], .gopen '(', .number 2, .gclose ')'] = .ok 2 := by decide +kernel

end Prexel
