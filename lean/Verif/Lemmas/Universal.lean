import Verif.Lemmas.Effect
import Verif.Spec.Brackets
/-!
# Facts about the evaluator on arbitrary token lists
-/

set_option linter.unusedVariables false
set_option linter.unusedSimpArgs false

namespace Prexel
variable {N : Type}

/-! ## No panic in `infix_to_rpn` -/

theorem drop_getElem? {α : Type} {l : List α} {pos : Nat} {t : α} {rest : List α} (h : l.drop pos = t :: rest) :
    l[pos]? = some t := by
  have := congrArg (fun l => l[0]?) h
  simpa using this

theorem drop_lt {α : Type} {l : List α} {pos : Nat} {t : α} {rest : List α} (h : l.drop pos = t :: rest) :
    pos < l.length := by
  have := congrArg List.length h
  simp at this
  omega

theorem emptyGroup_ne_none (ctx : Ctx N) (tokens : List (Token N)) (pos : Nat) (c : Char) (h : pos < tokens.length) :
    emptyGroup ctx tokens pos c ≠ none := by
  have h1 : ∃ x, tokens[pos - 1]? = some x := ⟨_, List.getElem?_eq_getElem (by omega)⟩
  have h2 : ∃ x, tokens[pos - 2]? = some x := ⟨_, List.getElem?_eq_getElem (by omega)⟩
  obtain ⟨x, hx⟩ := h1
  obtain ⟨y, hy⟩ := h2
  unfold emptyGroup
  rw [hx, hy]
  split
  · cases x <;> simp
    split <;> simp
  · simp

/-- Nothing is counted before the first token and recorded positions are not 0. -/
def PosInv (pos : Nat) (st : SY N) : Prop := (pos = 0 → st.argc = []) ∧ ∀ g ∈ st.grp, g ≠ 0

theorem posInv_step {ctx : Ctx N} {tokens : List (Token N)} {pos : Nat} {t : Token N} {next : Option (Token N)} {st st' : SY N}
    (hi : PosInv pos st) (h : syStep ctx tokens pos t next st = .ok st') : PosInv (pos + 1) st' := by
  obtain ⟨st1, he, h'⟩ := syStep_eff h
  have : PosInv (pos + 1) st1 := by
    refine ⟨by simp, ?_⟩
    have h2 := hi.2
    cases he with
    | gopen c st =>
      intro g hg
      by_cases ha : st.argc.isEmpty = true
      · simp [ha] at hg; exact h2 g hg
      · simp [ha] at hg
        rcases hg with rfl | hg
        · intro h0
          exact ha (by simp [hi.1 h0])
        · exact h2 g hg
    | group =>
      intro g hg
      simp only at hg
      split at hg
      · exact h2 g hg
      · exact h2 g (List.mem_of_mem_tail hg)
    | call =>
      intro g hg
      simp only at hg
      split at hg
      · exact h2 g hg
      · exact h2 g (List.mem_of_mem_tail hg)
    | _ => exact h2
  rcases h' with rfl | ⟨_, _, _, rfl⟩
  · exact this
  · exact ⟨by simp, this.2⟩

theorem syStep_ne_panic (ctx : Ctx N) (tokens : List (Token N)) (pos : Nat) (t : Token N) (next : Option (Token N)) (st : SY N)
    (hi : PosInv pos st) (hpos : pos < tokens.length) : syStep ctx tokens pos t next st ≠ .panic := by
  have hd : dispatch ctx tokens pos t next st ≠ .panic := by
    cases t with
    | number n => simp [dispatch]
    | variable_ n => simp [dispatch]
    | constant n => simp [dispatch]
    | function f => simp only [dispatch]; split <;> simp
    | binary o => simp only [dispatch, pushBinaryFunction]; split <;> simp
    | unary u => simp only [dispatch, pushUnaryFunction]; repeat' split
                 all_goals simp
    | argCount n => simp [dispatch]
    | unknown n => simp [dispatch]
    | gopen c => simp [dispatch]
    | gclose c =>
      simp only [dispatch]
      cases hp : pushGroupingClose ctx c st with
      | err k => simp
      | panic =>
        unfold pushGroupingClose at hp
        repeat' split at hp
        all_goals simp at hp
      | ok st1 =>
        simp only [Res.bind_ok]
        split
        · rename_i he; exact absurd he (emptyGroup_ne_none ctx tokens pos c hpos)
        · simp
        · simp
    | comma =>
      simp only [dispatch]
      cases hc : checkCommaPosition tokens st.grp pos with
      | err k => simp
      | panic =>
        unfold checkCommaPosition at hc
        repeat' split at hc
        all_goals simp_all [PosInv]
      | ok u =>
        simp only [Res.bind_ok, pushComma]
        repeat' split
        all_goals simp
  unfold syStep
  cases h : dispatch ctx tokens pos t next st <;> simp_all

theorem syLoop_ne_panic (ctx : Ctx N) (tokens : List (Token N)) (pos : Nat) (rest : List (Token N)) (st : SY N)
    (hrest : tokens.drop pos = rest) (hi : PosInv pos st) : syLoop ctx tokens pos rest st ≠ .panic := by
  induction rest generalizing pos st with
  | nil => simp [syLoop]
  | cons t rest ih =>
    simp only [syLoop]
    cases hs : syStep ctx tokens pos t rest.head? st with
    | err k => simp
    | panic => exact absurd hs (syStep_ne_panic ctx tokens pos t _ st hi (drop_lt hrest))
    | ok st1 =>
      rw [Res.bind_ok]
      exact ih (pos + 1) st1 (by rw [← List.drop_drop, hrest]; simp) (posInv_step hi hs)

theorem flush_ne_panic (ops out : List (Token N)) : flush ops out ≠ .panic := by
  induction ops generalizing out with
  | nil => simp [flush]
  | cons t ops ih => simp only [flush]; split <;> simp [ih]

theorem infixToRpn_ne_panic' (ctx : Ctx N) (tokens : List (Token N)) : infixToRpn ctx tokens ≠ .panic := by
  unfold infixToRpn
  cases h : syLoop ctx tokens 0 tokens SY.init with
  | err k => simp
  | panic => exact absurd h (syLoop_ne_panic ctx tokens 0 tokens _ (by simp) (by simp [PosInv, SY.init]))
  | ok st => simpa using flush_ne_panic st.ops st.output

/-! ## Argument counts stand directly before functions -/

def Token.isArgCount : Token N → Bool
  | .argCount _ => true
  | _ => false

def NoCount (l : List (Token N)) : Prop := ∀ t ∈ l, t.isArgCount = false

def ArgOK : List (Token N) → Prop
  | [] => True
  | .argCount _ :: .function _ :: r => ArgOK r
  | .argCount _ :: _ => False
  | _ :: r => ArgOK r

theorem ArgOK.of_noCount {l : List (Token N)} (h : NoCount l) : ArgOK l := by
  induction l with
  | nil => trivial
  | cons t l ih =>
    have ht := h t (by simp)
    have := ih (fun x hx => h x (by simp [hx]))
    cases t <;> simp_all [ArgOK, Token.isArgCount]

theorem ArgOK.append {a b : List (Token N)} (ha : ArgOK a) (hb : ArgOK b) : ArgOK (a ++ b) := by
  fun_induction ArgOK a <;> simp_all [ArgOK]

theorem argOK_step {ctx : Ctx N} {tokens : List (Token N)} {pos : Nat} {t : Token N} {next : Option (Token N)} {st st' : SY N}
    (hi : ArgOK st.output ∧ NoCount st.ops) (h : syStep ctx tokens pos t next st = .ok st') :
    ArgOK st'.output ∧ NoCount st'.ops := by
  obtain ⟨st1, he, h'⟩ := syStep_eff h
  have key : ArgOK st1.output ∧ NoCount st1.ops := by
    obtain ⟨h1, h2⟩ := hi
    cases he with
    | atom t st ht => exact ⟨h1.append (.of_noCount (by cases t <;> simp_all [NoCount, Token.isArgCount, Token.isAtom])), h2⟩
    | atomU t st ht u f hf ops hops =>
      refine ⟨h1.append (.of_noCount (by cases t <;> simp_all [NoCount, Token.isArgCount, Token.isAtom])), ?_⟩
      intro x hx; exact h2 x (by simp [hops, hx])
    | bin o st f hf popped kept hops hp =>
      refine ⟨h1.append (.of_noCount fun x hx => h2 x (by simp [hops, hx])), ?_⟩
      intro x hx
      simp only [List.mem_cons] at hx
      rcases hx with rfl | hx
      · rfl
      · exact h2 x (by simp [hops, hx])
    | pre u st f hf hn =>
      refine ⟨h1, ?_⟩
      intro x hx
      simp only [List.mem_cons] at hx
      rcases hx with rfl | hx
      · rfl
      · exact h2 x hx
    | post u st f hf hn ho => exact ⟨h1.append (by simp [ArgOK]), h2⟩
    | function f st hn =>
      refine ⟨h1, ?_⟩
      intro x hx
      simp only [List.mem_cons] at hx
      rcases hx with rfl | hx
      · rfl
      · exact h2 x hx
    | gopen c st =>
      refine ⟨h1, ?_⟩
      intro x hx
      simp only [List.mem_cons] at hx
      rcases hx with rfl | hx
      · rfl
      · exact h2 x hx
    | group c c' st popped kept g hg hc hops hp hk he =>
      exact ⟨h1.append (.of_noCount fun x hx => h2 x (by simp [hops, hx])), fun x hx => h2 x (by simp [hops, hx])⟩
    | call c c' st popped kept g hg hc f n ac hops hp hac he =>
      exact ⟨(h1.append (.of_noCount fun x hx => h2 x (by simp [hops, hx]))).append (by simp [ArgOK]),
        fun x hx => h2 x (by simp [hops, hx])⟩
    | comma st c popped kept n ac hops hp hac hcheck =>
      exact ⟨h1.append (.of_noCount fun x hx => h2 x (by simp [hops, hx])),
        fun x hx => h2 x (by simp only [hops, List.mem_append]; exact .inr hx)⟩
  rcases h' with rfl | ⟨_, _, _, rfl⟩
  · exact key
  · refine ⟨key.1, ?_⟩
    intro x hx
    simp only [List.mem_cons] at hx
    rcases hx with rfl | hx
    · rfl
    · exact key.2 x hx

theorem syLoop_argOK {ctx : Ctx N} {tokens : List (Token N)} {st : SY N} (h : syLoop ctx tokens 0 tokens SY.init = .ok st) :
    ArgOK st.output ∧ NoCount st.ops :=
  syLoop_inv ctx tokens (fun _ st => ArgOK st.output ∧ NoCount st.ops) (fun _ _ _ _ _ _ hi hs => argOK_step hi hs) 0 tokens
    (by simp) SY.init st (by simp [SY.init, ArgOK, NoCount]) h

theorem Res.bind_ne_panic {α β : Type} {x : Res α} {f : α → Res β} (hx : x ≠ .panic) (hf : ∀ v, x = .ok v → f v ≠ .panic) :
    x.bind f ≠ .panic := by
  cases x <;> simp_all

theorem Res.ofOption_ne_panic {α : Type} (o : Option α) (k : ErrorKind) : Res.ofOption o k ≠ .panic := by
  cases o <;> simp [Res.ofOption]

theorem Res.ofOption_ok {α : Type} {o : Option α} {k : ErrorKind} {v : α} (h : Res.ofOption o k = .ok v) : o = some v := by
  cases o <;> simp_all [Res.ofOption]

theorem rpnStep_ne_panic (ctx : Ctx N) (hs : ctx.Safe) (t : Token N) (ht : t.isArgCount = false) (vals : List N) (ac : Option Nat) :
    rpnStep ctx t vals ac ≠ .panic := by
  cases t with
  | argCount n => simp [Token.isArgCount] at ht
  | number n => simp [rpnStep]
  | variable_ n => exact Res.bind_ne_panic (Res.ofOption_ne_panic _ _) (by simp)
  | constant n => exact Res.bind_ne_panic (Res.ofOption_ne_panic _ _) (by simp)
  | function s =>
    refine Res.bind_ne_panic (Res.ofOption_ne_panic _ _) fun f hf => ?_
    refine Res.bind_ne_panic (Res.ofOption_ne_panic _ _) fun n hn => ?_
    exact Res.bind_ne_panic (hs.1 s f (Res.ofOption_ok hf) _) (by simp)
  | unary s =>
    refine Res.bind_ne_panic (Res.ofOption_ne_panic _ _) fun f hf => ?_
    cases vals with
    | nil => simp
    | cons v vals => exact Res.bind_ne_panic (hs.2.1 s f (Res.ofOption_ok hf) _) (by simp)
  | binary s =>
    refine Res.bind_ne_panic (Res.ofOption_ne_panic _ _) fun f hf => ?_
    match vals with
    | [] => simp
    | [_] => simp
    | _ :: _ :: _ => exact Res.bind_ne_panic (hs.2.2 s f (Res.ofOption_ok hf) _ _) (by simp)
  | gopen c => simp [rpnStep]
  | gclose c => simp [rpnStep]
  | unknown c => simp [rpnStep]
  | comma => simp [rpnStep]

/-- Outside argument counts the pending count stays empty. -/
theorem rpnStep_argc {ctx : Ctx N} {t : Token N} (ht : t.isArgCount = false) {vals : List N} {r : List N × Option Nat}
    (h : rpnStep ctx t vals none = .ok r) : r.2 = none := by
  cases t with
  | argCount n => simp [Token.isArgCount] at ht
  | number n => simp [rpnStep] at h; simp [← h]
  | variable_ s => cases hv : ctx.getVariable s <;> simp_all [rpnStep, Res.ofOption]; simp [← h]
  | constant s => cases hv : ctx.getConstant s <;> simp_all [rpnStep, Res.ofOption]; simp [← h]
  | function s => cases hv : ctx.getFunction s <;> simp_all [rpnStep, Res.ofOption]
  | unary s =>
    cases hv : ctx.getUnary s with
    | none => simp [rpnStep, Res.ofOption, hv] at h
    | some f =>
      cases vals with
      | nil => simp [rpnStep, Res.ofOption, hv] at h
      | cons v vals =>
        cases hc : f.call v with
        | ok w => simp [rpnStep, Res.ofOption, hv, hc] at h; simp [← h]
        | err k => simp [rpnStep, Res.ofOption, hv, hc] at h
        | panic => simp [rpnStep, Res.ofOption, hv, hc] at h
  | binary s =>
    cases hv : ctx.getBinary s with
    | none => simp [rpnStep, Res.ofOption, hv] at h
    | some f =>
      match vals with
      | [] => simp [rpnStep, Res.ofOption, hv] at h
      | [_] => simp [rpnStep, Res.ofOption, hv] at h
      | x :: y :: vals =>
        cases hc : f.call y x with
        | ok w => simp [rpnStep, Res.ofOption, hv, hc] at h; simp [← h]
        | err k => simp [rpnStep, Res.ofOption, hv, hc] at h
        | panic => simp [rpnStep, Res.ofOption, hv, hc] at h
  | gopen c => simp [rpnStep] at h
  | gclose c => simp [rpnStep] at h
  | unknown c => simp [rpnStep] at h
  | comma => simp [rpnStep] at h

theorem rpnStep_function_argc {ctx : Ctx N} {f : Str} {vals : List N} {ac : Option Nat} {r : List N × Option Nat}
    (h : rpnStep ctx (.function f) vals ac = .ok r) : r.2 = none := by
  cases hf : ctx.getFunction f with
  | none => simp [rpnStep, hf, Res.ofOption] at h
  | some fn =>
    cases ac with
    | none => simp [rpnStep, hf, Res.ofOption] at h
    | some n =>
      simp only [rpnStep, hf, Res.ofOption, Res.bind_ok] at h
      cases hc : fn (vals.take n).reverse with
      | ok w => simp [hc] at h; simp [← h]
      | err k => simp [hc] at h
      | panic => simp [hc] at h

theorem rpnLoop_ne_panic (ctx : Ctx N) (hs : ctx.Safe) (l : List (Token N)) (h : ArgOK l) (vals : List N) :
    rpnLoop ctx l vals none ≠ .panic := by
  fun_induction ArgOK l generalizing vals with
  | case1 => simp [rpnLoop]
  | case2 n f r ih =>
    simp only [rpnLoop]
    simp only [rpnStep, Option.isSome_none, Bool.false_eq_true, if_false, Res.bind_ok]
    refine Res.bind_ne_panic (rpnStep_ne_panic ctx hs (.function f) rfl _ _) fun r' hr => ?_
    rw [rpnStep_function_argc hr]
    exact ih h _
  | case3 => exact h.elim
  | case4 t r hne hne' ih =>
    have ht : t.isArgCount = false := by
      cases t <;> simp_all [Token.isArgCount]
    simp only [rpnLoop]
    refine Res.bind_ne_panic (rpnStep_ne_panic ctx hs t ht _ _) fun r' hr => ?_
    rw [rpnStep_argc ht hr]
    exact ih h _

theorem evalTokens_ne_panic' (ctx : Ctx N) (hs : ctx.Safe) (tokens : List (Token N)) : evalTokens ctx tokens ≠ .panic := by
  unfold evalTokens
  refine Res.bind_ne_panic (infixToRpn_ne_panic' ctx tokens) fun rpn hr => ?_
  obtain ⟨st, hst, rfl⟩ := infixToRpn_ok hr
  obtain ⟨h1, h2⟩ := syLoop_argOK hst
  refine Res.bind_ne_panic (rpnLoop_ne_panic ctx hs _ (h1.append (.of_noCount h2)) _) fun vs _ => ?_
  unfold rpnResult
  split <;> simp

end Prexel
