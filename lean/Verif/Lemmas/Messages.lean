import Verif.Model.Messages
/-!
# Forgetting the messages gives back the model without them
-/

namespace Prexel
variable {N V α β : Type}

namespace Told

@[simp] theorem plain_ok (v : α) : (Told.ok v).plain = .ok v := rfl
@[simp] theorem plain_err (e : Fault) : (Told.err e : Told α).plain = .err e.kind := rfl
@[simp] theorem plain_panic : (Told.panic : Told α).plain = .panic := rfl
@[simp] theorem kind_new (k : ErrorKind) (m : Str) : (Fault.new k m).kind = k := rfl
@[simp] theorem kind_simple (k : ErrorKind) : (Fault.simple k).kind = k := rfl

theorem plain_bind (x : Told α) (f : α → Told β) : (x.bind f).plain = x.plain.bind fun v => (f v).plain := by cases x <;> rfl
theorem plain_ofOption (o : Option α) (k : ErrorKind) (m : Str) : (ofOption o k m).plain = Res.ofOption o k := by cases o <;> rfl
theorem plain_ofRes (r : Res α) (m : Option Str) : (ofRes r m).plain = r := by cases r <;> rfl

theorem checkCommaPosition_plain (tokens : List (Token N)) (grp : List Nat) (pos : Nat) :
    (checkCommaPosition tokens grp pos).plain = Prexel.checkCommaPosition tokens grp pos := by
  unfold checkCommaPosition Prexel.checkCommaPosition
  split
  · rfl
  split
  · rfl
  split
  · rfl
  rcases grp with _ | ⟨_ | g, gs⟩
  · rfl
  · rfl
  · simp only
    split <;> rfl

theorem pushUnaryFunction_plain (ctx : Ctx N) (st : SY N) (token : Token N) (name : Str) :
    (pushUnaryFunction ctx st token name).plain = Prexel.pushUnaryFunction ctx st token name := by
  unfold pushUnaryFunction Prexel.pushUnaryFunction
  cases ctx.getUnary name with
  | none => rfl
  | some u =>
    simp only
    cases u.notation_ with
    | pre => rfl
    | post =>
      simp only
      split <;> rfl

theorem pushBinaryFunction_plain (ctx : Ctx N) (st : SY N) (token : Token N) (name : Str) :
    (pushBinaryFunction ctx st token name).plain = Prexel.pushBinaryFunction ctx st token name := by
  unfold pushBinaryFunction Prexel.pushBinaryFunction
  cases ctx.getBinary name <;> rfl

theorem pushGroupingClose_plain (ctx : Ctx N) (c : Char) (st : SY N) : (pushGroupingClose ctx c st).plain = Prexel.pushGroupingClose ctx c st := by
  unfold pushGroupingClose Prexel.pushGroupingClose
  cases popToOpen st.ops st.output with
  | none => rfl
  | some r =>
    obtain ⟨o, ops, output⟩ := r
    simp only
    cases ctx.config.getGroupSymbol o with
    | none => rfl
    | some g =>
      simp only
      split
      · rcases h : st.argc with _ | ⟨n, argc⟩
        · rfl
        · rcases ops with _ | ⟨t, ops⟩
          · rfl
          · cases t <;> rfl
      · rfl

theorem pushComma_plain (st : SY N) : (pushComma st).plain = Prexel.pushComma st := by
  unfold pushComma Prexel.pushComma
  cases st.argc with
  | nil => rfl
  | cons n argc =>
    simp only
    cases popUntilOpen st.ops st.output with
    | none => rfl
    | some r => rfl

theorem dispatch_plain (D : Debugs N) (ctx : Ctx N) (tokens : List (Token N)) (pos : Nat) (token : Token N) (next : Option (Token N)) (st : SY N) :
    (dispatch D ctx tokens pos token next st).plain = Prexel.dispatch ctx tokens pos token next st := by
  cases token with
  | binary name => exact pushBinaryFunction_plain ..
  | unary name => exact pushUnaryFunction_plain ..
  | function name =>
    simp only [dispatch, Prexel.dispatch]
    split <;> rfl
  | gclose c =>
    simp only [dispatch, Prexel.dispatch, plain_bind, pushGroupingClose_plain]
    congr 1
    funext st
    cases he : emptyGroup ctx tokens pos c with
    | none => rfl
    | some b =>
      cases b
      · rfl
      · have ho : ∃ o, ctx.config.getGroupOpenFor c = some o := by
          unfold emptyGroup at he
          split at he
          · split at he
            · cases he
            · split at he
              · exact ⟨_, by assumption⟩
              · cases he
            · cases he
          · cases he
        obtain ⟨o, ho⟩ := ho
        simp only [ho]
        rfl
  | comma =>
    simp only [dispatch, Prexel.dispatch, plain_bind, checkCommaPosition_plain, pushComma_plain]
  | _ => rfl

theorem syLoop_plain (D : Debugs N) (ctx : Ctx N) (tokens : List (Token N)) (pos : Nat) (rest : List (Token N)) (st : SY N) :
    (syLoop D ctx tokens pos rest st).plain = Prexel.syLoop ctx tokens pos rest st := by
  induction rest generalizing pos st with
  | nil => rfl
  | cons t rest ih => simp only [syLoop, Prexel.syLoop, syStep, Prexel.syStep, plain_bind, dispatch_plain, plain_ok, ih]

theorem flush_plain (ops output : List (Token N)) : (flush ops output).plain = Prexel.flush ops output := by
  induction ops generalizing output with
  | nil => rfl
  | cons t ops ih =>
    simp only [flush, Prexel.flush]
    split
    · rfl
    · exact ih _

theorem infixToRpn_plain (D : Debugs N) (ctx : Ctx N) (tokens : List (Token N)) : (infixToRpn D ctx tokens).plain = Prexel.infixToRpn ctx tokens := by
  simp only [infixToRpn, Prexel.infixToRpn, plain_bind, syLoop_plain, flush_plain]

theorem rpnStep_plain (D : Debugs N) (M : Inner N) (ctx : Ctx N) (tokens : List (Token N)) (t : Token N) (values : List N) (argc : Option Nat) :
    (rpnStep D M ctx tokens t values argc).plain = Prexel.rpnStep ctx t values argc := by
  cases t with
  | argCount n =>
    simp only [rpnStep, Prexel.rpnStep]
    split <;> rfl
  | unary name =>
    simp only [rpnStep, Prexel.rpnStep, plain_bind, plain_ofOption]
    congr 1
    funext f
    cases values with
    | nil => rfl
    | cons x vs => simp only [plain_bind, plain_ofRes, plain_ok]
  | binary name =>
    simp only [rpnStep, Prexel.rpnStep, plain_bind, plain_ofOption]
    congr 1
    funext f
    rcases values with _ | ⟨x, _ | ⟨y, vs⟩⟩
    · rfl
    · rfl
    · simp only [plain_bind, plain_ofRes, plain_ok]
  | _ => simp only [rpnStep, Prexel.rpnStep, plain_bind, plain_ofOption, plain_ofRes, plain_ok, plain_err, kind_new]

theorem rpnLoop_plain (D : Debugs N) (M : Inner N) (ctx : Ctx N) (tokens rpn : List (Token N)) (values : List N) (argc : Option Nat) :
    (rpnLoop D M ctx tokens rpn values argc).plain = Prexel.rpnLoop ctx rpn values argc := by
  induction rpn generalizing values argc with
  | nil => rfl
  | cons t rest ih => simp only [rpnLoop, Prexel.rpnLoop, plain_bind, rpnStep_plain, ih]

theorem rpnResult_plain (values : List N) : (rpnResult values).plain = Prexel.rpnResult values := by
  rcases values with _ | ⟨x, _ | ⟨y, vs⟩⟩ <;> rfl

theorem evalTokens_plain (D : Debugs N) (M : Inner N) (ctx : Ctx N) (tokens : List (Token N)) :
    (evalTokens D M ctx tokens).plain = Prexel.evalTokens ctx tokens := by
  simp only [evalTokens, Prexel.evalTokens, plain_bind, infixToRpn_plain, rpnLoop_plain, rpnResult_plain]

theorem operatorToken_plain (D : Debugs N) (parse : Str → Option N) (ctx : Ctx N) (prev : Option Str) (w : Str) (isLast : Bool) :
    (operatorToken D parse ctx prev w isLast).plain = Prexel.operatorToken parse ctx prev w isLast := by
  simp only [operatorToken, Prexel.operatorToken, plain_bind, plain_ofRes]
  congr 1
  funext u
  repeat' split
  all_goals rfl

theorem tokenizeLoop_plain (D : Debugs N) (parse : Str → Option N) (ctx : Ctx N) (prev : Option Str) (ws : List Str) :
    (tokenizeLoop D parse ctx prev ws).plain = Prexel.tokenizeLoop parse ctx prev ws := by
  generalize hn : ws.length = n
  induction n using Nat.strongRecOn generalizing ws prev with
  | _ n ih =>
    subst hn
    cases ws with
    | nil => unfold tokenizeLoop Prexel.tokenizeLoop; rfl
    | cons w rest =>
      have h := fun p => ih rest.length (by simp) (prev := p) (ws := rest) rfl
      unfold tokenizeLoop Prexel.tokenizeLoop
      cases parse w with
      | some n =>
        cases rest with
        | nil => rfl
        | cons w' rest' =>
          have h' := fun p => ih rest'.length (by simp; omega) (prev := p) (ws := rest') rfl
          simp only
          split
          · cases parse (w ++ w') with
            | none => rfl
            | some m => simp only [plain_bind, h', plain_ok]
          · simp only [plain_bind, h, plain_ok]
      | none =>
        simp only
        split
        · simp only [plain_bind, h, plain_ok]
        · split
          · simp only [plain_bind, h, plain_ok]
          · split
            · simp only [plain_bind, h, plain_ok]
            · split
              · simp only [plain_bind, operatorToken_plain, h, plain_ok]
              · cases otherToken ctx w with
                | none => exact h _
                | some t => simp only [plain_bind, h, plain_ok]

theorem tokenize_plain (D : Debugs N) (parse : Str → Option N) (splitter : Str → List Str) (ctx : Ctx N) (s : Str) :
    (tokenize D parse splitter ctx s).plain = Prexel.tokenize parse splitter ctx s := by
  unfold tokenize Prexel.tokenize
  split
  · rfl
  · exact tokenizeLoop_plain ..

theorem eval_plain (D : Debugs N) (M : Inner N) (parse : Str → Option N) (splitter : Str → List Str) (ctx : Ctx N) (s : Str) :
    (eval D M parse splitter ctx s).plain = Prexel.eval parse splitter ctx s := by
  simp only [eval, Prexel.eval, plain_bind, tokenize_plain, evalTokens_plain]

theorem checkTokenName_plain (kind name : Str) : (checkTokenName kind name).plain = Prexel.checkTokenName name := by
  unfold checkTokenName Prexel.checkTokenName
  repeat' split
  all_goals rfl

theorem debugCheck_plain (debug : Bool) (kind name : Str) : (debugCheck debug kind name).plain = Prexel.debugCheck debug name := by
  cases debug
  · rfl
  · exact checkTokenName_plain ..

theorem addAs_plain (same : Str → Str → Bool) (debug : Bool) (kind called : Str) (m : Map V) (f : Named V) (name : Str) :
    (addAs same debug kind called m f name).plain = (Prexel.addAs same debug m f name).1 := by
  unfold addAs Prexel.addAs
  rw [plain_bind, debugCheck_plain]
  cases Prexel.debugCheck debug name with
  | err k => rfl
  | panic => rfl
  | ok u =>
    simp only [Res.bind_ok]
    split
    · rfl
    · rw [plain_ofRes]
      obtain ⟨r, m'⟩ := insertAliases same f.fn f.aliases m
      cases r <;> rfl

theorem run_plain (K : Keys) (debug : Bool) (c : Context N) (o : Op N) : (run K debug c o).plain = (c.run K debug o).1 := by
  cases o with
  | addFunctionAs f name => simp only [run, Context.run, plain_bind, addAs_plain]; rfl
  | addUnaryFunctionAs f name => simp only [run, Context.run, plain_bind, addAs_plain]; rfl
  | addBinaryFunctionAs f name => simp only [run, Context.run, plain_bind, addAs_plain]; rfl
  | addConstant name v =>
    simp only [run, Context.run, plain_bind, debugCheck_plain]
    cases Prexel.debugCheck debug name with
    | err k => rfl
    | panic => rfl
    | ok u =>
      simp only [Res.bind_ok]
      split <;> rfl
  | setVariable name v =>
    simp only [run, Context.run, plain_bind, debugCheck_plain]
    cases Prexel.debugCheck debug name with
    | err k => rfl
    | panic => rfl
    | ok u =>
      simp only [Res.bind_ok]
      split <;> rfl

end Told

end Prexel
