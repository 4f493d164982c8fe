import Verif.Props.Apps
import Verif.Props.Simulation
import Verif.Props.Decimal
import Verif.Props.Complex
/-!
# C79: the server and the command line program give the same answers
-/

namespace Prexel
variable {N D F T : Type}

theorem grouping_eval (cs : List (Str × N)) (bs : List (Named (BinFn N))) (us : List (Named (UnFn N))) (fs : List (Named (Fn N)))
    (config : Config) (g : List Grouping) (read : Str → Option N) (splitter : Str → List Str) (s : Str) :
    eval read splitter (tablesCtx { config with grouping := g } cs bs us fs) s = eval read splitter (tablesCtx config cs bs us fs) s :=
  (C30_grouping_set_ignored_partial read splitter (tablesCtx config cs bs us fs) g s []).2.2.2

/-- How an outcome of the library is answered. -/
def answerOf (shown : N → Str) : Res N → Answer
  | .ok n => .result (shown n)
  | .err k => .error (.library k)
  | .panic => .panic

/-- Without variables, a request is evaluated in the context as built. -/
theorem serve_nil (b : Backend N) (K : Keys) (debug : Bool) (config : Config) (c : Context N) (hc : b.context config = .ok c) (s : Str) :
    b.serve K debug config [] s = answerOf b.shown (eval b.read (split b.rules) (c.view K) s) := by
  simp only [Backend.serve, hc, setVariables]
  cases eval b.read (split b.rules) (c.view K) s <;> rfl

theorem cliConfig_eq : cliConfig = { serverConfig with grouping := [.parenthesis] } := by decide

theorem cliConfig_complex : cliConfig.withComplexNumber true = { serverConfig.withComplexNumber true with grouping := [.parenthesis] } := by decide

/-- What both programs answer if both build the same tables. -/
theorem serve_same (b : Backend N) (K : Keys) (debug : Bool) (c d : Context N) (hc : b.context cliConfig = .ok c)
    (hd : b.context serverConfig = .ok d)
    (h : ∀ s, eval b.read (split b.rules) (c.view K) s = eval b.read (split b.rules) (d.view K) s) (s : Str) :
    b.serve K debug cliConfig [] s = b.serve K debug serverConfig [] s := by
  rw [serve_nil b K debug _ c hc, serve_nil b K debug _ d hd, h]

theorem serve_fail (b : Backend N) (K : Keys) (debug : Bool) (config : Config) (vs : List (Str × Str)) (s : Str)
    (hc : b.context config = .panic) : b.serve K debug config vs s = .panic := by simp [Backend.serve, hc]

/-- C79. For decimal, integer, complex and binary numbers the command line program answers every expression as the server does for a request
without variables. -/
theorem C79_agree (W : World D F T) (t : NumberType) (ht : t ≠ .float) (s : Str) :
    W.cliEval t s = W.evalExpression ⟨s, some t, none⟩ := by
  cases t with
  | float => exact absurd rfl ht
  | decimal =>
    obtain ⟨c, hc, hv⟩ := decimal_build W.K W.debug W.dec W.f cliConfig
    obtain ⟨d, hd, hw⟩ := decimal_build W.K W.debug W.dec W.f serverConfig
    refine serve_same W.decimalBackend W.K W.debug c d hc hd (fun s => ?_) s
    rw [hv, hw, cliConfig_eq, grouping_eval]
  | complex =>
    cases hpi : W.cx.pi with
    | none =>
      have : ∀ config, W.complexBackend.context config = .panic := fun config => by simp [World.complexBackend, Cx.context, hpi]
      exact (serve_fail _ W.K W.debug _ [] s (this cliConfig)).trans (serve_fail _ W.K W.debug _ [] s (this serverConfig)).symm
    | some pi =>
      cases he : W.cx.e with
      | none =>
        have : ∀ config, W.complexBackend.context config = .panic := fun config => by simp [World.complexBackend, Cx.context, hpi, he]
        exact (serve_fail _ W.K W.debug _ [] s (this cliConfig)).trans (serve_fail _ W.K W.debug _ [] s (this serverConfig)).symm
      | some e =>
        obtain ⟨c, hc, hv⟩ := complex_build W.K W.debug W.cx (cliConfig.withComplexNumber true) pi e hpi he
        obtain ⟨d, hd, hw⟩ := complex_build W.K W.debug W.cx (serverConfig.withComplexNumber true) pi e hpi he
        refine serve_same W.complexBackend W.K W.debug c d hc hd (fun s => ?_) s
        rw [hv, hw]
        exact grouping_eval _ _ _ _ ((serverConfig.withComplexNumber true).withComplexNumber true) [.parenthesis] _ _ s
  | integer =>
    cases hpi : W.intNum.fromF64 W.f.pi with
    | none =>
      have : ∀ config, W.integerBackend.context config = .panic := fun config => by simp [World.integerBackend, Context.checked, hpi]
      exact (serve_fail _ W.K W.debug _ [] s (this cliConfig)).trans (serve_fail _ W.K W.debug _ [] s (this serverConfig)).symm
    | some pi =>
      cases he : W.intNum.fromF64 W.f.e with
      | none =>
        have : ∀ config, W.integerBackend.context config = .panic := fun config => by simp [World.integerBackend, Context.checked, hpi, he]
        exact (serve_fail _ W.K W.debug _ [] s (this cliConfig)).trans (serve_fail _ W.K W.debug _ [] s (this serverConfig)).symm
      | some e =>
        obtain ⟨c, hc, hv⟩ := checked_build W.K W.debug true W.f W.intNum cliConfig pi e hpi he
        obtain ⟨d, hd, hw⟩ := checked_build W.K W.debug true W.f W.intNum serverConfig pi e hpi he
        refine serve_same W.integerBackend W.K W.debug c d hc hd (fun s => ?_) s
        rw [hv, hw, cliConfig_eq, grouping_eval]
  | binary =>
    obtain ⟨c, hc, hv⟩ := binary_build W.K W.debug cliConfig
    obtain ⟨d, hd, hw⟩ := binary_build W.K W.debug serverConfig
    refine serve_same W.binaryBackend W.K W.debug c d hc hd (fun s => ?_) s
    rw [hv, hw, cliConfig_eq, grouping_eval]

/-- C79 (partial: for floats the server has functions the command line program lacks, see the counterexample). For floats the two answer
alike if the expression names none of the functions only the server has. -/
theorem C79_float_partial (W : World D F T) (h : ∀ n, 0 < n → W.f.isZero (W.floatNum.ofNat n) = false) (s : Str)
    (hs : ∀ w ∈ split defaultRules s, ∀ n ∈ onlyChecked true, ¬ CaseVariant n w) :
    W.cliEval .float s = W.evalExpression ⟨s, some .float, none⟩ := by
  obtain ⟨c, hc, hv⟩ := unchecked_build W.K W.debug W.f (W.f.num W.floatNum) cliConfig _ _ rfl rfl
  obtain ⟨c', hc', hv'⟩ := unchecked_build W.K W.debug W.f (W.f.num W.floatNum) serverConfig _ _ rfl rfl
  obtain ⟨d, hd, -⟩ := checked_build W.K W.debug true W.f (W.f.num W.floatNum) serverConfig _ _ rfl rfl
  refine (serve_nil W.cliFloatBackend W.K W.debug _ c hc s).trans (Eq.trans ?_ (serve_nil W.floatBackend W.K W.debug _ d hd s).symm)
  have key := C76_floats W.K W.debug true W.f W.floatNum h serverConfig d hd c' hc' [] (by intro o ho; cases ho) W.readFloat
    (split defaultRules) s hs
  simp only [Context.runAll] at key
  have hg : eval W.readFloat (split defaultRules) (c.view W.K) s = eval W.readFloat (split defaultRules) (c'.view W.K) s := by
    rw [hv, hv', cliConfig_eq, grouping_eval]
  show answerOf W.showFloat (eval W.readFloat (split defaultRules) (c.view W.K) s) =
    answerOf W.showFloat (eval W.readFloat (split defaultRules) (d.view W.K) s)
  rw [hg, key]

/-- C79. Floats: `abs(-3)` is 3 on the server and an error on the command line. -/
theorem C79_float_counterexample :
    (Demo.world true).evalExpression ⟨str "abs(-3)", some .float, none⟩ = .result (str "3") ∧
    (Demo.world true).cliEval .float (str "abs(-3)") = .error (.library .invalidInput) := by
  decide +kernel

example : (Demo.world true).cliEval .integer (str "2(3 + 4)") = .result (str "14") := by decide +kernel
example : (Demo.world true).cliEval .float (str "2(3 + 4)") = .result (str "14") := by decide +kernel

end Prexel
