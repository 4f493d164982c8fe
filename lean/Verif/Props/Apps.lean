import Verif.Spec.Apps
import Verif.Examples.Apps
import Verif.Props.Session
/-!
# C45–C47, C78, C79: the server and the command line program
-/

namespace Prexel
variable {N D F T : Type}

/-! ## Setting the variables of a request -/

theorem isOk_setVariable (K : Keys) (debug : Bool) (c c' : Context N) (h : c'.constants = c.constants) (x : Str) (v w : N) :
    (c'.run K debug (.setVariable x v)).1.isOk = (c.run K debug (.setVariable x w)).1.isOk := by
  simp only [Context.run, h]
  cases debugCheck debug x with
  | ok u => simp only; split <;> rfl
  | err k => rfl
  | panic => rfl

theorem settable_congr {K : Keys} {debug : Bool} {c c' : Context N} (h : c'.constants = c.constants) {read : Str → Option N}
    {vs : List (Str × Str)} : Settable K debug c' read vs ↔ Settable K debug c read vs := by
  constructor
  · intro hs e he
    obtain ⟨v, hv, ho⟩ := hs e he
    exact ⟨v, hv, by rw [← isOk_setVariable K debug c c' h e.1 v v]; exact ho⟩
  · intro hs e he
    obtain ⟨v, hv, ho⟩ := hs e he
    exact ⟨v, hv, by rw [isOk_setVariable K debug c c' h e.1 v v]; exact ho⟩

/-- Setting the variables works exactly if each can be set, and then each has its value. -/
theorem setVariables_ok (K : Keys) (debug : Bool) (read : Str → Option N) (vs : List (Str × Str)) (hn : (vs.map (·.1)).Nodup) (c : Context N) :
    (Settable K debug c read vs ∧ ∃ c', setVariables K debug read c vs = .ok c' ∧ c'.view K = (c.view K).withVariables read vs) ∨
    (¬ Settable K debug c read vs ∧ ∃ e, setVariables K debug read c vs = .error (.error e)) := by
  induction vs generalizing c with
  | nil =>
    refine .inl ⟨fun e he => (by cases he), c, rfl, ?_⟩
    simp [Ctx.withVariables, boundTo]
  | cons e vs ih =>
    obtain ⟨x, t⟩ := e
    simp only [List.map_cons, List.nodup_cons] at hn
    cases hr : read t with
    | none =>
      refine .inr ⟨fun hs => ?_, .unreadable, by simp [setVariables, hr]⟩
      obtain ⟨v, hv, -⟩ := hs (x, t) (by simp)
      rw [hr] at hv; cases hv
    | some v =>
      rcases setVariable_cases K debug c x v with ⟨k, hk⟩ | ⟨old, ho⟩
      · refine .inr ⟨fun hs => ?_, .library k, by simp [setVariables, hr, hk]⟩
        obtain ⟨v', hv, ho⟩ := hs (x, t) (by simp)
        rw [hr] at hv; cases hv
        rw [hk] at ho; simp [Res.isOk] at ho
      · have hcons : Settable K debug c read ((x, t) :: vs) ↔ Settable K debug c read vs := by
          constructor
          · exact fun hs e he => hs e (by simp [he])
          · intro hs e he
            rcases List.mem_cons.mp he with rfl | he
            · exact ⟨v, hr, by rw [ho]; rfl⟩
            · exact hs e he
        have hstep : setVariables K debug read c ((x, t) :: vs) =
            setVariables K debug read { c with variables := Map.insert sameString c.variables x v } vs := by simp [setVariables, hr, ho]
        rw [hstep, hcons]
        have hcg : Settable K debug { c with variables := Map.insert sameString c.variables x v } read vs ↔ Settable K debug c read vs :=
          settable_congr (c := c) (c' := { c with variables := Map.insert sameString c.variables x v }) rfl
        rcases ih hn.2 { c with variables := Map.insert sameString c.variables x v } with ⟨hs, c', hc', hv'⟩ | ⟨hs, e, he⟩
        · refine .inl ⟨hcg.mp hs, c', hc', ?_⟩
          rw [hv']
          unfold Ctx.withVariables
          simp only [Context.view]
          congr 1
          funext y
          rw [Map.get_insert sameString_equiv]
          unfold boundTo
          rw [List.find?_cons]
          by_cases hxy : x = y
          · subst hxy
            have : vs.find? (fun e => e.1 == x) = none := by
              rw [List.find?_eq_none]
              intro e he hx
              simp only [beq_iff_eq] at hx
              exact hn.1 (List.mem_map.mpr ⟨e, he, hx⟩)
            simp [this, sameString, hr]
          · have h1 : (x == y) = false := by simp [hxy]
            simp [h1, sameString]
        · exact .inr ⟨fun h => hs (hcg.mpr h), e, he⟩

/-! ## C45 -/

theorem serve_result (b : Backend N) (K : Keys) (debug : Bool) (config : Config) (vs : List (Str × Str)) (hn : (vs.map (·.1)).Nodup)
    (expression text : Str) :
    b.serve K debug config vs expression = .result text ↔ b.Evaluates K debug config vs expression text := by
  unfold Backend.serve Backend.Evaluates
  cases hc : b.context config with
  | err k => simp
  | panic => simp
  | ok c =>
    rcases setVariables_ok K debug b.readVariable vs hn c with ⟨hs, c', hc', hv⟩ | ⟨hs, e, he⟩
    · simp only [hc', hv]
      cases heval : eval b.read (split b.rules) ((c.view K).withVariables b.readVariable vs) expression with
      | err k => simp [heval]
      | panic => simp [heval]
      | ok n => simp [heval, hs]
    · simp [he, hs]

/-- C45. The server answers a request with a result exactly if the library evaluates the expression with the variables of the request, and
then the result is what the value prints as. -/
theorem C45_result_iff (W : World D F T) (r : Request F) (h : r.Distinct) (text : Str) :
    W.evalExpression r = .result text ↔ W.Evaluates r text := by
  have hn : ((W.texts r).map (·.1)).Nodup := by
    have : (W.texts r).map (·.1) = (r.variables.getD []).map (·.1) := by simp [World.texts]
    rw [this]; exact h
  have ht : r.type.getD .decimal = r.numberType := by unfold Request.numberType; cases r.type <;> rfl
  unfold World.evalExpression World.Evaluates
  rw [ht]
  cases r.numberType <;> exact serve_result _ _ _ _ _ hn _ _

/-- C45. Every response of the `eval` endpoint carries a result or an error, never both and never neither: JSON with exactly one of the two
fields, or the bare result if only that was asked for. A body that is no request gets status 400 and an error, every other response has
status 200; a result is sent exactly if the library evaluates the request. -/
theorem C45_response (W : World D F T) (request : Option (Request F)) (h : ∀ r, request = some r → r.Distinct) (onlyResult : Option Bool) :
    (∀ status result error, W.evalEndpoint request onlyResult = .json status result error →
      (result.isSome = true ↔ error = none) ∧ (status = if request.isSome then 200 else 400) ∧
      (∀ text, result = some text ↔ ∃ r, request = some r ∧ W.Evaluates r text ∧ onlyResult ≠ some true)) ∧
    (∀ status text, W.evalEndpoint request onlyResult = .body status text →
      status = 200 ∧ onlyResult = some true ∧ ∃ r, request = some r ∧ W.Evaluates r text) ∧
    (∀ r text, request = some r → W.Evaluates r text →
      W.evalEndpoint request onlyResult = if onlyResult = some true then .body 200 text else .json 200 (some text) none) := by
  cases request with
  | none =>
    refine ⟨?_, ?_, ?_⟩
    · intro status result error he
      simp only [World.evalEndpoint, withError, Response.json.injEq] at he
      obtain ⟨rfl, rfl, rfl⟩ := he
      simp
    · intro status text he
      simp [World.evalEndpoint, withError] at he
    · intro r text he; cases he
  | some r =>
    have hr := fun text => C45_result_iff W r (h r rfl) text
    cases ha : W.evalExpression r with
    | result s =>
      have key : ∀ text, W.Evaluates r text ↔ text = s := by
        intro text; rw [← hr text, ha, Answer.result.injEq]; exact eq_comm
      cases onlyResult with
      | none => simp [World.evalEndpoint, ha, toResponse, key]; constructor <;> intros <;> simp_all [eq_comm]
      | some b => cases b <;> simp [World.evalEndpoint, ha, toResponse, key] <;> (try constructor) <;> intros <;> simp_all [eq_comm]
    | error e =>
      have key : ∀ text, ¬ W.Evaluates r text := by intro text; rw [← hr text, ha]; simp
      cases onlyResult with
      | none => simp [World.evalEndpoint, ha, toResponse, key]; intros; simp_all
      | some b => cases b <;> simp [World.evalEndpoint, ha, toResponse, key] <;> intros <;> simp_all
    | panic =>
      have key : ∀ text, ¬ W.Evaluates r text := by intro text; rw [← hr text, ha]; simp
      cases onlyResult with
      | none => simp [World.evalEndpoint, ha, toResponse, key]; intros; simp_all
      | some b => cases b <;> simp [World.evalEndpoint, ha, toResponse, key] <;> intros <;> simp_all

/-! ## C46 -/

theorem settable_perm {K : Keys} {debug : Bool} {c : Context N} {read : Str → Option N} {vs vs' : List (Str × Str)} (h : vs.Perm vs') :
    Settable K debug c read vs ↔ Settable K debug c read vs' :=
  ⟨fun hs e he => hs e (h.mem_iff.mpr he), fun hs e he => hs e (h.mem_iff.mp he)⟩

theorem find?_key {vs : List (Str × Str)} (hn : (vs.map (·.1)).Nodup) {e : Str × Str} (he : e ∈ vs) :
    vs.find? (fun a => a.1 == e.1) = some e := by
  induction vs with
  | nil => cases he
  | cons a vs ih =>
    simp only [List.map_cons, List.nodup_cons] at hn
    rw [List.find?_cons]
    rcases List.mem_cons.mp he with rfl | he
    · simp
    · have : (a.1 == e.1) = false := by
        simp only [beq_eq_false_iff_ne]
        intro hc
        exact hn.1 (List.mem_map.mpr ⟨e, he, hc.symm⟩)
      simp [this, ih hn.2 he]

theorem boundTo_perm (read : Str → Option N) {vs vs' : List (Str × Str)} (h : vs.Perm vs') (hn : (vs.map (·.1)).Nodup) :
    boundTo read vs = boundTo read vs' := by
  have hn' : (vs'.map (·.1)).Nodup := (h.map _).nodup_iff.mp hn
  funext x
  unfold boundTo
  congr 1
  cases hf : vs.find? (fun e => e.1 == x) with
  | some e =>
    have hx := List.find?_some hf
    simp only [beq_iff_eq] at hx
    subst hx
    exact (find?_key hn' (h.mem_iff.mp (List.mem_of_find?_eq_some hf))).symm
  | none =>
    symm
    rw [List.find?_eq_none] at hf ⊢
    exact fun e he => hf e (h.mem_iff.mpr he)

theorem serve_perm (b : Backend N) (K : Keys) (debug : Bool) (config : Config) {vs vs' : List (Str × Str)} (h : vs.Perm vs')
    (hn : (vs.map (·.1)).Nodup) (expression : Str) :
    (b.serve K debug config vs expression).Agrees (b.serve K debug config vs' expression) := by
  have hn' : (vs'.map (·.1)).Nodup := (h.map _).nodup_iff.mp hn
  unfold Backend.serve
  cases hc : b.context config with
  | err k => exact ⟨_, rfl⟩
  | panic => rfl
  | ok c =>
    simp only
    rcases setVariables_ok K debug b.readVariable vs hn c with ⟨hs, c1, hc1, hv1⟩ | ⟨hs, e, he⟩
    · rcases setVariables_ok K debug b.readVariable vs' hn' c with ⟨-, c2, hc2, hv2⟩ | ⟨hs', -⟩
      · have : c1.view K = c2.view K := by
          rw [hv1, hv2]; unfold Ctx.withVariables; rw [boundTo_perm _ h hn]
        simp only [hc1, hc2, this]
        cases eval b.read (split b.rules) (c2.view K) expression with
        | ok n => rfl
        | err k => exact ⟨_, rfl⟩
        | panic => rfl
      · exact absurd ((settable_perm h).mp hs) hs'
    · rcases setVariables_ok K debug b.readVariable vs' hn' c with ⟨hs', -⟩ | ⟨-, e', he'⟩
      · exact absurd ((settable_perm h).mpr hs') hs
      · simp only [he, he']
        exact ⟨_, rfl⟩

/-- C46 (partial: if several variables are refused, which of the errors is reported depends on the order). Whatever order the variables of a
request are stored in, the answer is the same result, or an error either way. -/
theorem C46_order_partial (W : World D F T) (r r' : Request F) (h : r.Distinct) (hexpr : r'.expression = r.expression) (htype : r'.type = r.type)
    (hvars : (r.variables.getD []).Perm (r'.variables.getD [])) : (W.evalExpression r).Agrees (W.evalExpression r') := by
  have hn : ((W.texts r).map (·.1)).Nodup := by
    have : (W.texts r).map (·.1) = (r.variables.getD []).map (·.1) := by simp [World.texts]
    rw [this]; exact h
  have hp : (W.texts r).Perm (W.texts r') := hvars.map _
  unfold World.evalExpression
  rw [htype, hexpr]
  cases r.type.getD .decimal <;> exact serve_perm _ _ _ _ hp hn _

/-! ## Requests of every kind, run -/

/-- A request. -/
def Demo.request (t : NumberType) (e : String) (vs : List (String × String)) : Request Int :=
  ⟨str e, some t, some (vs.map fun v => (str v.1, .text (str v.2)))⟩

/-- C46. Two refused variables: which error is reported depends on the order. -/
theorem C46_counterexample :
    (Demo.world true).evalExpression (Demo.request .integer "x + 1" [("x", "abc"), ("Pi", "1")]) = .error .unreadable ∧
    (Demo.world true).evalExpression (Demo.request .integer "x + 1" [("Pi", "1"), ("x", "abc")]) = .error (.library .unknown) := by
  decide +kernel

example : (Demo.world true).evalExpression (Demo.request .integer "2x + y" [("x", "20"), ("y", "2")]) = .result (str "42") := by
  decide +kernel
example : (Demo.world true).evalExpression (Demo.request .float "2x + y" [("x", "20"), ("y", "2")]) = .result (str "42") := by
  decide +kernel
example : (Demo.world true).evalExpression (Demo.request .binary "x or b11" [("x", "20")]) = .result (str "10111") := by
  decide +kernel
example : (Demo.world true).evalExpression (Demo.request .binary "x or b11" [("x", "b101")]) = .error .unreadable := by
  decide +kernel
example : (Demo.world true).evalExpression (Demo.request .binary "1 << 200" []) = .panic := by
  decide +kernel
example : (Demo.world true).evalExpression (Demo.request .complex "3i*(0-i)*x" [("x", "2")]) = .result (str "6") := by
  decide +kernel
end Prexel
