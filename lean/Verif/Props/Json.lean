import Verif.Lemmas.JsonSent
import Verif.Props.ComplexDoubles
import Verif.Props.DecimalTexts
import Verif.Props.Apps
/-!
# C146, C147: the texts that the server reads and sends
-/

namespace Prexel.Json

theorem once_none {α : Type} {P : Json → Option α} {k : Str} {named : List (Str × Json)} {b : Option α} (h : Once P k none named b) :
    (named.filter fun m => decide (m.1 = k)).length ≤ 1 ∧
    ((b = none ∧ ∀ v, (k, v) ∉ named) ∨ ∃ v x, (k, v) ∈ named ∧ P v = some x ∧ b = some x) := by
  rcases h with ⟨h, rfl⟩ | ⟨-, v, x, h, hx, rfl⟩
  · refine ⟨by rw [h]; simp, .inl ⟨rfl, fun v hv => ?_⟩⟩
    have : (k, v) ∈ named.filter fun m => decide (m.1 = k) := by simp [hv]
    rw [h] at this; cases this
  · refine ⟨by rw [h]; simp, .inr ⟨v, x, ?_, hx, rfl⟩⟩
    have : (k, v) ∈ named.filter fun m => decide (m.1 = k) := by rw [h]; simp
    exact (List.mem_filter.1 this).1

theorem filter_single {k : Str} {named : List (Str × Json)} {v : Json} (h : (named.filter fun m => decide (m.1 = k)).length ≤ 1) (hv : (k, v) ∈ named) :
    named.filter (fun m => decide (m.1 = k)) = [(k, v)] := by
  have hm : (k, v) ∈ named.filter fun m => decide (m.1 = k) := by simp [hv]
  generalize named.filter (fun m => decide (m.1 = k)) = l at h hm ⊢
  match l, h with
  | [], _ => cases hm
  | [a], _ => simp only [List.mem_singleton] at hm; rw [hm]
  | _ :: _ :: _, h => simp at h

theorem once_mem {α : Type} {P : Json → Option α} {k : Str} {named : List (Str × Json)} {v : Json} {x : α}
    (h : (named.filter fun m => decide (m.1 = k)).length ≤ 1) (hv : (k, v) ∈ named) (hx : P v = some x) : Once P k none named (some x) :=
  .inr ⟨rfl, v, x, filter_single h hv, hx, rfl⟩

theorem once_not_mem {α : Type} {P : Json → Option α} {k : Str} {named : List (Str × Json)} (h : ∀ v, (k, v) ∉ named) : Once P k none named none := by
  refine .inl ⟨?_, rfl⟩
  rw [List.filter_eq_nil_iff]
  rintro ⟨a, v⟩ ha
  simp only [decide_eq_true_eq]
  rintro rfl
  exact h v ha

theorem request_some {v : Json} {r : Request B64} (h : request v = some r) : IsRequest v r := by
  unfold request at h
  split at h
  · rename_i ms
    split at h
    · rename_i f hf
      split at h
      · rename_i x hx
        cases h
        obtain ⟨named, hn, h1, h2, h3⟩ := (fields_iff ms _ f).1 hf
        obtain ⟨l1, h1⟩ := once_none h1
        obtain ⟨l2, h2⟩ := once_none h2
        obtain ⟨l3, h3⟩ := once_none h3
        refine .inl ⟨ms, named, rfl, hn, ?_, ?_, ?_, ?_⟩
        · intro k hk
          simp only [List.mem_cons, List.not_mem_nil, or_false] at hk
          rcases hk with rfl | rfl | rfl
          · exact l1
          · exact l2
          · exact l3
        · rcases h1 with ⟨h, _⟩ | ⟨w, y, hw, hy, e⟩
          · rw [h] at hx; cases hx
          · rw [hx] at e; cases e
            exact ⟨w, hw, text_iff.1 hy⟩
        · rcases h2 with ⟨h, hm⟩ | ⟨w, y, hw, hy, e⟩
          · exact .inr ⟨hm, by simp [h]⟩
          · exact .inl ⟨w, hw, by simp only [e, Option.join_some]; exact type_iff.1 hy⟩
        · rcases h3 with ⟨h, hm⟩ | ⟨w, y, hw, hy, e⟩
          · exact .inr ⟨hm, by simp [h]⟩
          · exact .inl ⟨w, hw, by simp only [e, Option.join_some]; exact vars_some hy⟩
      · cases h
    · cases h
  · rename_i x t w
    split at h
    · rename_i a b c ha hb hc
      cases h
      exact .inr ⟨x, t, w, rfl, text_iff.1 ha, type_iff.1 hb, vars_some hc⟩
    · cases h
  · cases h

theorem request_total {v : Json} {r : Request B64} (h : IsRequest v r) : ∃ r', request v = some r' ∧ Same r' r := by
  rcases h with ⟨ms, named, rfl, hn, hl, ⟨w, hw, he⟩, ht, hv⟩ | ⟨x, t, w, rfl, hx, ht, hw⟩
  · have l1 := hl (Prexel.str "expression") (by simp)
    have l2 := hl (Prexel.str "type") (by simp)
    have l3 := hl (Prexel.str "variables") (by simp)
    have h1 := once_mem (P := text) l1 hw (text_iff.2 he)
    obtain ⟨b2, h2, e2⟩ : ∃ b, Once type (Prexel.str "type") none named b ∧ b.join = r.type := by
      rcases ht with ⟨w, hw, ho⟩ | ⟨hm, e⟩
      · exact ⟨_, once_mem l2 hw (type_iff.2 ho), rfl⟩
      · exact ⟨_, once_not_mem hm, e.symm⟩
    obtain ⟨b3, h3, e3⟩ : ∃ b, Once vars (Prexel.str "variables") none named b ∧ Option.Rel List.Perm b.join r.«variables» := by
      rcases hv with ⟨w, hw, ho⟩ | ⟨hm, e⟩
      · obtain ⟨o', h1, h2⟩ := vars_total ho
        exact ⟨_, once_mem l3 hw h1, h2⟩
      · exact ⟨_, once_not_mem hm, by rw [e]; exact .none⟩
    have hf := (fields_iff ms ⟨none, none, none⟩ ⟨some r.expression, b2, b3⟩).2 ⟨named, hn, h1, h2, h3⟩
    refine ⟨⟨r.expression, b2.join, b3.join⟩, ?_, rfl, e2, e3⟩
    rw [request, hf]
  · obtain ⟨o', h1, h2⟩ := vars_total hw
    refine ⟨⟨r.expression, r.type, o'⟩, ?_, rfl, rfl, h2⟩
    rw [request, text_iff.2 hx, type_iff.2 ht, h1]

/-- A value that is a request is an array or an object. -/
theorem request_not_num {v : Json} {r : Request B64} (h : IsRequest v r) : ¬ ∃ t, v = .num t := by
  rcases h with ⟨ms, named, rfl, _⟩ | ⟨x, t, w, rfl, _⟩ <;> rintro ⟨t, h⟩ <;> cases h

end Json

open Json

theorem readBody_some {body : Str} {r : Request B64} (h : readBody body = some r) :
    ∃ b s rest v, body = b ++ s ++ rest ∧ Json.Blank b ∧ Writes s v ∧ IsRequest v r := by
  unfold readBody at h
  split at h
  · rename_i v t hv
    obtain ⟨b, hb, hs, -⟩ := skip_split body
    obtain ⟨w, hw, e⟩ := (read_only _).1 _ _ _ hv
    exact ⟨b, w, t, v, by rw [hs, e]; simp, hb, hw, request_some h⟩
  · cases h

theorem readBody_total {b s rest : Str} {v : Json} {r : Request B64} (hb : Json.Blank b) (hw : Writes s v) (hr : IsRequest v r) :
    ∃ r', readBody (b ++ s ++ rest) = some r' ∧ Same r' r := by
  obtain ⟨r', h1, h2⟩ := request_total hr
  refine ⟨r', ?_, h2⟩
  obtain ⟨c, t, e, hc⟩ := writes_head hw
  have hs : skip (b ++ s ++ rest) = s ++ rest := by
    rw [e]; simp only [List.append_assoc, List.cons_append]; exact skip_begins hb hc
  unfold readBody
  rw [hs, writes_read hw _ _ (by simp; omega) (fun h => absurd h (request_not_num hr))]
  exact h1

theorem isVariables_perm {v : Json} {l l' : List (Str × Variable B64)} (h : IsVariables v l) (hp : l.Perm l') : IsVariables v l' := by
  obtain ⟨ms, named, h1, h2, h3, h4, h5⟩ := h
  exact ⟨ms, named, h1, h2, h3, (hp.map _).nodup_iff.1 h4, fun k x => by rw [← hp.mem_iff]; exact h5 k x⟩

theorem optional_perm {v : Json} {o o' : Option (List (Str × Variable B64))} (h : Optional IsVariables v o) (hp : Option.Rel List.Perm o' o) :
    Optional IsVariables v o' := by
  rcases h with ⟨e, rfl⟩ | ⟨l, rfl, h⟩
  · cases hp; exact .inl ⟨e, rfl⟩
  · cases hp with
    | some hp => exact .inr ⟨_, rfl, isVariables_perm h hp.symm⟩

theorem isRequest_same {v : Json} {r r' : Request B64} (h : IsRequest v r) (hs : Same r' r) : IsRequest v r' := by
  obtain ⟨e1, e2, e3⟩ := hs
  rcases h with ⟨ms, named, h1, h2, h3, h4, h5, h6⟩ | ⟨x, t, w, h1, h2, h3, h4⟩
  · refine .inl ⟨ms, named, h1, h2, h3, by rwa [e1], by rwa [e2], ?_⟩
    rcases h6 with ⟨w, hw, h⟩ | ⟨hw, h⟩
    · exact .inl ⟨w, hw, optional_perm h e3⟩
    · refine .inr ⟨hw, ?_⟩
      rw [h] at e3; cases hr : r'.«variables» with
      | none => rfl
      | some l => rw [hr] at e3; cases e3
  · exact .inr ⟨x, t, w, h1, by rwa [e1], by rwa [e2], optional_perm h4 e3⟩

/-- The request with its variables in another order. -/
theorem same_order {order : List (Str × Variable B64) → List (Str × Variable B64)} (horder : ∀ l, (order l).Perm l) (r : Request B64) :
    Same { r with «variables» := r.«variables».map order } r := by
  refine ⟨rfl, rfl, ?_⟩
  show Option.Rel _ (r.«variables».map order) _
  cases r.«variables» with
  | none => exact .none
  | some l => exact .some (horder l)

theorem same_trans {a b c : Request B64} (h : Same a b) (h' : Same b c) : Same a c := by
  obtain ⟨h1, h2, h3⟩ := h
  obtain ⟨h1', h2', h3'⟩ := h'
  refine ⟨h1.trans h1', h2.trans h2', ?_⟩
  generalize a.«variables» = x at h3; generalize b.«variables» = y at h3 h3'; generalize c.«variables» = z at h3'
  cases h3 with
  | none => exact h3'
  | some h => cases h3' with | some h' => exact .some (h.trans h')

/-- C147. A body that begins with the JSON text of a request is answered as that request, however it is written: with any white space, any escapes and
the members in any order. -/
theorem C147_understood {D T : Type} (W : World D B64 T) (order : List (Str × Variable B64) → List (Str × Variable B64)) (horder : ∀ l, (order l).Perm l)
    (onlyResult : Option Bool) {body : Str} {r : Request B64} (h : Asks body r) :
    ∃ r', Same r' r ∧ W.serveBody order body onlyResult = W.evalEndpoint (some r') onlyResult := by
  obtain ⟨b, s, rest, v, rfl, hb, hw, hr⟩ := h
  obtain ⟨r', h1, h2⟩ := readBody_total (rest := rest) hb hw hr
  exact ⟨_, same_trans (same_order horder r') h2, by rw [World.serveBody, h1]; rfl⟩

/-- C147. Every other body is refused with the status 400. -/
theorem C147_refused {D T : Type} (W : World D B64 T) (order : List (Str × Variable B64) → List (Str × Variable B64))
    (onlyResult : Option Bool) (body : Str) (h : ¬ ∃ r, Asks body r) :
    W.serveBody order body onlyResult = .json 400 none (some .badRequest) := by
  cases hr : readBody body with
  | none => rw [World.serveBody, hr]; rfl
  | some r => exact absurd ⟨r, readBody_some hr⟩ h

/-! ## Answers -/

theorem Json.blank_nil : Json.Blank [] := fun _ h => absurd h (by simp)

theorem Json.text_read {s : Str} {v : Json} (h : IsText s v) : ∃ b, Json.Blank b ∧ value (s.length + 1) (skip s) = some (v, b) := by
  obtain ⟨b, t, b', hb, hw, hb', rfl⟩ := h
  obtain ⟨c, u, e, hc⟩ := writes_head hw
  refine ⟨b', hb', ?_⟩
  have hs : skip (b ++ t ++ b') = t ++ b' := by
    rw [e]; simp only [List.append_assoc, List.cons_append]; exact skip_begins hb hc
  rw [hs]
  refine writes_read hw _ _ (by simp; omega) fun _ => ?_
  intro c hc
  have : c ∈ b' := by cases b' <;> simp_all
  rcases hb' c this with rfl | rfl | rfl | rfl <;> decide

/-- A text is at most one value. -/
theorem Json.text_unique {s : Str} {v v' : Json} (h : IsText s v) (h' : IsText s v') : v = v' := by
  obtain ⟨t, -, h⟩ := text_read h
  obtain ⟨t', -, h'⟩ := text_read h'
  rw [h] at h'; cases h'; rfl

theorem Json.optional_unique {v : Json} {a b : Option Str} (h : Optional IsString v a) (h' : Optional IsString v b) : a = b := by
  rcases h with ⟨rfl, rfl⟩ | ⟨x, rfl, r, rfl, h⟩ <;> rcases h' with ⟨e, rfl⟩ | ⟨y, rfl, r', e, h'⟩ <;> try cases e
  · rfl
  · rw [spells_unique h h']

/-- C146. The body of an answer in JSON is a JSON text that says exactly the result and the message: it says them, and nothing else. -/
theorem C146_says (message : Failure → Str) (status code : ℕ) (result : Option Str) (error : Option Failure) (body : Str)
    (h : (Response.json status result error).sent message = some (code, body)) :
    code = status ∧ ∀ r e, Says body r e ↔ r = result ∧ e = error.map message := by
  simp only [Response.sent, Option.some.injEq, Prod.mk.injEq] at h
  obtain ⟨rfl, rfl⟩ := h
  refine ⟨rfl, ?_⟩
  obtain ⟨v, hv, ov⟩ := quotedOption_writes result
  obtain ⟨w, hw, ow⟩ := quotedOption_writes (error.map message)
  have key : Says (Prexel.str "{\"result\":" ++ Json.quotedOption result ++ Prexel.str ",\"error\":" ++ Json.quotedOption (error.map message) ++ Prexel.str "}")
      result (error.map message) := by
    refine ⟨[(Prexel.str "result", v), (Prexel.str "error", w)], v, w, ⟨[], _, [], blank_nil, .obj (.more (b := []) (b1 := []) (b2 := []) (b3 := [])
      blank_nil (plain_raw (s := Prexel.str "result") rfl) blank_nil blank_nil hv blank_nil
      (.one (b := []) (b1 := []) (b2 := []) (b3 := []) blank_nil (plain_raw (s := Prexel.str "error") (by decide)) blank_nil blank_nil hw blank_nil)),
      blank_nil, ?_⟩, .cons ⟨plain_spells (s := Prexel.str "result") (by decide), rfl⟩ (.cons ⟨plain_spells (s := Prexel.str "error") (by decide), rfl⟩ .nil), ov, ow⟩
    simp [Prexel.str]
  intro r e
  constructor
  · rintro ⟨ms, v1, w1, h1, h2, h3, h4⟩
    obtain ⟨ms', v2, w2, h1', h2', h3', h4'⟩ := key
    cases Json.text_unique h1 h1'
    cases Json.named_unique h2 h2'
    exact ⟨Json.optional_unique h3 h3', Json.optional_unique h4 h4'⟩
  · rintro ⟨rfl, rfl⟩; exact key

/-- C146. Whatever body is sent to the server: unless it panics, the answer to a request is the bare result (only if that was asked for), or JSON that
says the result and no error, or JSON that says the error and no result; everything that is no request gets JSON that says so. -/
theorem C146_answer {D T : Type} (W : World D B64 T) (order : List (Str × Variable B64) → List (Str × Variable B64)) (horder : ∀ l, (order l).Perm l)
    (message : Failure → Str) (request : Str) (onlyResult : Option Bool) :
    (∃ r, Asks request r ∧ W.evalExpression r = .panic ∧ (W.serveBody order request onlyResult).sent message = none) ∨
    ∃ status body, (W.serveBody order request onlyResult).sent message = some (status, body) ∧
      ((∃ r, Asks request r ∧ status = 200 ∧ onlyResult = some true ∧ W.evalExpression r = .result body) ∨
       (∃ r x, Asks request r ∧ status = 200 ∧ onlyResult ≠ some true ∧ W.evalExpression r = .result x ∧ Says body (some x) none) ∨
       (∃ r f, Asks request r ∧ status = 200 ∧ W.evalExpression r = .error f ∧ Says body none (some (message f))) ∨
       ((¬ ∃ r, Asks request r) ∧ status = 400 ∧ Says body none (some (message .badRequest)))) := by
  have hsay : ∀ status result error, ∃ body, (Response.json status result error).sent message = some (status, body) ∧
      Says body result (error.map message) := fun status result error =>
    ⟨_, rfl, ((C146_says message status status result error _ rfl).2 _ _).2 ⟨rfl, rfl⟩⟩
  by_cases hq : ∃ r, Asks request r
  · obtain ⟨r0, h0⟩ := hq
    obtain ⟨r, hs, he⟩ := C147_understood W order horder onlyResult h0
    have hr : Asks request r := by
      obtain ⟨b, s, rest, v, h1, h2, h3, h4⟩ := h0
      exact ⟨b, s, rest, v, h1, h2, h3, isRequest_same h4 hs⟩
    rw [he]
    unfold World.evalEndpoint
    simp only
    cases ha : W.evalExpression r with
    | panic => exact .inl ⟨r, hr, ha, by cases onlyResult with | none => rfl | some b => cases b <;> rfl⟩
    | error f =>
      obtain ⟨body, h1, h2⟩ := hsay 200 none (some f)
      refine .inr ⟨200, body, ?_, .inr (.inr (.inl ⟨r, f, hr, rfl, ha, h2⟩))⟩
      rw [← h1]; cases onlyResult with | none => rfl | some b => cases b <;> rfl
    | result x =>
      by_cases ho : onlyResult = some true
      · subst ho; exact .inr ⟨200, x, rfl, .inl ⟨r, hr, rfl, rfl, ha⟩⟩
      · obtain ⟨body, h1, h2⟩ := hsay 200 (some x) none
        refine .inr ⟨200, body, ?_, .inr (.inl ⟨r, x, hr, rfl, ho, ha, h2⟩)⟩
        rw [← h1]; cases onlyResult with | none => rfl | some b => cases b with | false => rfl | true => exact absurd rfl ho
  · obtain ⟨body, h1, h2⟩ := hsay 400 none (some .badRequest)
    exact .inr ⟨400, body, by rw [C147_refused W order onlyResult request hq, h1], .inr (.inr (.inr ⟨hq, rfl, h2⟩))⟩

/-! ## Requests, run -/

/-- Functions for the examples. -/
def Demo.libm : Libm :=
  ⟨fun x _ => x, id, id, id, id, id, id, id, id, id, fun x _ => x, id, id, id, id, id, id⟩

/-- All number types as they are, except the functions that are no arithmetic. -/
noncomputable def Demo.server : World D96 B64 B64 where
  K := Demo.keys
  debug := true
  f := B64.f64 Demo.libm (B64.zero false)
  floatNum := B64.num
  dec := D96.dec Demo.decimals
  cx := C64.cx Demo.complexLib
  toF64 x := B64.lit x.1
  fromF64 _ := none
  readDecimal := D96.fromStr Demo.decimals
  readFloat := B64.fromStr
  readComplex := C64.read
  showDecimal := D96.toStr
  showFloat := B64.toStr
  showComplex := C64.shown

/-- Messages for the examples. -/
def Demo.message : Failure → Str
  | .badRequest => Prexel.str "Invalid json"
  | _ => Prexel.str "\"?\""

/-- What the server sends. -/
noncomputable def Demo.ask (body : String) : Option (ℕ × Str) := (Demo.server.serveBody id (Prexel.str body) none).sent Demo.message

example : Demo.ask " {\"variables\" : {\"x\": \"2\", \"\\u0078\": \"2.50\"} , \"\\u0065xpression\":\"x * 2\"}" =
    some (200, Prexel.str "{\"result\":\"5.00\",\"error\":null}") := by decide +kernel
example : Demo.ask "[\"x + 1\", \"float\", {\"x\": 5e-1}]" = some (200, Prexel.str "{\"result\":\"1.5\",\"error\":null}") := by decide +kernel
example : Demo.ask "{\"expression\": \"1 +\"}" = some (200, Prexel.str "{\"result\":null,\"error\":\"\\\"?\\\"\"}") := by decide +kernel
example : Demo.ask "{\"expression\": 1}" = some (400, Prexel.str "{\"result\":null,\"error\":\"Invalid json\"}") := by decide +kernel
example : Demo.ask "{\"expression\": \"1\", \"expression\": \"1\"}" = some (400, Prexel.str "{\"result\":null,\"error\":\"Invalid json\"}") := by decide +kernel

/-- C147 fails in one way: a body need not be a JSON text to be answered, since what is behind the request is not looked at. -/
theorem C147_counterexample :
    Demo.ask "{\"expression\":\"1\"} x" = some (200, Prexel.str "{\"result\":\"1\",\"error\":null}") ∧ ¬ ∃ v, IsText (Prexel.str "{\"expression\":\"1\"} x") v := by
  refine ⟨by decide +kernel, ?_⟩
  rintro ⟨v, h⟩
  obtain ⟨b, hb, h⟩ := text_read h
  have key : (value ((Prexel.str "{\"expression\":\"1\"} x").length + 1) (skip (Prexel.str "{\"expression\":\"1\"} x"))).map (·.2) =
    some (Prexel.str " x") := by decide +kernel
  rw [h] at key
  simp only [Option.map_some, Option.some.injEq] at key
  subst key
  have := hb 'x' (by decide)
  revert this; decide

end Prexel
