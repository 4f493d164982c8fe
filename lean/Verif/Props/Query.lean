import Verif.Lemmas.Query
import Verif.Props.Json
import Verif.Props.Apps
/-!
# C150: what a query says
-/

namespace Prexel
open Json

/-- The bare result is asked for, or not. -/
theorem C150_only (q : Str) (b : Bool) : queryOnlyResult q = some b ↔ QuerySays q "only_result" (if b then "true" else "false") := by
  unfold queryOnlyResult QuerySays
  rw [query_param _ (by decide)]
  have hread : ∀ v : List ℕ, (if v = bytesOf "true" then some true else if v = bytesOf "false" then some false else none) = some b ↔
      v = bytesOf (if b then "true" else "false") := by
    intro v
    have : bytesOf "true" ≠ bytesOf "false" := by decide
    cases b
    · by_cases h : v = bytesOf "true"
      · rw [if_pos h]; simp [h, this]
      · rw [if_neg h]; by_cases h2 : v = bytesOf "false" <;> simp [h2]
    · by_cases h : v = bytesOf "true"
      · rw [if_pos h]; simp [h]
      · rw [if_neg h]; by_cases h2 : v = bytesOf "false"
        · simp [h2, Ne.symm this]
        · simp [h2, h]
  constructor
  · rintro ⟨x, part, y, v, hp, ha, hr, hn⟩
    exact ⟨x, part, y, hp, gives_iff.2 (by rw [ha, (hread v).1 hr]), hn⟩
  · rintro ⟨x, part, y, hp, ha, hn⟩
    exact ⟨x, part, y, _, hp, gives_iff.1 ha, (hread _).2 rfl, hn⟩

/-- The number type that is asked for. -/
theorem C150_type (q : Str) (t : NumberType) : queryType q = some t ↔ ∃ name, (Prexel.str name, t) ∈ Json.typeNames ∧ QuerySays q "type" name := by
  unfold queryType QuerySays
  rw [query_param _ (by decide)]
  have hread : ∀ v : List ℕ, (if v = bytesOf "decimal" then some NumberType.decimal else if v = bytesOf "float" then some .float
      else if v = bytesOf "complex" then some .complex else if v = bytesOf "integer" then some .integer else if v = bytesOf "binary" then some .binary
      else none) = some t ↔ ∃ name, (Prexel.str name, t) ∈ Json.typeNames ∧ v = bytesOf name := by
    intro v
    have inj : ∀ a b : String, Prexel.str a = Prexel.str b → a = b := fun a b h => String.toList_inj.1 h
    have hmem : ∀ name, (Prexel.str name, t) ∈ Json.typeNames ↔
        (name, t) ∈ [("decimal", NumberType.decimal), ("float", .float), ("integer", .integer), ("complex", .complex), ("binary", .binary)] := by
      intro name
      unfold Json.typeNames
      simp only [List.mem_cons, Prod.mk.injEq, List.not_mem_nil, or_false]
      constructor
      · rintro (h | h | h | h | h) <;> have := inj _ _ h.1 <;> subst this <;> simp [h.2]
      · rintro (h | h | h | h | h) <;> rw [h.1, h.2] <;> simp
    constructor
    · intro h
      split at h
      · cases h; exact ⟨"decimal", (hmem _).2 (by decide), by assumption⟩
      split at h
      · cases h; exact ⟨"float", (hmem _).2 (by decide), by assumption⟩
      split at h
      · cases h; exact ⟨"complex", (hmem _).2 (by decide), by assumption⟩
      split at h
      · cases h; exact ⟨"integer", (hmem _).2 (by decide), by assumption⟩
      split at h
      · cases h; exact ⟨"binary", (hmem _).2 (by decide), by assumption⟩
      · cases h
    · rintro ⟨name, h, rfl⟩
      rw [hmem] at h
      simp only [List.mem_cons, Prod.mk.injEq, List.not_mem_nil, or_false] at h
      rcases h with ⟨rfl, rfl⟩ | ⟨rfl, rfl⟩ | ⟨rfl, rfl⟩ | ⟨rfl, rfl⟩ | ⟨rfl, rfl⟩ <;> decide
  constructor
  · rintro ⟨x, part, y, v, hp, ha, hr, hn⟩
    obtain ⟨name, h1, rfl⟩ := (hread v).1 hr
    exact ⟨name, h1, x, part, y, hp, gives_iff.2 ha, hn⟩
  · rintro ⟨name, h1, x, part, y, hp, ha, hn⟩
    exact ⟨x, part, y, _, hp, gives_iff.1 ha, (hread _).2 ⟨name, h1, rfl⟩, hn⟩

/-- Whatever is written twice, or misspelt, or has another value, is as if it were not written. -/
theorem C150_otherwise (q : Str) :
    (¬ QuerySays q "only_result" "true" → queryOnlyResult q ≠ some true) ∧
    ((∀ name t, (Prexel.str name, t) ∈ Json.typeNames → ¬ QuerySays q "type" name) → queryType q = none) := by
  constructor
  · exact fun h h' => h ((C150_only q true).1 h')
  · intro h
    cases ht : queryType q with
    | none => rfl
    | some t => obtain ⟨name, h1, h2⟩ := (C150_type q t).1 ht; exact absurd h2 (h name t h1)

theorem isVariables_nodup {v : Json} {l : List (Str × Variable B64)} (h : IsVariables v l) : (l.map (·.1)).Nodup := by
  obtain ⟨ms, named, h1, h2, h3, h4, h5⟩ := h; exact h4

theorem optional_nodup {v : Json} {o : Option (List (Str × Variable B64))} (h : Optional IsVariables v o) : ((o.getD []).map (·.1)).Nodup := by
  rcases h with ⟨_, rfl⟩ | ⟨a, rfl, h⟩
  · exact List.nodup_nil
  · exact isVariables_nodup h

theorem asks_distinct {body : Str} {r : Request B64} (h : Asks body r) : r.Distinct := by
  obtain ⟨b, s, rest, v, _, _, _, h⟩ := h
  rcases h with ⟨ms, named, h1, h2, h3, h4, h5, h6⟩ | ⟨x, t, w, h1, h2, h3, h4⟩
  · rcases h6 with ⟨w, hw, h⟩ | ⟨hw, h⟩
    · exact optional_nodup h
    · show ((r.«variables».getD []).map (·.1)).Nodup
      rw [h]; exact List.nodup_nil
  · exact optional_nodup h4

theorem same_agrees {D T : Type} (W : World D B64 T) {r r' : Request B64} (h : r.Distinct) (hs : Same r' r) :
    (W.evalExpression r).Agrees (W.evalExpression r') := by
  obtain ⟨h1, h2, h3⟩ := hs
  refine C46_order_partial W r r' h h1 h2 ?_
  revert h3
  cases r.«variables» <;> cases r'.«variables» <;> intro h3 <;> cases h3
  · exact List.Perm.refl _
  · rename_i h; exact h.symm

/-- The answer is the bare text exactly if the query asks for it and the expression has a result, and the text is that result. -/
theorem C150_bare {D T : Type} (W : World D B64 T) (order : List (Str × Variable B64) → List (Str × Variable B64)) (horder : ∀ l, (order l).Perm l)
    (query body : Str) (status : ℕ) (text : Str) :
    W.post order query body = .body status text ↔
      status = 200 ∧ QuerySays query "only_result" "true" ∧ ∃ r, Asks body r ∧ W.Evaluates r text := by
  unfold World.post
  rw [← show _ ↔ QuerySays query "only_result" "true" from C150_only query true]
  by_cases hq : ∃ r, Asks body r
  · obtain ⟨r, h0⟩ := hq
    obtain ⟨r', hs, he⟩ := C147_understood W order horder (queryOnlyResult query) h0
    have hr' : Asks body r' := by
      obtain ⟨b, s, rest, v, h1, h2, h3, h4⟩ := h0
      exact ⟨b, s, rest, v, h1, h2, h3, isRequest_same h4 hs⟩
    have hd := asks_distinct hr'
    rw [he]
    constructor
    · intro h
      obtain ⟨h1, h2, r1, h3, h4⟩ := (C45_response W (some r') (fun _ h => by cases h; exact hd) (queryOnlyResult query)).2.1 _ _ h
      cases h3
      exact ⟨h1, h2, r', hr', h4⟩
    · rintro ⟨rfl, ho, r1, h1, h2⟩
      -- every request that the body asks for has the same result
      obtain ⟨r2, hs2, he2⟩ := C147_understood W order horder (queryOnlyResult query) h1
      rw [he] at he2
      rw [he2, ho]
      have hd1 := asks_distinct h1
      have ha := same_agrees W hd1 hs2
      rw [(C45_result_iff W r1 hd1 text).2 h2] at ha
      unfold World.evalEndpoint
      cases h : W.evalExpression r2 with
      | result x => rw [h] at ha; simp only [Answer.Agrees] at ha; cases ha; simp only [h]; rfl
      | error f => rw [h] at ha; simp [Answer.Agrees] at ha
      | panic => rw [h] at ha; simp [Answer.Agrees] at ha
  · rw [C147_refused W order _ body hq]
    constructor
    · intro h; cases h
    · rintro ⟨_, _, r, h, _⟩; exact absurd ⟨r, h⟩ hq

/-- The listing is that of the type the query says, and otherwise that of the decimals. -/
theorem C150_get {D F T : Type} (W : World D F T) (query : Str) :
    (∀ name t, (Prexel.str name, t) ∈ Json.typeNames → QuerySays query "type" name → W.get query = W.serverListing (some t)) ∧
    ((∀ name t, (Prexel.str name, t) ∈ Json.typeNames → ¬ QuerySays query "type" name) → W.get query = W.serverListing (some .decimal)) := by
  constructor
  · intro name t h1 h2
    rw [World.get, (C150_type query t).2 ⟨name, h1, h2⟩]
  · intro h
    rw [World.get, (C150_otherwise query).2 h]; rfl

/-! ## Queries -/

example : queryOnlyResult (Prexel.str "a=1&&only%5Fresult=tr%75e&b") = some true ∧ queryOnlyResult (Prexel.str "only_result=true&only_result=true") = none ∧
    queryOnlyResult (Prexel.str "only_result=1") = none ∧ queryOnlyResult (Prexel.str "Only_result=true") = none ∧
    queryOnlyResult (Prexel.str "only_result=false") = some false ∧ queryOnlyResult (Prexel.str "only_result") = none := by decide +kernel

example : queryType (Prexel.str "type=float") = some .float ∧ queryType (Prexel.str "type=floa%74&x=type") = some .float ∧
    queryType (Prexel.str "type=Float") = none ∧ queryType (Prexel.str "type=float+") = none := by decide +kernel

example : ∃ r, Asks (Prexel.str "[\"1+1\",null,null]") r ∧ Demo.server.Evaluates r (Prexel.str "2") ∧
    Demo.server.post id (Prexel.str "only_result=true") (Prexel.str "[\"1+1\",null,null]") = .body 200 (Prexel.str "2") := by
  have h : Demo.server.post id (Prexel.str "only_result=true") (Prexel.str "[\"1+1\",null,null]") = .body 200 (Prexel.str "2") := by decide +kernel
  obtain ⟨_, _, r, h1, h2⟩ := (C150_bare Demo.server id (fun l => List.Perm.refl l) _ _ _ _).1 h
  exact ⟨r, h1, h2, h⟩

end Prexel
