import Verif.Model.Info
import Verif.Lemmas.Listing
/-!
# Lemmas about aliases and descriptions
-/

namespace Prexel
variable {N V D F T : Type} {same : Str → Str → Bool}

/-! ## Keeping functions whole changes nothing for evaluation -/

theorem behaviour_get (m : Map (Entry V)) (k : Str) : Map.get same m.behaviour k = (Map.get same m k).map Entry.fn := by
  simp only [Map.get, Map.behaviour, List.find?_map, Option.map_map]
  rfl

theorem behaviour_containsKey (m : Map (Entry V)) (k : Str) : Map.containsKey same m.behaviour k = Map.containsKey same m k := by
  simp [Map.containsKey, behaviour_get]

theorem behaviour_insert (m : Map (Entry V)) (k : Str) (v : Entry V) :
    (Map.insert same m k v).behaviour = Map.insert same m.behaviour k v.fn := by
  unfold Map.insert
  rw [behaviour_containsKey]
  split
  · simp only [Map.behaviour, List.map_map, List.map_inj_left, Function.comp]
    intro e _
    split <;> rfl
  · simp [Map.behaviour]

theorem behaviour_insertAliases (v : Entry V) (as : List Str) (m : Map (Entry V)) :
    (insertAliases same v as m).1 = (insertAliases same v.fn as m.behaviour).1 ∧
    (insertAliases same v as m).2.behaviour = (insertAliases same v.fn as m.behaviour).2 := by
  induction as generalizing m with
  | nil => exact ⟨rfl, rfl⟩
  | cons a as ih =>
    unfold insertAliases
    rw [behaviour_containsKey]
    split
    · exact ⟨rfl, rfl⟩
    · rw [← behaviour_insert]
      exact ih _

theorem behaviour_addAs (debug : Bool) (m : Map (Entry V)) (f : Named V) (d : Option Str) (name : Str) :
    (addAs same debug m (f.entry d) name).1 = (addAs same debug m.behaviour f name).1 ∧
    (addAs same debug m (f.entry d) name).2.behaviour = (addAs same debug m.behaviour f name).2 := by
  unfold addAs
  cases debugCheck debug name with
  | err k => exact ⟨rfl, rfl⟩
  | panic => exact ⟨rfl, rfl⟩
  | ok u =>
    simp only [behaviour_containsKey]
    split
    · exact ⟨rfl, rfl⟩
    · obtain ⟨h1, h2⟩ := behaviour_insertAliases (same := same) (f.entry d).fn f.aliases m
      have e1 : (f.entry d).fn.fn = f.fn := rfl
      have e2 : (f.entry d).aliases = f.aliases := rfl
      rw [e1] at h1 h2
      rw [e2]
      cases hi : insertAliases same (f.entry d).fn f.aliases m with
      | mk r m' =>
        cases hj : insertAliases same f.fn f.aliases m.behaviour with
        | mk r' m'' =>
          rw [hi, hj] at h1 h2
          simp only at h1 h2
          subst h1
          cases r with
          | ok u => exact ⟨rfl, by simp only [behaviour_insert, h2, e1]⟩
          | err k => exact ⟨rfl, h2⟩
          | panic => exact ⟨rfl, h2⟩

theorem addConstant_only (K : Keys) (debug : Bool) (c : Context N) (name : Str) (v : N) :
    (c.run K debug (.addConstant name v)).2 = { c with constants := (c.run K debug (.addConstant name v)).2.constants } := by
  simp only [Context.run]
  cases hd : debugCheck debug name with
  | err k => simp
  | panic => simp
  | ok u => cases (Map.keys c.variables).any (fun k => eqIgnoreCase K.L k name) <;> simp

theorem setVariable_only (K : Keys) (debug : Bool) (c : Context N) (name : Str) (v : N) :
    (c.run K debug (.setVariable name v)).2 = { c with variables := (c.run K debug (.setVariable name v)).2.variables } := by
  simp only [Context.run]
  cases hd : debugCheck debug name with
  | err k => simp
  | panic => simp
  | ok u => cases (Map.keys c.constants).any (fun k => eqIgnoreCase K.L k name) <;> simp

theorem run_plain (K : Keys) (debug : Bool) (c : Documented N) (d : Option Str) (o : Op N) :
    (c.run K debug d o).1 = (c.plain.run K debug o).1 ∧ (c.run K debug d o).2.plain = (c.plain.run K debug o).2 := by
  cases o with
  | addFunctionAs f name =>
    obtain ⟨h1, h2⟩ := behaviour_addAs (same := K.same) debug c.functions f d name
    simp only [Documented.run, Context.run, Documented.plain, h1, h2, and_self]
  | addUnaryFunctionAs f name =>
    obtain ⟨h1, h2⟩ := behaviour_addAs (same := K.same) debug c.unary f d name
    simp only [Documented.run, Context.run, Documented.plain, h1, h2, and_self]
  | addBinaryFunctionAs f name =>
    obtain ⟨h1, h2⟩ := behaviour_addAs (same := K.same) debug c.binary f d name
    simp only [Documented.run, Context.run, Documented.plain, h1, h2, and_self]
  | addConstant name v => exact ⟨rfl, (addConstant_only K debug c.plain name v).symm⟩
  | setVariable name v => exact ⟨rfl, (setVariable_only K debug c.plain name v).symm⟩

theorem runAll_plain (K : Keys) (debug : Bool) (c : Documented N) (os : List (Op N × Option Str)) :
    (c.runAll K debug os).plain = c.plain.runAll K debug (os.map (·.1)) := by
  induction os generalizing c with
  | nil => rfl
  | cons o os ih =>
    simp only [Documented.runAll, List.map_cons, Context.runAll]
    rw [ih, (run_plain K debug c o.2 o.1).2]

theorem runUnwrap_plain (K : Keys) (debug : Bool) (c : Documented N) (os : List (Op N × Option Str)) :
    (c.runUnwrap K debug os).map Documented.plain = c.plain.runUnwrap K debug (os.map (·.1)) := by
  induction os generalizing c with
  | nil => rfl
  | cons o os ih =>
    simp only [Documented.runUnwrap, List.map_cons, Context.runUnwrap]
    obtain ⟨h1, h2⟩ := run_plain K debug c o.2 o.1
    cases hr : c.run K debug o.2 o.1 with
    | mk r c1 =>
      cases hr' : c.plain.run K debug o.1 with
      | mk r' c1' =>
        rw [hr, hr'] at h1 h2
        simp only at h1 h2
        subst h1 h2
        cases r with
        | ok u => exact ih c1
        | err k => rfl
        | panic => rfl

theorem on_ops (t : Descriptions) (os : List (Op N)) : (t.on os).map (·.1) = os := by
  simp [Descriptions.on, Function.comp_def]

/-! ## What the map knows about its functions -/

/-- Aliases point at the function that declares them, names at the functions they were registered for. -/
structure Sound (same : Str → Str → Bool) (P : Str → Entry V → Prop) (m : Map (Entry V)) : Prop where
  values : ∀ e ∈ m, Map.get same m e.1 = some e.2
  aliases : ∀ e ∈ m, ∀ a ∈ e.2.aliases, Map.get same m a = some e.2
  origin : ∀ e ∈ m, P e.1 e.2

theorem get_mem {m : Map V} {k : Str} {v : V} (h : Map.get same m k = some v) : ∃ e ∈ m, e.2 = v ∧ same e.1 k = true := by
  unfold Map.get at h
  rw [Option.map_eq_some_iff] at h
  obtain ⟨e, he, rfl⟩ := h
  exact ⟨e, List.mem_of_find?_eq_some he, rfl, by simpa using List.find?_some he⟩

theorem values_insertAliases (hs : Equiv same) (v : V) (as : List Str) {m : Map V} (h : ∀ e ∈ m, Map.get same m e.1 = some e.2) :
    ∀ e ∈ (insertAliases same v as m).2, Map.get same (insertAliases same v as m).2 e.1 = some e.2 := by
  induction as generalizing m with
  | nil => exact h
  | cons a as ih =>
    unfold insertAliases
    split
    · exact h
    · exact ih (values_insert hs h a v)

theorem values_addAs (hs : Equiv same) (debug : Bool) (f : Named V) (name : Str) {m : Map V} (h : ∀ e ∈ m, Map.get same m e.1 = some e.2) :
    ∀ e ∈ (addAs same debug m f name).2, Map.get same (addAs same debug m f name).2 e.1 = some e.2 := by
  unfold addAs
  split
  · exact h
  · exact h
  · split
    · exact h
    · have := values_insertAliases hs f.fn f.aliases h
      split
      · rename_i m' he
        rw [he] at this
        exact values_insert hs this _ _
      · rename_i r m' _ he
        rw [he] at this
        exact this

theorem mem_insert {m : Map V} {k : Str} {v : V} {e : Str × V} (he : e ∈ Map.insert same m k v) :
    e ∈ m ∨ (e.2 = v ∧ (e.1 = k ∨ e.1 ∈ Map.keys m ∧ same e.1 k = true)) := by
  unfold Map.insert at he
  split at he
  · obtain ⟨a, ha, rfl⟩ := List.mem_map.mp he
    split
    · rename_i hak
      exact .inr ⟨rfl, .inr ⟨List.mem_map.mpr ⟨a, ha, rfl⟩, hak⟩⟩
    · exact .inl ha
  · rcases List.mem_append.mp he with he | he
    · exact .inl he
    · obtain rfl := List.mem_singleton.mp he
      exact .inr ⟨rfl, .inl rfl⟩

theorem mem_insertAliases {v : V} {as : List Str} {m : Map V} {e : Str × V} (he : e ∈ (insertAliases same v as m).2) :
    e ∈ m ∨ (e.2 = v ∧ e.1 ∈ as) := by
  induction as generalizing m with
  | nil => exact .inl he
  | cons a as ih =>
    unfold insertAliases at he
    split at he
    · exact .inl he
    · rename_i hc
      rcases ih he with h | ⟨h1, h2⟩
      · unfold Map.insert at h
        rw [if_neg hc] at h
        rcases List.mem_append.mp h with h | h
        · exact .inl h
        · obtain rfl := List.mem_singleton.mp h
          exact .inr ⟨rfl, by simp⟩
      · exact .inr ⟨h1, by simp [h2]⟩

theorem mem_addAs {debug : Bool} {m : Map V} {f : Named V} {name : Str} {e : Str × V} (he : e ∈ (addAs same debug m f name).2) :
    e ∈ m ∨ (e.2 = f.fn ∧ e.1 ∈ name :: f.aliases) := by
  unfold addAs at he
  split at he
  · exact .inl he
  · exact .inl he
  · split at he
    · exact .inl he
    · rename_i hd hc
      have hin : ∀ {e : Str × V} (r : Res Unit) (m' : Map V), insertAliases same f.fn f.aliases m = (r, m') → e ∈ m' →
          e ∈ m ∨ (e.2 = f.fn ∧ e.1 ∈ name :: f.aliases) := by
        intro e r m' hi he
        have := mem_insertAliases (same := same) (v := f.fn) (as := f.aliases) (m := m) (e := e) (by rw [hi]; exact he)
        exact this.imp_right fun h => ⟨h.1, by simp [h.2]⟩
      split at he
      · rename_i m' hi
        rcases mem_insert he with h | ⟨h1, h2⟩
        · exact hin _ _ hi h
        · rcases h2 with h2 | ⟨h2, h3⟩
          · exact .inr ⟨h1, by simp [h2]⟩
          · obtain ⟨e', he', h4⟩ := List.mem_map.mp h2
            rcases hin _ _ hi he' with h5 | h5
            · exfalso
              apply hc
              simp only [Map.containsKey, Map.get, Option.isSome_map, List.find?_isSome]
              exact ⟨e', h5, by rw [h4]; exact h3⟩
            · exact .inr ⟨h1, by rw [← h4]; exact h5.2⟩
      · rename_i r m' _ hi
        exact hin _ _ hi he

theorem sound_addAs (hs : Equiv same) {P P' : Str → Entry V → Prop} {m : Map (Entry V)} (h : Sound same P m) (hP : ∀ k e, P k e → P' k e)
    (debug : Bool) (f : Named V) (d : Option Str) (name : Str) (hnp : (addAs same debug m (f.entry d) name).1 ≠ .panic)
    (hf : (addAs same debug m (f.entry d) name).1 = .ok () → ∀ k ∈ name :: f.aliases, P' k ⟨f.fn, f.aliases, d⟩) :
    Sound same P' (addAs same debug m (f.entry d) name).2 := by
  cases hr : (addAs same debug m (f.entry d) name).1 with
  | panic => exact absurd hr hnp
  | err k =>
    rw [addAs_err debug m _ name k hr]
    exact ⟨h.values, h.aliases, fun e he => hP _ _ (h.origin e he)⟩
  | ok u =>
    cases u
    have hok := addAs_ok hs debug m (f.entry d) name hr
    refine ⟨values_addAs hs debug _ name h.values, fun e he a ha => ?_, fun e he => ?_⟩
    · rcases mem_addAs he with h1 | ⟨h1, h2⟩
      · exact addAs_keeps hs debug m _ name a e.2 (h.aliases e h1 a ha)
      · rw [hok a, if_pos, h1]
        rw [h1] at ha
        rw [List.any_eq_true]
        exact ⟨a, List.mem_cons_of_mem _ ha, hs.refl a⟩
    · rcases mem_addAs he with h1 | ⟨h1, h2⟩
      · exact hP _ _ (h.origin e h1)
      · rw [h1]
        exact hf hr _ h2

/-! ## The listings -/

/-- The names of a listing. -/
def Infos.listing (I : Infos) : Listing := ⟨I.functions.map (·.name), I.operators.map (·.name), I.constants⟩

theorem infos_names (m : Map (Entry V)) : m.infos.map (·.name) = Map.keys m := by simp [Map.infos, Map.keys, Function.comp_def]

theorem behaviour_keys (m : Map (Entry V)) : Map.keys m.behaviour = Map.keys m := by simp [Map.behaviour, Map.keys, Function.comp_def]

theorem infos_listing (c : Documented N) (shown : N → Str) : (c.infos shown).listing = c.plain.listing shown := by
  simp only [Infos.listing, Documented.infos, Context.listing, Documented.plain, Documented.functionInfos, Documented.operatorInfos, List.map_append,
    infos_names, behaviour_keys]

theorem res_map_listing (r : Res (Documented N)) (r' : Res (Context N)) (h : r.map Documented.plain = r') (shown : N → Str) :
    (r.map (·.infos shown)).map Infos.listing = r'.map (·.listing shown) := by
  subst h
  cases r with
  | ok c => simp [Res.map, infos_listing]
  | err k => rfl
  | panic => rfl

theorem checked_plain (K : Keys) (debug docs : Bool) (f : F64 F) (num : Num N F) (config : Config) :
    (Documented.checked K debug docs f num config).map Documented.plain = Context.checked K debug docs f num config := by
  unfold Documented.checked Context.checked
  cases num.fromF64 f.pi with
  | none => rfl
  | some pi =>
    cases num.fromF64 f.e with
    | none => rfl
    | some e => simp only [runUnwrap_plain, on_ops]; rfl

theorem unchecked_plain (K : Keys) (debug docs : Bool) (f : F64 F) (num : Num N F) (config : Config) :
    (Documented.unchecked K debug docs f num config).map Documented.plain = Context.unchecked K debug f num config := by
  unfold Documented.unchecked Context.unchecked
  cases num.fromF64 f.pi with
  | none => rfl
  | some pi =>
    cases num.fromF64 f.e with
    | none => rfl
    | some e => simp only [runUnwrap_plain, on_ops]; rfl

theorem decimal_plain (d : Dec D F) (K : Keys) (debug docs : Bool) (f : F64 F) (config : Config) :
    (Documented.decimal d K debug docs f config).map Documented.plain = d.context K debug f config := by
  unfold Documented.decimal Dec.context
  rw [runUnwrap_plain, on_ops]; rfl

theorem complex_plain (k : Cx T) (K : Keys) (debug docs : Bool) :
    (Documented.complex k K debug docs).map Documented.plain = k.newContext K debug := by
  unfold Documented.complex Cx.newContext Cx.context
  cases k.pi with
  | none => rfl
  | some pi =>
    cases k.e with
    | none => rfl
    | some e => simp only [runUnwrap_plain, on_ops]; rfl

theorem binary_plain (K : Keys) (debug : Bool) (config : Config) :
    (Documented.binary_ K debug config).map Documented.plain = Binary.context K debug config := by
  unfold Documented.binary_ Binary.context
  rw [runUnwrap_plain, on_ops]; rfl

theorem cliInfos_listing (W : World D F T) (t : NumberType) : (W.cliInfos t).map Infos.listing = W.cliListing t := by
  cases t with
  | decimal => exact res_map_listing _ _ (decimal_plain ..) _
  | float => exact res_map_listing _ _ (unchecked_plain ..) _
  | integer => exact res_map_listing _ _ (checked_plain ..) _
  | complex => exact res_map_listing _ _ (complex_plain ..) _
  | binary => exact res_map_listing _ _ (binary_plain ..) _

theorem serverInfos_listing (W : World D F T) (t : Option NumberType) : (W.serverInfos t).map Infos.listing = W.serverListing t := by
  unfold World.serverInfos World.serverListing
  cases t.getD .decimal with
  | decimal => exact res_map_listing _ _ (decimal_plain ..) _
  | float => exact res_map_listing _ _ (decimal_plain ..) _
  | integer => exact res_map_listing _ _ (checked_plain ..) _
  | complex => exact res_map_listing _ _ (complex_plain ..) _
  | binary => exact res_map_listing _ _ (binary_plain ..) _

end Prexel
