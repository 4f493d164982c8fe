import Verif.Spec.Order
import Verif.Lemmas.Order
import Verif.Props.Listing
/-!
# C111: the order of the listings
-/

namespace Prexel
variable {N V D F T : Type}

/-! ## Registration -/

theorem keys_insert_exact {same : Str → Str → Bool} (m : Map V) (k : Str) (v : V) :
    Map.keys (Map.insert same m k v) = if Map.containsKey same m k then Map.keys m else Map.keys m ++ [k] := by
  unfold Map.insert
  split
  · simp only [Map.keys, List.map_map]
    refine List.map_congr_left fun e _ => ?_
    simp only [Function.comp]
    split <;> rfl
  · simp [Map.keys]

theorem insertAliases_keys {same : Str → Str → Bool} (v : V) (as : List Str) (m m' : Map V) (h : insertAliases same v as m = (.ok (), m')) :
    Map.keys m' = Map.keys m ++ as := by
  induction as generalizing m with
  | nil => simp only [insertAliases, Prod.mk.injEq, true_and] at h; simp [h]
  | cons a as ih =>
    unfold insertAliases at h
    split at h
    · cases h
    · rename_i hc
      rw [ih _ h, keys_insert_exact, if_neg hc]
      simp

theorem addAs_keys_exact {same : Str → Str → Bool} (debug : Bool) (m : Map V) (f : Named V) (name : Str)
    (h : (addAs same debug m f name).1 = .ok ()) :
    Map.keys (addAs same debug m f name).2 = Map.keys m ++ f.aliases ++ if f.aliases.any (same · name) then [] else [name] := by
  unfold addAs at h ⊢
  cases hd : debugCheck debug name with
  | err k => rw [hd] at h; cases h
  | panic => rw [hd] at h; cases h
  | ok u =>
    simp only [hd] at h ⊢
    split at h
    · cases h
    · rename_i hc
      rw [if_neg hc]
      cases hr : insertAliases same f.fn f.aliases m with
      | mk r m' =>
        rw [hr] at h
        cases r with
        | err k => cases h
        | panic => cases h
        | ok u =>
          have hk := insertAliases_keys _ _ _ _ hr
          simp only
          rw [keys_insert_exact, hk]
          have hcm : Map.containsKey same m' name = f.aliases.any (same · name) := by
            have : ∀ m : Map V, Map.containsKey same m name = (Map.keys m).any (same · name) := by
              intro m
              simp only [Map.containsKey, Map.get, Option.isSome_map, Map.keys, List.any_map]
              rw [Bool.eq_iff_iff]
              simp [List.find?_isSome]
            rw [this, hk, List.any_append, ← this m]
            simp only [Bool.not_eq_true] at hc
            simp [hc]
          rw [hcm]
          cases f.aliases.any (same · name) <;> simp

/-- C111. Registering a function puts its names behind all others: first the aliases, in their order, then the name (unless it is one of the
aliases). The same for operators; nothing is moved. -/
theorem C111_registration (K : Keys) (debug : Bool) (c c' : Context N) (name : Str) :
    (∀ f r, c.run K debug (.addFunctionAs f name) = (.ok r, c') →
      Map.keys c'.functions = Map.keys c.functions ++ f.aliases ++ (if f.aliases.any (K.same · name) then [] else [name]) ∧
      Map.keys c'.unary = Map.keys c.unary ∧ Map.keys c'.binary = Map.keys c.binary ∧ Map.keys c'.constants = Map.keys c.constants) ∧
    (∀ f r, c.run K debug (.addUnaryFunctionAs f name) = (.ok r, c') →
      Map.keys c'.unary = Map.keys c.unary ++ f.aliases ++ (if f.aliases.any (K.same · name) then [] else [name]) ∧
      Map.keys c'.functions = Map.keys c.functions ∧ Map.keys c'.binary = Map.keys c.binary ∧ Map.keys c'.constants = Map.keys c.constants) ∧
    (∀ f r, c.run K debug (.addBinaryFunctionAs f name) = (.ok r, c') →
      Map.keys c'.binary = Map.keys c.binary ++ f.aliases ++ (if f.aliases.any (K.same · name) then [] else [name]) ∧
      Map.keys c'.functions = Map.keys c.functions ∧ Map.keys c'.unary = Map.keys c.unary ∧ Map.keys c'.constants = Map.keys c.constants) ∧
    (∀ x r, c.run K debug (.addConstant name x) = (.ok r, c') →
      Map.keys c'.constants = (if (Map.keys c.constants).any (K.same · name) then Map.keys c.constants else Map.keys c.constants ++ [name]) ∧
      Map.keys c'.functions = Map.keys c.functions ∧ Map.keys c'.unary = Map.keys c.unary ∧ Map.keys c'.binary = Map.keys c.binary) := by
  have key : ∀ {W : Type} (m : Map W) (f : Named W) (r : Option N),
      ((addAs K.same debug m f name).1.map fun _ => (none : Option N)) = .ok r → (addAs K.same debug m f name).1 = .ok () := by
    intro W m f r h
    cases hr : (addAs K.same debug m f name).1 with
    | ok u => rfl
    | err k => rw [hr] at h; cases h
    | panic => rw [hr] at h; cases h
  refine ⟨?_, ?_, ?_, ?_⟩
  · intro f r h
    simp only [Context.run, Prod.mk.injEq] at h
    obtain ⟨h1, rfl⟩ := h
    exact ⟨addAs_keys_exact debug _ f name (key _ f r h1), rfl, rfl, rfl⟩
  · intro f r h
    simp only [Context.run, Prod.mk.injEq] at h
    obtain ⟨h1, rfl⟩ := h
    exact ⟨addAs_keys_exact debug _ f name (key _ f r h1), rfl, rfl, rfl⟩
  · intro f r h
    simp only [Context.run, Prod.mk.injEq] at h
    obtain ⟨h1, rfl⟩ := h
    exact ⟨addAs_keys_exact debug _ f name (key _ f r h1), rfl, rfl, rfl⟩
  · intro x r h
    simp only [Context.run] at h
    cases hd : debugCheck debug name with
    | err k => rw [hd] at h; cases h
    | panic => rw [hd] at h; cases h
    | ok u =>
      rw [hd] at h
      simp only at h
      split at h
      · cases h
      · simp only [Prod.mk.injEq] at h
        obtain ⟨-, rfl⟩ := h
        refine ⟨?_, rfl, rfl, rfl⟩
        rw [keys_insert_exact]
        have : Map.containsKey K.same c.constants name = (Map.keys c.constants).any (K.same · name) := by
          simp only [Map.containsKey, Map.get, Option.isSome_map, Map.keys, List.any_map]
          rw [Bool.eq_iff_iff]
          simp [List.find?_isSome]
        rw [this]

/-! ## The built-in contexts -/

theorem order_shows {c : Context N} {cs : List (Str × N)} {bs : List (Named (BinFn N))} {us : List (Named (UnFn N))} {fs : List (Named (Fn N))}
    (config : Config) (h : c = ⟨[], cs, entries fs, entries us, entries bs, config⟩) (shown : N → Str) {lf lo lc : List String}
    (hf : fs.flatMap Named.registered = lf.map str) (ho : bs.flatMap Named.registered ++ us.flatMap Named.registered = lo.map str)
    (hc : cs.map (·.1) = lc.map str) : (c.listing shown).Shows lf lo lc := by
  subst h
  refine ⟨?_, ?_, ?_⟩
  · simp [Context.listing, keys_entries, hf]
  · simp [Context.listing, keys_entries, ho]
  · simp [Context.listing, Function.comp_def, hc]

set_option maxRecDepth 10000 in
theorem decimal_shows (W : World D F T) {L : Listing} (hL : (W.dec.context W.K W.debug W.f Config.new).map (·.listing W.showDecimal) = .ok L) :
    L.Shows (functionsOf .decimal) (operatorsOf .decimal) (constantsOf .decimal) := by
  obtain ⟨c0, h0, rfl⟩ := Res.map_eq_ok hL
  have := (build_order W.K W.debug Config.new (decimal_tables W.dec W.f)).symm.trans h0
  exact order_shows _ (Res.ok.inj this).symm _ rfl rfl rfl

set_option maxRecDepth 10000 in
theorem integer_shows (W : World D F T) {L : Listing}
    (hL : (Context.checked W.K W.debug true W.f W.intNum Config.new).map (·.listing showInt) = .ok L) :
    L.Shows (functionsOf .integer) (operatorsOf .integer) (constantsOf .integer) := by
  obtain ⟨c0, h0, rfl⟩ := Res.map_eq_ok hL
  cases hpi : W.intNum.fromF64 W.f.pi with
  | none => simp [Context.checked, hpi] at h0
  | some pi =>
    cases he : W.intNum.fromF64 W.f.e with
    | none => simp [Context.checked, hpi, he] at h0
    | some e =>
      simp only [Context.checked, hpi, he] at h0
      have := (build_order W.K W.debug Config.new (checked_tables true W.f W.intNum pi e)).symm.trans h0
      exact order_shows _ (Res.ok.inj this).symm _ rfl rfl rfl

set_option maxRecDepth 10000 in
theorem float_shows (W : World D F T) {L : Listing}
    (hL : (Context.unchecked W.K W.debug W.f (W.f.num W.floatNum) Config.new).map (·.listing W.showFloat) = .ok L) :
    L.Shows (functionsOf .float) (operatorsOf .float) (constantsOf .float) := by
  obtain ⟨c0, h0, rfl⟩ := Res.map_eq_ok hL
  cases hpi : (W.f.num W.floatNum).fromF64 W.f.pi with
  | none => simp [Context.unchecked, hpi] at h0
  | some pi =>
    cases he : (W.f.num W.floatNum).fromF64 W.f.e with
    | none => simp [Context.unchecked, hpi, he] at h0
    | some e =>
      simp only [Context.unchecked, hpi, he] at h0
      have := (build_order W.K W.debug Config.new (unchecked_tables W.f (W.f.num W.floatNum) pi e)).symm.trans h0
      exact order_shows _ (Res.ok.inj this).symm _ rfl rfl rfl

set_option maxRecDepth 10000 in
theorem complex_shows (W : World D F T) {L : Listing} (hL : (W.cx.newContext W.K W.debug).map (·.listing W.showComplex) = .ok L) :
    L.Shows (functionsOf .complex) (operatorsOf .complex) (constantsOf .complex) := by
  obtain ⟨c0, h0, rfl⟩ := Res.map_eq_ok hL
  obtain ⟨pi, e, hpi, he, hv0⟩ := complex_inv h0
  simp only [Cx.newContext, Cx.context, hpi, he] at h0
  have := (build_order W.K W.debug _ (complex_tables W.cx _ _)).symm.trans h0
  exact order_shows _ (Res.ok.inj this).symm _ rfl rfl rfl

theorem binary_order (K : Keys) (debug : Bool) (config : Config) :
    Binary.context K debug config = .ok ⟨[], [], [], entries [Binary.not], entries (Binary.operators debug), config⟩ := by
  have hT := binary_tables debug
  have mem : ∀ {W : Type} {l : List (Named W)} (f : Named W), f ∈ l → f.name ∈ l.flatMap Named.names :=
    fun f hf => List.mem_flatMap.mpr ⟨f, hf, by simp [Named.names]⟩
  unfold Binary.context
  have h1 := runUnwrap_unary K debug (Context.withConfig config) [Binary.not] ((Binary.operators debug).map Op.addBinaryFunction)
  simp only [List.map_cons, List.map_nil, List.singleton_append] at h1
  rw [h1]
  simp only [Context.withConfig]
  rw [addAll_order K.equiv debug [Binary.not] [] (fun f hf => (hT.unary.1 _ (mem f hf)).1) (fresh_good K hT.unary)]
  simp only [Res.bind_ok]
  have h2 := runUnwrap_binary K debug (⟨[], [], [], entries [Binary.not], [], config⟩ : Context Binary) (Binary.operators debug) []
  simp only [List.append_nil] at h2
  refine h2.trans ?_
  rw [addAll_order K.equiv debug (Binary.operators debug) [] (fun f hf => (hT.binary.1 _ (mem f hf)).1) (fresh_good K hT.binary)]
  simp only [Res.bind_ok, List.nil_append]
  rfl

theorem binary_shows (W : World D F T) {L : Listing} (hL : (Binary.context W.K W.debug Config.new).map (·.listing Binary.display) = .ok L) :
    L.Shows (functionsOf .binary) (operatorsOf .binary) (constantsOf .binary) := by
  obtain ⟨c0, h0, rfl⟩ := Res.map_eq_ok hL
  have := (binary_order W.K W.debug Config.new).symm.trans h0
  exact order_shows (cs := []) (fs := []) _ (Res.ok.inj this).symm _ rfl rfl rfl

/-- C111. The `eval` program lists exactly these names, each once (operators that are binary and unary twice), in this order. -/
theorem C111_cli (W : World D F T) (t : NumberType) (L : Listing) (hL : W.cliListing t = .ok L) :
    L.Shows (functionsOf t) (operatorsOf t) (constantsOf t) := by
  cases t with
  | decimal => exact decimal_shows W hL
  | float => exact float_shows W hL
  | integer => exact integer_shows W hL
  | complex => exact complex_shows W hL
  | binary => exact binary_shows W hL

/-- C111. The server lists exactly these names in this order; for floats those of decimals. -/
theorem C111_server (W : World D F T) (t : Option NumberType) (L : Listing) (hL : W.serverListing t = .ok L) :
    let u := match t with | none => .decimal | some .float => .decimal | some t => t
    L.Shows (functionsOf u) (operatorsOf u) (constantsOf u) := by
  cases t with
  | none => exact decimal_shows W hL
  | some t => cases t with
    | decimal => exact decimal_shows W hL
    | float => exact decimal_shows W hL
    | integer => exact integer_shows W hL
    | complex => exact complex_shows W hL
    | binary => exact binary_shows W hL

/-- Listings exist. -/
example : ∃ L, (Demo.world true).cliListing .integer = .ok L ∧ L.functions.length = 42 := by
  refine ⟨_, rfl, ?_⟩
  decide +kernel

/-- Two functions with aliases. -/
example : Map.keys ((Context.withConfig Config.new : Context Nat).runAll Demo.keys true
    [.addFunction ⟨str "f", [str "g", str "h"], fun _ => .ok 0⟩, .addFunction ⟨str "a", [], fun _ => .ok 1⟩]).functions =
    [str "g", str "h", str "f", str "a"] := by decide +kernel

end Prexel
