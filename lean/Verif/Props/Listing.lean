import Verif.Lemmas.Listing
import Verif.Props.Builtin
import Verif.Props.Integer
import Verif.Props.Decimal
import Verif.Props.Complex
import Verif.Examples.Apps
/-!
# C47, C78: the listings of the server and of the command line program
-/

namespace Prexel
variable {N D F T : Type}

theorem Res.map_eq_ok {α β : Type} {f : α → β} {x : Res α} {y : β} (h : x.map f = .ok y) : ∃ a, x = .ok a ∧ f a = y := by
  cases x with
  | ok a => exact ⟨a, rfl, by simpa [Res.map] using h⟩
  | err k => simp [Res.map] at h
  | panic => simp [Res.map] at h

/-! ## The names of the tables can be written -/

/-- The names of the arithmetic operators. -/
def arithNames : List Str := ["+", "-", "*", "/", "^", "mod"].map str

theorem decimal_texts :
    TextsOK defaultRules [str "PI", str "E"] arithNames (["+", "-", "!"].map str) (decimalFunctionNames.map str) := by decide +kernel
theorem checked_texts :
    TextsOK defaultRules [str "PI", str "E"] arithNames (["+", "-", "!"].map str) ((checkedFunctionNames true).map str) := by decide +kernel
theorem unchecked_texts :
    TextsOK defaultRules [str "PI", str "E"] arithNames (["+", "-", "!"].map str) (uncheckedFunctionNames.map str) := by decide +kernel
theorem complex_texts :
    TextsOK defaultRules [str "PI", str "E", str "i"] (["+", "-", "*", "/", "mod", "^"].map str) (["+", "-"].map str)
      (complexFunctionNames.map str) := by decide +kernel
theorem binary_texts : TextsOK binaryRules [] (binaryOperatorNames.map str) (["~", "not"].map str) [] := by decide +kernel

/-- `!` is not the name of a binary operator. -/
theorem bang_names : ∀ n ∈ arithNames, hashInput (str "!") ≠ hashInput n := by decide

/-! ## Faithful listings, whatever the configuration -/

theorem decimal_listing (W : World D F T) (config : Config) (L : Listing)
    (hL : (W.dec.context W.K W.debug W.f Config.new).map (·.listing W.showDecimal) = .ok L) (hr : L.Readable W.readDecimal W.showDecimal) :
    ∃ c, W.decimalBackend.context config = .ok c ∧ Faithful L W.readDecimal defaultRules W.showDecimal (c.view W.K) := by
  obtain ⟨c0, h0, rfl⟩ := Res.map_eq_ok hL
  obtain ⟨c, hc, hv⟩ := decimal_build W.K W.debug W.dec W.f config
  refine ⟨c, hc, faithful defaultRules_good defaultRules_skips (decimal_tables W.dec W.f) (build_keys h0) (decimal_inv h0) hv ?_ ?_ hr⟩
  · rw [decimalFunctions_names]; exact decimal_texts
  · intro u hu hpo m hm n hn
    simp only [Dec.unaryOps, List.mem_cons, List.not_mem_nil, or_false] at hu
    rcases hu with rfl | rfl | rfl
    · simp [Ops.unaryPlus] at hpo
    · simp [Dec.negOp] at hpo
    · simp only [Dec.factorialOp, Named.names, List.mem_singleton] at hm
      subst hm; exact bang_names n hn

theorem bang_post {us : List (Named (UnFn N))} {f : F64 F} {num : Num N F} {neg : Named (UnFn N)} (hneg : neg.fn.notation_ = .pre)
    (hus : us = [Ops.unaryPlus, neg, Ops.factorial f num]) :
    ∀ u ∈ us, u.fn.notation_ = .post → ∀ m ∈ u.names, ∀ n ∈ arithNames, hashInput m ≠ hashInput n := by
  subst hus
  intro u hu hpo m hm n hn
  simp only [List.mem_cons, List.not_mem_nil, or_false] at hu
  rcases hu with rfl | rfl | rfl
  · simp [Ops.unaryPlus] at hpo
  · rw [hneg] at hpo; cases hpo
  · simp only [Ops.factorial, Named.names, List.mem_singleton] at hm
    subst hm; exact bang_names n hn

theorem checked_listing (K : Keys) (debug : Bool) (f : F64 F) (num : Num N F) (config : Config) (shown : N → Str) (read : Str → Option N)
    (L : Listing) (hL : (Context.checked K debug true f num Config.new).map (·.listing shown) = .ok L) (hr : L.Readable read shown) :
    ∃ c, Context.checked K debug true f num config = .ok c ∧ Faithful L read defaultRules shown (c.view K) := by
  obtain ⟨c0, h0, rfl⟩ := Res.map_eq_ok hL
  cases hpi : num.fromF64 f.pi with
  | none => simp [Context.checked, hpi] at h0
  | some pi =>
    cases he : num.fromF64 f.e with
    | none => simp [Context.checked, hpi, he] at h0
    | some e =>
      obtain ⟨c, hc, hv⟩ := checked_build K debug true f num config pi e hpi he
      obtain ⟨c1, hc1, hv1⟩ := checked_build K debug true f num Config.new pi e hpi he
      rw [h0] at hc1; cases hc1
      have hk := h0
      simp only [Context.checked, hpi, he] at hk
      refine ⟨c, hc, faithful defaultRules_good defaultRules_skips (checked_tables true f num pi e) (build_keys hk) hv1 hv ?_
        (bang_post (neg := Ops.checkedNeg num) rfl rfl) hr⟩
      rw [checkedFunctions_names]; exact checked_texts

theorem unchecked_listing (K : Keys) (debug : Bool) (f : F64 F) (num : Num N F) (config : Config) (shown : N → Str) (read : Str → Option N)
    (L : Listing) (hL : (Context.unchecked K debug f num Config.new).map (·.listing shown) = .ok L) (hr : L.Readable read shown) :
    ∃ c, Context.unchecked K debug f num config = .ok c ∧ Faithful L read defaultRules shown (c.view K) := by
  obtain ⟨c0, h0, rfl⟩ := Res.map_eq_ok hL
  cases hpi : num.fromF64 f.pi with
  | none => simp [Context.unchecked, hpi] at h0
  | some pi =>
    cases he : num.fromF64 f.e with
    | none => simp [Context.unchecked, hpi, he] at h0
    | some e =>
      obtain ⟨c, hc, hv⟩ := unchecked_build K debug f num config pi e hpi he
      obtain ⟨c1, hc1, hv1⟩ := unchecked_build K debug f num Config.new pi e hpi he
      rw [h0] at hc1; cases hc1
      have hk := h0
      simp only [Context.unchecked, hpi, he] at hk
      refine ⟨c, hc, faithful defaultRules_good defaultRules_skips (unchecked_tables f num pi e) (build_keys hk) hv1 hv ?_
        (bang_post (neg := Ops.uncheckedNeg num) rfl rfl) hr⟩
      rw [uncheckedFunctions_names]; exact unchecked_texts

theorem complex_listing (W : World D F T) (config : Config) (L : Listing)
    (hL : (W.cx.newContext W.K W.debug).map (·.listing W.showComplex) = .ok L) (hr : L.Readable W.readComplex W.showComplex) :
    ∃ c, W.complexBackend.context config = .ok c ∧ Faithful L W.readComplex defaultRules W.showComplex (c.view W.K) := by
  obtain ⟨c0, h0, rfl⟩ := Res.map_eq_ok hL
  obtain ⟨pi, e, hpi, he, hv0⟩ := complex_inv h0
  obtain ⟨c, hc, hv⟩ := complex_build W.K W.debug W.cx (config.withComplexNumber true) pi e hpi he
  have hk := h0
  simp only [Cx.newContext, Cx.context, hpi, he] at hk
  refine ⟨c, hc, faithful defaultRules_good defaultRules_skips (complex_tables W.cx _ _) (build_keys hk) hv0 hv ?_ ?_ hr⟩
  · rw [complexFunctions_names]; exact complex_texts
  · intro u hu hpo
    simp only [Cx.unaryOps, List.mem_cons, List.not_mem_nil, or_false] at hu
    rcases hu with rfl | rfl
    · simp [Ops.unaryPlus] at hpo
    · simp [Ops.uncheckedNeg] at hpo

theorem binary_keys {K : Keys} {debug : Bool} {config : Config} {c : Context Binary} (h : Binary.context K debug config = .ok c) :
    KeysIn K c [] (Binary.operators debug) [Binary.not] [] := by
  refine runUnwrap_keys ?_ ⟨?_, ?_, ?_, ?_, ?_⟩ h
  · intro o ho
    rcases List.mem_cons.mp ho with rfl | ho
    · exact .inr (.inr (.inl ⟨_, by simp, rfl⟩))
    · obtain ⟨f, hf, rfl⟩ := List.mem_map.mp ho
      exact .inr (.inl ⟨f, hf, rfl⟩)
  all_goals intro x hx; simp [Context.withConfig, Map.keys] at hx

theorem binary_listing (K : Keys) (debug : Bool) (config : Config) (L : Listing)
    (hL : (Binary.context K debug Config.new).map (·.listing Binary.display) = .ok L) :
    ∃ c, Binary.context K debug config = .ok c ∧ Faithful L Binary.parse binaryRules Binary.display (c.view K) := by
  obtain ⟨c0, h0, rfl⟩ := Res.map_eq_ok hL
  obtain ⟨c, hc, hv⟩ := binary_build K debug config
  obtain ⟨c1, hc1, hv1⟩ := binary_build K debug Config.new
  rw [h0] at hc1; cases hc1
  have hk := binary_keys h0
  refine ⟨c, hc, faithful binaryRules_good binaryRules_skips (binary_tables debug) hk hv1 hv ?_ ?_ ⟨by decide, ?_, ?_, ?_⟩⟩
  · rw [binaryOperators_names]; exact binary_texts
  · intro u hu hpo
    simp only [List.mem_singleton] at hu
    subst hu; simp [Binary.not] at hpo
  · intro n hn; exact absurd (hk.functions n hn) (by simp)
  · intro n hn
    have : n ∈ (Binary.operators debug).flatMap Named.names ++ [Binary.not].flatMap Named.names := by
      simp only [Context.listing, List.mem_append] at hn
      exact List.mem_append.mpr (hn.imp (hk.binary n) (hk.unary n))
    rw [binaryOperators_names] at this
    revert n
    intro n _ hn
    have key : ∀ n ∈ binaryOperatorNames.map str ++ [Binary.not].flatMap Named.names, Binary.parse n = none := by decide +kernel
    exact key n hn
  · intro e he
    obtain ⟨a, ha, rfl⟩ := List.mem_map.mp he
    exact absurd (hk.constants a.1 (List.mem_map.mpr ⟨a, ha, rfl⟩)) (by simp)

/-- No name of the checked context is an integer. -/
theorem integer_readable (W : World D F T) (L : Listing) (hL : (Context.checked W.K W.debug true W.f W.intNum Config.new).map (·.listing showInt) = .ok L) :
    L.Readable (SInt.parse i128) showInt := by
  obtain ⟨c0, h0, rfl⟩ := Res.map_eq_ok hL
  have hk : ∃ pi e, KeysIn W.K c0 [(str "PI", pi), (str "E", e)] (Ops.checkedBinary W.f W.intNum) (Ops.checkedUnary W.f W.intNum)
      (Ops.checkedFunctions true W.f W.intNum) := by
    cases hpi : W.intNum.fromF64 W.f.pi with
    | none => simp [Context.checked, hpi] at h0
    | some pi =>
      cases he : W.intNum.fromF64 W.f.e with
      | none => simp [Context.checked, hpi, he] at h0
      | some e =>
        simp only [Context.checked, hpi, he] at h0
        exact ⟨pi, e, build_keys h0⟩
  obtain ⟨pi, e, hk⟩ := hk
  refine ⟨by decide +kernel, ?_, ?_, ?_⟩
  · intro n hn
    have := hk.functions n hn
    rw [checkedFunctions_names] at this
    have key : ∀ n ∈ (checkedFunctionNames true).map str, SInt.parse i128 n = none := by decide +kernel
    exact key n this
  · intro n hn
    simp only [Context.listing, List.mem_append] at hn
    have key : ∀ n ∈ arithNames ++ ["+", "-", "!"].map str, SInt.parse i128 n = none := by decide +kernel
    exact key n (List.mem_append.mpr (hn.imp (hk.binary n) (hk.unary n)))
  · intro a ha x hx
    obtain ⟨b, hb, rfl⟩ := List.mem_map.mp ha
    have key : ∀ n ∈ [str "PI", str "E"], SInt.parse i128 n = none := by decide +kernel
    rw [key b.1 (hk.constants b.1 (List.mem_map.mpr ⟨b, hb, rfl⟩))] at hx
    cases hx

/-! ## C47 -/

/-- C47, decimals. -/
theorem C47_decimal_partial (W : World D F T) (t : Option NumberType) (ht : t = none ∨ t = some .decimal) (L : Listing)
    (hL : W.serverListing t = .ok L) (hr : L.Readable W.readDecimal W.showDecimal) :
    ∃ c, W.decimalBackend.context serverConfig = .ok c ∧ Faithful L W.readDecimal defaultRules W.showDecimal (c.view W.K) := by
  rcases ht with rfl | rfl <;> exact decimal_listing W serverConfig L hL hr

/-- C47, complex numbers. -/
theorem C47_complex_partial (W : World D F T) (L : Listing) (hL : W.serverListing (some .complex) = .ok L)
    (hr : L.Readable W.readComplex W.showComplex) :
    ∃ c, W.complexBackend.context serverConfig = .ok c ∧ Faithful L W.readComplex defaultRules W.showComplex (c.view W.K) :=
  complex_listing W serverConfig L hL hr

/-- C47, integers. -/
theorem C47_integer_partial (W : World D F T) (L : Listing) (hL : W.serverListing (some .integer) = .ok L) :
    ∃ c, W.integerBackend.context serverConfig = .ok c ∧ Faithful L (SInt.parse i128) defaultRules showInt (c.view W.K) :=
  checked_listing W.K W.debug W.f W.intNum serverConfig showInt (SInt.parse i128) L hL (integer_readable W L hL)

/-- C47, binary numbers. -/
theorem C47_binary_partial (W : World D F T) (L : Listing) (hL : W.serverListing (some .binary) = .ok L) :
    ∃ c, W.binaryBackend.context serverConfig = .ok c ∧ Faithful L Binary.parse binaryRules Binary.display (c.view W.K) :=
  binary_listing W.K W.debug serverConfig L hL

/-- C47 fails for floats: the server lists the decimal functions. A listed name (`cbrt`) cannot be called with floats, and the
text `abs`, which stands for a function, is not listed. -/
theorem C47_float_counterexample (W : World D F T) (L : Listing) (hL : W.serverListing (some .float) = .ok L)
    (c : Context F) (hc : W.floatBackend.context serverConfig = .ok c) (habs : W.readFloat (str "abs") = none) :
    (∃ n ∈ L.functions, CaseVariant n (str "cbrt") ∧ (c.view W.K).getFunction n = none ∧
      ∀ s ts, tokenize W.readFloat (split defaultRules) (c.view W.K) s = .ok ts → .function n ∉ ts) ∧
    (tokenize W.readFloat (split defaultRules) (c.view W.K) (str "abs") = .ok [.function (str "abs")] ∧
      ∀ n ∈ L.functions, ¬ CaseVariant n (str "abs")) ∧
    ¬ Faithful L W.readFloat defaultRules W.showFloat (c.view W.K) := by
  obtain ⟨c0, h0, rfl⟩ := Res.map_eq_ok hL
  have hk : KeysIn W.K c0 _ _ _ _ := build_keys h0
  have hv0 := decimal_inv h0
  have hc' : Context.checked W.K W.debug true W.f (W.f.num W.floatNum) serverConfig = .ok c := hc
  obtain ⟨pi, e, hv⟩ := checked_inv hc'
  have hnames : ∀ n ∈ (c0.listing W.showDecimal).functions, n ∈ decimalFunctionNames.map str := by
    intro n hn
    have := hk.functions n hn
    rwa [decimalFunctions_names] at this
  have h1 : ∃ n ∈ (c0.listing W.showDecimal).functions, CaseVariant n (str "cbrt") ∧ (c.view W.K).getFunction n = none := by
    have hne : Map.get W.K.same c0.functions (str "cbrt") ≠ none := by
      have : (c0.view W.K).getFunction (str "cbrt") ≠ none := by
        rw [hv0]
        have hl : (lookup hashSame (W.dec.functions W.f) (str "cbrt")).isSome = true := by
          rw [lookup_isSome, decimalFunctions_names]
          exact ⟨str "cbrt", by decide, by decide⟩
        intro hn
        rw [show (tablesCtx Config.new _ _ _ (W.dec.functions W.f)).getFunction (str "cbrt") = lookup hashSame (W.dec.functions W.f) (str "cbrt") from rfl] at hn
        rw [hn] at hl; cases hl
      exact this
    obtain ⟨a, ha, hcv⟩ := caseVariant_key (decimal_tables W.dec W.f).functions hk.functions hne
    refine ⟨a.1, List.mem_map.mpr ⟨a, ha, rfl⟩, hcv, ?_⟩
    rw [hv]
    refine lookup_not ?_
    rw [checkedFunctions_names]
    have key : ∀ m ∈ (checkedFunctionNames true).map str, hashInput m ≠ hashInput (str "cbrt") := by decide +kernel
    intro m hm hma
    exact key m hm (hma.trans hcv)
  have h2 : tokenize W.readFloat (split defaultRules) (c.view W.K) (str "abs") = .ok [.function (str "abs")] := by
    have hs : split defaultRules (str "abs") = [str "abs"] := by decide
    have hw : (str "abs").all isWhitespace = false := by decide
    have hc0 : (c.view W.K).getConstant (str "abs") = none := by
      rw [hv]
      exact lookupConstant_not (cs := [(str "PI", pi), (str "E", e)]) (k := str "abs")
        (show ∀ m ∈ [str "PI", str "E"], hashInput m ≠ hashInput (str "abs") by decide)
    have hf0 : ((c.view W.K).getFunction (str "abs")).isSome = true := by
      rw [hv]
      have hl : (lookup hashSame (Ops.checkedFunctions true W.f (W.f.num W.floatNum)) (str "abs")).isSome = true := by
        rw [lookup_isSome, checkedFunctions_names]
        exact ⟨str "abs", by decide, by decide⟩
      exact hl
    have hgv : (c.view W.K).getVariable (str "abs") = none := by rw [hv]; rfl
    simp only [tokenize, hs, hw, tokenizeLoop, habs, Ctx.isVariable, Ctx.isConstant, Ctx.isFunction, hgv, hc0, hf0]
    rfl
  have h3 : ∀ n ∈ (c0.listing W.showDecimal).functions, ¬ CaseVariant n (str "abs") := by
    intro n hn
    have key : ∀ n ∈ decimalFunctionNames.map str, ¬ CaseVariant n (str "abs") := by decide +kernel
    exact key n (hnames n hn)
  obtain ⟨n, hn, hcv, hg⟩ := h1
  refine ⟨⟨n, hn, hcv, hg, ?_⟩, ⟨h2, h3⟩, ?_⟩
  · intro s ts hts hmem
    obtain ⟨w, hw, -, -, -, hne⟩ := tokenize_standsFor defaultRules_good defaultRules_skips hts hmem
    subst hw; exact hne hg
  · intro hF
    obtain ⟨m, hm, hmv⟩ := hF.allFunctions _ _ (str "abs") h2 (by simp)
    exact h3 m hm hmv

/-! ## C78 -/

/-- C78, decimals. -/
theorem C78_decimal (W : World D F T) (L : Listing) (hL : W.cliListing .decimal = .ok L) (hr : L.Readable W.readDecimal W.showDecimal) :
    ∃ c, W.decimalBackend.context cliConfig = .ok c ∧ Faithful L W.readDecimal defaultRules W.showDecimal (c.view W.K) :=
  decimal_listing W cliConfig L hL hr

/-- C78, floats. -/
theorem C78_float (W : World D F T) (L : Listing) (hL : W.cliListing .float = .ok L) (hr : L.Readable W.readFloat W.showFloat) :
    ∃ c, W.cliFloatBackend.context cliConfig = .ok c ∧ Faithful L W.readFloat defaultRules W.showFloat (c.view W.K) :=
  unchecked_listing W.K W.debug W.f (W.f.num W.floatNum) cliConfig W.showFloat W.readFloat L hL hr

/-- C78, complex numbers. -/
theorem C78_complex (W : World D F T) (L : Listing) (hL : W.cliListing .complex = .ok L) (hr : L.Readable W.readComplex W.showComplex) :
    ∃ c, W.complexBackend.context cliConfig = .ok c ∧ Faithful L W.readComplex defaultRules W.showComplex (c.view W.K) :=
  complex_listing W cliConfig L hL hr

/-- C78, integers. -/
theorem C78_integer (W : World D F T) (L : Listing) (hL : W.cliListing .integer = .ok L) :
    ∃ c, W.integerBackend.context cliConfig = .ok c ∧ Faithful L (SInt.parse i128) defaultRules showInt (c.view W.K) :=
  checked_listing W.K W.debug W.f W.intNum cliConfig showInt (SInt.parse i128) L hL (integer_readable W L hL)

/-- C78, binary numbers. -/
theorem C78_binary (W : World D F T) (L : Listing) (hL : W.cliListing .binary = .ok L) :
    ∃ c, W.binaryBackend.context cliConfig = .ok c ∧ Faithful L Binary.parse binaryRules Binary.display (c.view W.K) :=
  binary_listing W.K W.debug cliConfig L hL

/-! ## The hypotheses are met -/

/-- A listing is readable if no name of the tables is a number. -/
theorem readable_of_names {K : Keys} {c : Context N} {cs : List (Str × N)} {bs : List (Named (BinFn N))} {us : List (Named (UnFn N))}
    {fs : List (Named (Fn N))} (hk : KeysIn K c cs bs us fs) {read : Str → Option N} {shown : N → Str} (h0 : (read ['0']).isSome = true)
    (hn : ∀ n ∈ cs.map (·.1) ++ (bs.flatMap Named.names ++ (us.flatMap Named.names ++ fs.flatMap Named.names)), read n = none) :
    (c.listing shown).Readable read shown := by
  refine ⟨h0, fun n h => hn n ?_, fun n h => hn n ?_, fun e he x hx => ?_⟩
  · have := hk.functions n h
    simp only [List.mem_append]; exact .inr (.inr (.inr this))
  · simp only [Context.listing, List.mem_append] at h ⊢
    rcases h with h | h
    · exact .inr (.inl (hk.binary n h))
    · exact .inr (.inr (.inl (hk.unary n h)))
  · obtain ⟨a, ha, rfl⟩ := List.mem_map.mp he
    rw [hn a.1 (List.mem_append_left _ (hk.constants a.1 (List.mem_map.mpr ⟨a, ha, rfl⟩)))] at hx
    cases hx

/-- The listings exist, and those of decimals and floats are readable, in the world of the examples. -/
example (debug : Bool) : ∃ L, (Demo.world debug).serverListing none = .ok L ∧
    L.Readable (Demo.world debug).readDecimal (Demo.world debug).showDecimal := by
  obtain ⟨c, hc, -⟩ := decimal_build Demo.keys debug Demo.dec Demo.float Config.new
  refine ⟨c.listing (Demo.world debug).showDecimal, ?_, readable_of_names (build_keys hc) ?_ ?_⟩
  · show (Dec.context Demo.dec Demo.keys debug Demo.float Config.new).map _ = _
    rw [hc]; rfl
  · show ((Demo.readInt ['0']).bind fun x => Demo.ofRat? x).isSome = true
    decide +kernel
  · rw [decimalFunctions_names]
    have key : ∀ n ∈ [str "PI", str "E"] ++ (arithNames ++ (["+", "-", "!"].map str ++ decimalFunctionNames.map str)),
        Demo.readInt n = none := by decide +kernel
    intro n hn
    show (Demo.readInt n).bind _ = none
    rw [key n hn]; rfl

example (debug : Bool) : ∃ L, (Demo.world debug).cliListing .float = .ok L ∧
    L.Readable (Demo.world debug).readFloat (Demo.world debug).showFloat := by
  obtain ⟨c, hc, -⟩ := unchecked_build Demo.keys debug Demo.float (Demo.float.num Demo.floatNum) Config.new 3 2 rfl rfl
  have hk := hc
  simp only [Context.unchecked, show (Demo.float.num Demo.floatNum).fromF64 Demo.float.pi = some 3 from rfl,
    show (Demo.float.num Demo.floatNum).fromF64 Demo.float.e = some 2 from rfl] at hk
  refine ⟨c.listing (Demo.world debug).showFloat, ?_, readable_of_names (build_keys hk) ?_ ?_⟩
  · show (Context.unchecked Demo.keys debug Demo.float (Demo.float.num Demo.floatNum) Config.new).map _ = _
    rw [hc]; rfl
  · show (Demo.readInt ['0']).isSome = true
    decide +kernel
  · rw [uncheckedFunctions_names]
    have key : ∀ n ∈ [str "PI", str "E"] ++ (arithNames ++ (["+", "-", "!"].map str ++ uncheckedFunctionNames.map str)),
        Demo.readInt n = none := by decide +kernel
    exact key

example : ((Demo.world true).serverListing (some .integer)).isOk = true ∧ ((Demo.world true).serverListing (some .binary)).isOk = true ∧
    ((Demo.world true).serverListing (some .complex)).isOk = true ∧ ((Demo.world true).serverListing (some .float)).isOk = true := by
  decide +kernel

end Prexel
