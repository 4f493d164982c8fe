import Verif.Lemmas.Builtin
import Verif.Spec.Tables
/-!
# Properties of the built-in contexts (C31, C57)
-/

set_option linter.unusedVariables false
set_option linter.unusedSimpArgs false

namespace Prexel
variable {N F : Type}

/-! ## C31: construction -/

/-- The names of the functions of the checked context. With the feature `docs` two of them are different. -/
def checkedFunctionNames (docs : Bool) : List String :=
  ["sum", "product", "avg", "max", "min", "abs", "sqrt", "ln", "log", "exp", "floor", "ceil", if docs then "trunc" else "truncate", "round",
   if docs then "signum" else "sign", "random", "to_radians", "to_degrees", "sin", "cos", "tan", "csc", "sec", "cot", "asin", "acos", "atan",
   "acsc", "asec", "acot", "sinh", "cosh", "tanh", "csch", "sech", "coth", "asinh", "acosh", "atanh", "acsch", "asech", "acoth"]

/-- The names of the functions of the unchecked context. -/
def uncheckedFunctionNames : List String :=
  ["sum", "avg", "product", "max", "min", "sqrt", "ln", "log", "random", "to_radians", "to_degrees", "exp", "sin", "cos", "tan", "csc", "sec",
   "cot", "asin", "acos", "atan", "acsc", "asec", "acot", "sinh", "cosh", "tanh", "csch", "sech", "coth", "asinh", "acosh", "atanh", "acsch",
   "asech", "acoth"]

/-- The names of the operators of the binary context. -/
def binaryOperatorNames : List String :=
  ["&", "and", "|", "or", "^", "xor", "==", "eq", "equal", "!=", "ne", "no_equal", ">", "gt", "<", "lt", ">=", "gte", "<=", "lte", ">>", "shr",
   "<<", "shl"]

theorem checkedFunctions_names (docs : Bool) (f : F64 F) (num : Num N F) :
    (Ops.checkedFunctions docs f num).flatMap Named.names = (checkedFunctionNames docs).map str := by cases docs <;> rfl
theorem uncheckedFunctions_names (f : F64 F) (num : Num N F) :
    (Ops.uncheckedFunctions f num).flatMap Named.names = uncheckedFunctionNames.map str := rfl
theorem binaryOperators_names (debug : Bool) : (Binary.operators debug).flatMap Named.names = binaryOperatorNames.map str := rfl

theorem checked_tables (docs : Bool) (f : F64 F) (num : Num N F) (pi e : N) :
    Tables [(str "PI", pi), (str "E", e)] (Ops.checkedBinary f num) (Ops.checkedUnary f num) (Ops.checkedFunctions docs f num) where
  constants := show GoodNames [str "PI", str "E"] by decide
  binary := show GoodNames (["+", "-", "*", "/", "^", "mod"].map str) by decide
  unary := show GoodNames (["+", "-", "!"].map str) by decide
  functions := by
    rw [checkedFunctions_names]
    cases docs <;> decide +kernel

theorem unchecked_tables (f : F64 F) (num : Num N F) (pi e : N) :
    Tables [(str "PI", pi), (str "E", e)] (Ops.uncheckedBinary f num) (Ops.uncheckedUnary f num) (Ops.uncheckedFunctions f num) where
  constants := show GoodNames [str "PI", str "E"] by decide
  binary := show GoodNames (["+", "-", "*", "/", "^", "mod"].map str) by decide
  unary := show GoodNames (["+", "-", "!"].map str) by decide
  functions := by
    rw [uncheckedFunctions_names]
    decide +kernel

theorem binary_tables (debug : Bool) : Tables ([] : List (Str × Binary)) (Binary.operators debug) [Binary.not] [] where
  constants := show GoodNames [] by decide
  binary := by rw [binaryOperators_names]; decide +kernel
  unary := show GoodNames (["~", "not"].map str) by decide
  functions := show GoodNames [] by decide

theorem finds_lookup {V : Type} {fs : List (Named V)} (h : GoodNames (fs.flatMap Named.names)) : Finds (lookup hashSame fs) fs := by
  refine ⟨fun f hf n hn k hk => lookup_mem h hf hn hk, fun k v hv => ?_⟩
  obtain ⟨f, hf, hfv, n, hn, hnk⟩ := lookup_some hv
  exact ⟨f, hf, hfv, n, hn, by simpa [hashSame, hashInput, CaseVariant] using hnk⟩

theorem tables_provides (config : Config) {cs : List (Str × N)} {bs : List (Named (BinFn N))}
    {us : List (Named (UnFn N))} {fs : List (Named (Fn N))} (h : Tables cs bs us fs) :
    Provides (tablesCtx config cs bs us fs) config cs bs us fs where
  config := rfl
  variables _ := rfl
  constants := ⟨fun e he k hk => lookupConstant_mem h.constants he hk, fun k x hx => by
    obtain ⟨e, he, hv, hk⟩ := lookupConstant_some hx
    exact ⟨e, he, hv, by simpa [hashSame, hashInput, CaseVariant] using hk⟩⟩
  binary := finds_lookup h.binary
  unary := finds_lookup h.unary
  functions := finds_lookup h.functions

theorem checked_build (K : Keys) (debug docs : Bool) (f : F64 F) (num : Num N F) (config : Config) (pi e : N)
    (hpi : num.fromF64 f.pi = some pi) (he : num.fromF64 f.e = some e) :
    ∃ c, Context.checked K debug docs f num config = .ok c ∧
      c.view K = tablesCtx config [(str "PI", pi), (str "E", e)] (Ops.checkedBinary f num) (Ops.checkedUnary f num)
        (Ops.checkedFunctions docs f num) := by
  obtain ⟨c, hc, hv⟩ := build_ok K debug config (checked_tables docs f num pi e)
  exact ⟨c, by rw [Context.checked, hpi, he]; exact hc, hv⟩

theorem unchecked_build (K : Keys) (debug : Bool) (f : F64 F) (num : Num N F) (config : Config) (pi e : N)
    (hpi : num.fromF64 f.pi = some pi) (he : num.fromF64 f.e = some e) :
    ∃ c, Context.unchecked K debug f num config = .ok c ∧
      c.view K = tablesCtx config [(str "PI", pi), (str "E", e)] (Ops.uncheckedBinary f num) (Ops.uncheckedUnary f num)
        (Ops.uncheckedFunctions f num) := by
  obtain ⟨c, hc, hv⟩ := build_ok K debug config (unchecked_tables f num pi e)
  exact ⟨c, by rw [Context.unchecked, hpi, he]; exact hc, hv⟩

theorem binary_build (K : Keys) (debug : Bool) (config : Config) :
    ∃ c, Binary.context K debug config = .ok c ∧ c.view K = tablesCtx config [] (Binary.operators debug) [Binary.not] [] := by
  obtain ⟨c, hc, hv⟩ := build_ok K debug config (binary_tables debug)
  refine ⟨c, ?_, hv⟩
  unfold Binary.context
  have h1 := runUnwrap_unary K debug (Context.withConfig config : Context Binary) [Binary.not]
    ((Binary.operators debug).map Op.addBinaryFunction)
  simp only [List.map_cons, List.map_nil, List.cons_append, List.nil_append] at h1
  rw [h1]
  have h2 : ∀ c : Context Binary, c.runUnwrap K debug ((Binary.operators debug).map Op.addBinaryFunction) =
      (addAll K.same debug c.binary (Binary.operators debug)).bind fun m => .ok { c with binary := m } := by
    intro c
    have := runUnwrap_binary K debug c (Binary.operators debug) []
    simp only [List.append_nil] at this
    rw [this]
    cases addAll K.same debug c.binary (Binary.operators debug) <;> rfl
  simp only [buildOps, List.map_nil, List.nil_append, List.append_nil] at hc
  rw [runUnwrap_binary] at hc
  have h3 : ∀ c : Context Binary, c.runUnwrap K debug ([Binary.not].map Op.addUnaryFunction) =
      (addAll K.same debug c.unary [Binary.not]).bind fun m => .ok { c with unary := m } := by
    intro c
    have := runUnwrap_unary K debug c [Binary.not] []
    simp only [List.append_nil] at this
    rw [this]
    cases addAll K.same debug c.unary [Binary.not] <;> rfl
  simp only [h3, Context.withConfig] at hc
  simp only [h2, Context.withConfig]
  cases ha : addAll K.same debug ([] : Map (BinFn Binary)) (Binary.operators debug) with
  | ok m =>
    rw [ha] at hc
    cases hb : addAll K.same debug ([] : Map (UnFn Binary)) [Binary.not] with
    | ok m' => rw [hb] at hc; simpa using hc
    | err k => rw [hb] at hc; simp at hc
    | panic => rw [hb] at hc; simp at hc
  | err k => rw [ha] at hc; simp at hc
  | panic => rw [ha] at hc; simp at hc

/-- C31. The checked context can be built, in debug and release builds, and has exactly the built-in constants, operators and functions, each
under every case variant of its name. -/
theorem C31_checked (K : Keys) (debug docs : Bool) (f : F64 F) (num : Num N F) (config : Config) (pi e : N)
    (hpi : num.fromF64 f.pi = some pi) (he : num.fromF64 f.e = some e) :
    ∃ c, Context.checked K debug docs f num config = .ok c ∧
      Provides (c.view K) config [(str "PI", pi), (str "E", e)] (Ops.checkedBinary f num) (Ops.checkedUnary f num)
        (Ops.checkedFunctions docs f num) := by
  obtain ⟨c, hc, hv⟩ := checked_build K debug docs f num config pi e hpi he
  exact ⟨c, hc, by rw [hv]; exact tables_provides config (checked_tables docs f num pi e)⟩

/-- C31 for the unchecked context. -/
theorem C31_unchecked (K : Keys) (debug : Bool) (f : F64 F) (num : Num N F) (config : Config) (pi e : N)
    (hpi : num.fromF64 f.pi = some pi) (he : num.fromF64 f.e = some e) :
    ∃ c, Context.unchecked K debug f num config = .ok c ∧
      Provides (c.view K) config [(str "PI", pi), (str "E", e)] (Ops.uncheckedBinary f num) (Ops.uncheckedUnary f num)
        (Ops.uncheckedFunctions f num) := by
  obtain ⟨c, hc, hv⟩ := unchecked_build K debug f num config pi e hpi he
  exact ⟨c, hc, by rw [hv]; exact tables_provides config (unchecked_tables f num pi e)⟩

/-- C31 for the context of binary numbers. -/
theorem C31_binary (K : Keys) (debug : Bool) (config : Config) :
    ∃ c, Binary.context K debug config = .ok c ∧ Provides (c.view K) config [] (Binary.operators debug) [Binary.not] [] := by
  obtain ⟨c, hc, hv⟩ := binary_build K debug config
  exact ⟨c, hc, by rw [hv]; exact tables_provides config (binary_tables debug)⟩

/-- C31: the names of the built-in operators and functions, as documented. -/
theorem C31_names (docs debug : Bool) (f : F64 F) (num : Num N F) :
    (Ops.checkedFunctions docs f num).flatMap (fun g => g.name :: g.aliases) = (checkedFunctionNames docs).map str ∧
    (Ops.uncheckedFunctions f num).flatMap (fun g => g.name :: g.aliases) = uncheckedFunctionNames.map str ∧
    (Ops.checkedBinary f num).flatMap (fun g => g.name :: g.aliases) = ["+", "-", "*", "/", "^", "mod"].map str ∧
    (Ops.uncheckedBinary f num).flatMap (fun g => g.name :: g.aliases) = ["+", "-", "*", "/", "^", "mod"].map str ∧
    (Ops.checkedUnary f num).flatMap (fun g => g.name :: g.aliases) = ["+", "-", "!"].map str ∧
    (Ops.uncheckedUnary f num).flatMap (fun g => g.name :: g.aliases) = ["+", "-", "!"].map str ∧
    (Binary.operators debug).flatMap (fun g => g.name :: g.aliases) = binaryOperatorNames.map str :=
  ⟨checkedFunctions_names docs f num, uncheckedFunctions_names f num, rfl, rfl, rfl, rfl, binaryOperators_names debug⟩

/-- C31: a number type that cannot represent PI or E makes the constructors panic. -/
theorem C31_no_pi (K : Keys) (debug docs : Bool) (f : F64 F) (num : Num N F) (config : Config)
    (h : num.fromF64 f.pi = none ∨ num.fromF64 f.e = none) :
    Context.checked K debug docs f num config = .panic ∧ Context.unchecked K debug f num config = .panic := by
  unfold Context.checked Context.unchecked
  rcases h with h | h <;> rw [h] <;> cases num.fromF64 f.pi <;> simp

/-! ## C57: the feature `docs` -/

/-- C57 fails: without the feature `docs` there is a function `truncate` and no `trunc`, with it there is `trunc` and no `truncate`; and the
same for `sign` and `signum`. -/
theorem C57_docs_counterexample (K : Keys) (debug : Bool) (f : F64 F) (num : Num N F) (config : Config) (pi e : N)
    (hpi : num.fromF64 f.pi = some pi) (he : num.fromF64 f.e = some e) :
    ∃ c d, Context.checked K debug false f num config = .ok c ∧ Context.checked K debug true f num config = .ok d ∧
      ((c.view K).getFunction (str "truncate")).isSome = true ∧ ((c.view K).getFunction (str "trunc")).isSome = false ∧
      ((d.view K).getFunction (str "truncate")).isSome = false ∧ ((d.view K).getFunction (str "trunc")).isSome = true ∧
      ((c.view K).getFunction (str "sign")).isSome = true ∧ ((c.view K).getFunction (str "signum")).isSome = false ∧
      ((d.view K).getFunction (str "sign")).isSome = false ∧ ((d.view K).getFunction (str "signum")).isSome = true := by
  obtain ⟨c, hc, hcv⟩ := checked_build K debug false f num config pi e hpi he
  obtain ⟨d, hd, hdv⟩ := checked_build K debug true f num config pi e hpi he
  refine ⟨c, d, hc, hd, ?_⟩
  rw [hcv, hdv]
  have hn : ∀ docs k, (lookup hashSame (Ops.checkedFunctions docs f num) k).isSome =
      ((checkedFunctionNames docs).map str).any (fun n => hashSame n k) := by
    intro docs k
    rw [Bool.eq_iff_iff, lookup_isSome, checkedFunctions_names, List.any_eq_true]
  simp only [tablesCtx, hn]
  decide +kernel

/-- C57, the part that holds: every name other than `truncate`, `trunc`, `sign` and `signum` is unaffected by the feature. -/
theorem C57_other_names_partial (K : Keys) (debug : Bool) (f : F64 F) (num : Num N F) (config : Config) (pi e : N)
    (hpi : num.fromF64 f.pi = some pi) (he : num.fromF64 f.e = some e) :
    ∃ c d, Context.checked K debug false f num config = .ok c ∧ Context.checked K debug true f num config = .ok d ∧
      (c.view K).getBinary = (d.view K).getBinary ∧ (c.view K).getUnary = (d.view K).getUnary ∧
      (c.view K).getConstant = (d.view K).getConstant ∧
      ∀ k, (∀ n ∈ ["truncate", "trunc", "sign", "signum"], ¬ CaseVariant (str n) k) →
        (c.view K).getFunction k = (d.view K).getFunction k := by
  obtain ⟨c, hc, hcv⟩ := checked_build K debug false f num config pi e hpi he
  obtain ⟨d, hd, hdv⟩ := checked_build K debug true f num config pi e hpi he
  refine ⟨c, d, hc, hd, ?_⟩
  rw [hcv, hdv]
  refine ⟨rfl, rfl, rfl, fun k hk => ?_⟩
  have h1 : hashSame (str "truncate") k = false := by
    have := hk "truncate" (by simp); simpa [hashSame, CaseVariant, hashInput] using this
  have h2 : hashSame (str "trunc") k = false := by
    have := hk "trunc" (by simp); simpa [hashSame, CaseVariant, hashInput] using this
  have h3 : hashSame (str "sign") k = false := by
    have := hk "sign" (by simp); simpa [hashSame, CaseVariant, hashInput] using this
  have h4 : hashSame (str "signum") k = false := by
    have := hk "signum" (by simp); simpa [hashSame, CaseVariant, hashInput] using this
  simp only [tablesCtx, lookup]
  congr 1
  simp only [Ops.checkedFunctions, List.cons_append, List.find?_cons, Named.names, Ops.forward, Ops.truncName, Ops.signName,
    List.any_cons, List.any_nil, Bool.or_false, Bool.false_eq_true, if_false, if_true, h1, h2, h3, h4]

end Prexel
