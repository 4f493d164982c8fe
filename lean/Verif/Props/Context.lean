import Verif.Lemmas.Context
import Verif.Spec.History
import Verif.Model.Tokenizer
import Verif.Examples.Demo
/-!
# Properties of contexts (C24-C30, C54)
-/

set_option linter.unusedVariables false
set_option linter.unusedSimpArgs false

namespace Prexel
variable {N V : Type}

open Demo (ctx)

/-! ## Histories -/

theorem Context.runAll_append (K : Keys) (debug : Bool) (c : Context N) (os os' : List (Op N)) :
    Context.runAll K debug c (os ++ os') = Context.runAll K debug (Context.runAll K debug c os) os' := by
  induction os generalizing c with
  | nil => rfl
  | cons o os ih => simp [Context.runAll, ih]

/-! ## C24: variables -/

theorem run_getVariable (K : Keys) (debug : Bool) (c : Context N) (o : Op N) (x : Str) :
    ((c.run K debug o).2.view K).getVariable x =
      (lastSet x [(o, (c.run K debug o).1)]).or ((c.view K).getVariable x) := by
  cases o with
  | addFunctionAs f name => simp [Context.run, Context.view, lastSet]
  | addUnaryFunctionAs f name => simp [Context.run, Context.view, lastSet]
  | addBinaryFunctionAs f name => simp [Context.run, Context.view, lastSet]
  | addConstant name v =>
    simp only [Context.run]
    split
    · simp [lastSet]
    · simp [lastSet]
    · split <;> simp [lastSet, Context.view]
  | setVariable name v =>
    simp only [Context.run]
    split
    · simp [lastSet]
    · simp [lastSet]
    · split
      · simp [lastSet]
      · simp only [lastSet, Context.view, Map.get_insert sameString_equiv, Option.none_or]
        simp only [sameString, beq_iff_eq]
        split <;> simp

theorem lastSet_cons (x : Str) (e : Op N × Res (Option N)) (t : List (Op N × Res (Option N))) :
    lastSet x (e :: t) = (lastSet x t).or (lastSet x [e]) := by
  obtain ⟨o, r⟩ := e
  cases o <;> cases r <;> simp [lastSet]

theorem runAll_getVariable (K : Keys) (debug : Bool) (c : Context N) (os : List (Op N)) (x : Str) :
    ((c.runAll K debug os).view K).getVariable x = (lastSet x (c.trace K debug os)).or ((c.view K).getVariable x) := by
  induction os generalizing c with
  | nil => simp [Context.runAll, Context.trace, lastSet]
  | cons o os ih =>
    rw [Context.runAll, ih, Context.trace, lastSet_cons, run_getVariable]
    cases lastSet x (Context.trace K debug (Context.run K debug c o).2 os) <;> simp

/-- C24. After any history on a new context, a variable has the value of the last successful `set_variable` of exactly that name. -/
theorem C24_get_variable (K : Keys) (debug : Bool) (config : Config) (os : List (Op N)) (x : Str) :
    (((Context.withConfig config).runAll K debug os).view K).getVariable x =
      lastSet x ((Context.withConfig config : Context N).trace K debug os) := by
  rw [runAll_getVariable]
  simp [Context.withConfig, Context.view, Map.get]

/-- C24. A successful `set_variable` returns the value of the last successful one, and afterwards the variable has the new value while all
other names, variables or not, keep their meaning. -/
theorem C24_set_variable (K : Keys) (debug : Bool) (config : Config) (os : List (Op N)) (x : Str) (v : N) (old : Option N)
    (h : (((Context.withConfig config).runAll K debug os).run K debug (.setVariable x v)).1 = .ok old) :
    old = lastSet x ((Context.withConfig config : Context N).trace K debug os) ∧
    let before := ((Context.withConfig config).runAll K debug os).view K
    let after := (((Context.withConfig config).runAll K debug os).run K debug (.setVariable x v)).2.view K
    after.getVariable x = some v ∧ (∀ y, y ≠ x → after.getVariable y = before.getVariable y) ∧
      after.getConstant = before.getConstant ∧ after.getFunction = before.getFunction ∧ after.getUnary = before.getUnary ∧
      after.getBinary = before.getBinary := by
  rw [← C24_get_variable]
  generalize (Context.withConfig config).runAll K debug os = c at h ⊢
  simp only [Context.run] at h ⊢
  split at h
  · cases h
  · cases h
  · split at h
    · cases h
    · cases h
      rename_i hd hc
      simp only [hd, hc, if_neg, Bool.false_eq_true, not_false_eq_true]
      refine ⟨rfl, ?_, ?_, rfl, rfl, rfl, rfl⟩
      · simp [Context.view, Map.get_insert sameString_equiv, sameString]
      · intro y hy
        have : (x == y) = false := by simpa using Ne.symm hy
        simp [Context.view, Map.get_insert sameString_equiv, sameString, this]

/-- C24. `set_variable` succeeds for every valid name unless a constant of that name, ignoring case, is listed. -/
theorem C24_set_variable_succeeds (K : Keys) (debug : Bool) (c : Context N) (x : Str) (v : N) (hx : checkTokenName x = .ok ())
    (hc : ∀ k ∈ Map.keys c.constants, eqIgnoreCase K.L k x = false) : (c.run K debug (.setVariable x v)).1.isOk = true := by
  have hd : debugCheck debug x = .ok () := by cases debug <;> simp [debugCheck, hx]
  have hn : ((Map.keys c.constants).any fun k => eqIgnoreCase K.L k x) = false := by
    rw [List.any_eq_false]; intro k hk; simp [hc k hk]
  simp [Context.run, hd, hn, Res.isOk]

/-- The history `x := 1, PI constant, x := 2, pi := 3 (refused), X := 4`. -/
def sampleHistory : List (Op Int) :=
  [.setVariable (str "x") 1, .addConstant (str "PI") 3, .setVariable (str "x") 2, .setVariable (str "pi") 9, .setVariable (str "X") 4]

example : ((Context.withConfig Config.new).trace (Keys.byEq demoLowercase) true sampleHistory).map (·.2) =
    [.ok none, .ok none, .ok (some 1), .err .unknown, .ok none] := by decide
example : (((Context.withConfig Config.new).runAll (Keys.byEq demoLowercase) true sampleHistory).view (Keys.byEq demoLowercase)).getVariable (str "x")
    = some 2 := by decide

/-! ## C25: variables and constants are disjoint -/

/-- The listed names of variables and constants are disjoint, ignoring case. -/
def Disjoint (K : Keys) (c : Context N) : Prop :=
  ∀ x ∈ Map.keys c.variables, ∀ y ∈ Map.keys c.constants, eqIgnoreCase K.L x y = false

theorem eqIgnoreCase_comm (L : Lowercase) (a b : Str) : eqIgnoreCase L a b = eqIgnoreCase L b a := by
  rw [Bool.eq_iff_iff]; exact ⟨eqIgnoreCase_symm L, eqIgnoreCase_symm L⟩

theorem run_disjoint (K : Keys) (debug : Bool) (c : Context N) (o : Op N) (h : Disjoint K c) : Disjoint K (c.run K debug o).2 := by
  cases o with
  | addFunctionAs f name => exact h
  | addUnaryFunctionAs f name => exact h
  | addBinaryFunctionAs f name => exact h
  | addConstant name v =>
    simp only [Context.run]
    split
    · exact h
    · exact h
    · split
      · exact h
      · rename_i hc
        intro x hx y hy
        simp only [Bool.not_eq_true, List.any_eq_false] at hc
        rcases Map.mem_keys_insert hy with rfl | hy
        · exact hc x hx
        · exact h x hx y hy
  | setVariable name v =>
    simp only [Context.run]
    split
    · exact h
    · exact h
    · split
      · exact h
      · rename_i hc
        intro x hx y hy
        simp only [Bool.not_eq_true, List.any_eq_false] at hc
        rcases Map.mem_keys_insert hx with rfl | hx
        · rw [eqIgnoreCase_comm]; exact hc y hy
        · exact h x hx y hy

theorem runAll_disjoint (K : Keys) (debug : Bool) (c : Context N) (os : List (Op N)) (h : Disjoint K c) :
    Disjoint K (c.runAll K debug os) := by
  induction os generalizing c with
  | nil => exact h
  | cons o os ih => exact ih _ (run_disjoint K debug c o h)

/-- C25. After any history on a new context, no bound variable has the name, ignoring case, of a bound constant. -/
theorem C25_disjoint (K : Keys) (debug : Bool) (config : Config) (os : List (Op N)) (x y : Str) (v w : N)
    (hx : (((Context.withConfig config).runAll K debug os).view K).getVariable x = some v)
    (hy : (((Context.withConfig config).runAll K debug os).view K).getConstant y = some w) : eqIgnoreCase K.L x y = false := by
  have hd : Disjoint K ((Context.withConfig config : Context N).runAll K debug os) :=
    runAll_disjoint K debug _ os (by intro x hx; simp [Context.withConfig, Map.keys] at hx)
  obtain ⟨x', hx', hxx⟩ := Map.get_some_key hx
  obtain ⟨y', hy', hyy⟩ := Map.get_some_key hy
  have : x' = x := by simpa [sameString] using hxx
  subst this
  have h1 := hd x' hx' y' hy'
  cases h2 : eqIgnoreCase K.L x' y with
  | false => rfl
  | true => rw [eqIgnoreCase_trans K.L h2 (eqIgnoreCase_symm K.L (K.eq _ _ hyy))] at h1; cases h1

/-- C25, consequence: no name is both. -/
theorem C25_not_both (K : Keys) (debug : Bool) (config : Config) (os : List (Op N)) (x : Str) :
    let c := ((Context.withConfig config).runAll K debug os).view K
    ¬ ((c.getVariable x).isSome = true ∧ (c.getConstant x).isSome = true) := by
  intro c ⟨h1, h2⟩
  obtain ⟨v, hv⟩ := Option.isSome_iff_exists.mp h1
  obtain ⟨w, hw⟩ := Option.isSome_iff_exists.mp h2
  have := C25_disjoint K debug config os x x v w hv hw
  rw [eqIgnoreCase_refl] at this
  cases this

example : let c := ((Context.withConfig Config.new).runAll (Keys.byEq demoLowercase) true sampleHistory).view (Keys.byEq demoLowercase)
    c.getVariable (str "X") = some 4 ∧ c.getConstant (str "Pi") = some 3 := by decide

/-! ## C26: registration -/

theorem run_keeps (K : Keys) (debug : Bool) (c : Context N) (o : Op N) (k : Str) :
    (∀ f, (c.view K).getFunction k = some f → ((c.run K debug o).2.view K).getFunction k = some f) ∧
    (∀ f, (c.view K).getUnary k = some f → ((c.run K debug o).2.view K).getUnary k = some f) ∧
    (∀ f, (c.view K).getBinary k = some f → ((c.run K debug o).2.view K).getBinary k = some f) := by
  cases o with
  | addFunctionAs f name => exact ⟨fun f' h => addAs_keeps K.equiv debug _ f name k f' h, fun _ h => h, fun _ h => h⟩
  | addUnaryFunctionAs f name => exact ⟨fun _ h => h, fun f' h => addAs_keeps K.equiv debug _ f name k f' h, fun _ h => h⟩
  | addBinaryFunctionAs f name => exact ⟨fun _ h => h, fun _ h => h, fun f' h => addAs_keeps K.equiv debug _ f name k f' h⟩
  | addConstant name v =>
    simp only [Context.run]
    split
    · exact ⟨fun _ h => h, fun _ h => h, fun _ h => h⟩
    · exact ⟨fun _ h => h, fun _ h => h, fun _ h => h⟩
    · split <;> exact ⟨fun _ h => h, fun _ h => h, fun _ h => h⟩
  | setVariable name v =>
    simp only [Context.run]
    split
    · exact ⟨fun _ h => h, fun _ h => h, fun _ h => h⟩
    · exact ⟨fun _ h => h, fun _ h => h, fun _ h => h⟩
    · split <;> exact ⟨fun _ h => h, fun _ h => h, fun _ h => h⟩

/-- C26. Whatever can be looked up as a function or operator stays bound to the same function through any further history, including
operations that fail or panic. -/
theorem C26_never_replaced (K : Keys) (debug : Bool) (c : Context N) (os : List (Op N)) (k : Str) :
    (∀ f, (c.view K).getFunction k = some f → ((c.runAll K debug os).view K).getFunction k = some f) ∧
    (∀ f, (c.view K).getUnary k = some f → ((c.runAll K debug os).view K).getUnary k = some f) ∧
    (∀ f, (c.view K).getBinary k = some f → ((c.runAll K debug os).view K).getBinary k = some f) := by
  induction os generalizing c with
  | nil => exact ⟨fun _ h => h, fun _ h => h, fun _ h => h⟩
  | cons o os ih =>
    have h1 := run_keeps K debug c o k
    have h2 := ih (c.run K debug o).2
    exact ⟨fun f h => h2.1 f (h1.1 f h), fun f h => h2.2.1 f (h1.2.1 f h), fun f h => h2.2.2 f (h1.2.2 f h)⟩

theorem map_isOk {α β : Type} {r : Res α} {f : α → β} {b : β} (h : r.map f = .ok b) : ∃ a, r = .ok a ∧ f a = b := by
  cases r with
  | ok a => exact ⟨a, rfl, by simpa [Res.map] using h⟩
  | err k => simp [Res.map] at h
  | panic => simp [Res.map] at h

/-- C26. A successful registration of a function binds exactly its name and its aliases; everything else is unchanged. -/
theorem C26_add_function (K : Keys) (debug : Bool) (c : Context N) (f : Named (Fn N)) (name : Str) (r : Option N)
    (h : (c.run K debug (.addFunctionAs f name)).1 = .ok r) :
    let before := c.view K
    let after := (c.run K debug (.addFunctionAs f name)).2.view K
    (∀ k, (∃ a ∈ name :: f.aliases, K.same a k = true) → after.getFunction k = some f.fn) ∧
    (∀ k, (∀ a ∈ name :: f.aliases, K.same a k = false) → after.getFunction k = before.getFunction k) ∧
    after.getUnary = before.getUnary ∧ after.getBinary = before.getBinary ∧ after.getConstant = before.getConstant ∧
    after.getVariable = before.getVariable ∧ after.config = before.config := by
  obtain ⟨u, hu, _⟩ := map_isOk h
  have hk := addAs_ok K.equiv debug c.functions f name hu
  refine ⟨?_, ?_, rfl, rfl, rfl, rfl, rfl⟩
  · intro k ⟨a, ha, hak⟩
    refine (hk k).trans (if_pos ?_)
    rw [List.any_eq_true]; exact ⟨a, ha, hak⟩
  · intro k hn
    refine (hk k).trans (if_neg ?_)
    rw [List.any_eq_true]; rintro ⟨a, ha, hak⟩; rw [hn a ha] at hak; cases hak

/-- C26, for unary operators. -/
theorem C26_add_unary_function (K : Keys) (debug : Bool) (c : Context N) (f : Named (UnFn N)) (name : Str) (r : Option N)
    (h : (c.run K debug (.addUnaryFunctionAs f name)).1 = .ok r) :
    let before := c.view K
    let after := (c.run K debug (.addUnaryFunctionAs f name)).2.view K
    (∀ k, (∃ a ∈ name :: f.aliases, K.same a k = true) → after.getUnary k = some f.fn) ∧
    (∀ k, (∀ a ∈ name :: f.aliases, K.same a k = false) → after.getUnary k = before.getUnary k) ∧
    after.getFunction = before.getFunction ∧ after.getBinary = before.getBinary ∧ after.getConstant = before.getConstant ∧
    after.getVariable = before.getVariable ∧ after.config = before.config := by
  obtain ⟨u, hu, _⟩ := map_isOk h
  have hk := addAs_ok K.equiv debug c.unary f name hu
  refine ⟨?_, ?_, rfl, rfl, rfl, rfl, rfl⟩
  · intro k ⟨a, ha, hak⟩
    refine (hk k).trans (if_pos ?_)
    rw [List.any_eq_true]; exact ⟨a, ha, hak⟩
  · intro k hn
    refine (hk k).trans (if_neg ?_)
    rw [List.any_eq_true]; rintro ⟨a, ha, hak⟩; rw [hn a ha] at hak; cases hak

/-- C26, for binary operators. -/
theorem C26_add_binary_function (K : Keys) (debug : Bool) (c : Context N) (f : Named (BinFn N)) (name : Str) (r : Option N)
    (h : (c.run K debug (.addBinaryFunctionAs f name)).1 = .ok r) :
    let before := c.view K
    let after := (c.run K debug (.addBinaryFunctionAs f name)).2.view K
    (∀ k, (∃ a ∈ name :: f.aliases, K.same a k = true) → after.getBinary k = some f.fn) ∧
    (∀ k, (∀ a ∈ name :: f.aliases, K.same a k = false) → after.getBinary k = before.getBinary k) ∧
    after.getFunction = before.getFunction ∧ after.getUnary = before.getUnary ∧ after.getConstant = before.getConstant ∧
    after.getVariable = before.getVariable ∧ after.config = before.config := by
  obtain ⟨u, hu, _⟩ := map_isOk h
  have hk := addAs_ok K.equiv debug c.binary f name hu
  refine ⟨?_, ?_, rfl, rfl, rfl, rfl, rfl⟩
  · intro k ⟨a, ha, hak⟩
    refine (hk k).trans (if_pos ?_)
    rw [List.any_eq_true]; exact ⟨a, ha, hak⟩
  · intro k hn
    refine (hk k).trans (if_neg ?_)
    rw [List.any_eq_true]; rintro ⟨a, ha, hak⟩; rw [hn a ha] at hak; cases hak

/-- A named demo function with aliases. -/
def sumNamed : Named (Fn Int) := ⟨str "sum", [str "add_all", str "Σ"], Demo.sum⟩

example : ((Context.withConfig Config.new).run (Keys.byEq demoLowercase) true (.addFunction sumNamed)).1.isOk = true := by decide

/-! ## C27: refused operations -/

theorem run_err (K : Keys) (debug : Bool) (c : Context N) (o : Op N) (k : ErrorKind) (h : (c.run K debug o).1 = .err k) :
    (c.run K debug o).2 = c := by
  have hm : ∀ (r : Res Unit), (r.map fun _ => (none : Option N)) = .err k → r = .err k := by
    intro r hr; cases r <;> simp_all [Res.map]
  cases o with
  | addFunctionAs f name =>
    have := addAs_err debug c.functions f name k (hm _ h)
    simp [Context.run, this]
  | addUnaryFunctionAs f name =>
    have := addAs_err debug c.unary f name k (hm _ h)
    simp [Context.run, this]
  | addBinaryFunctionAs f name =>
    have := addAs_err debug c.binary f name k (hm _ h)
    simp [Context.run, this]
  | addConstant name v =>
    simp only [Context.run] at h ⊢
    split at h
    · simp_all
    · cases h
    · split at h
      · rename_i hd hc; simp [hd, hc]
      · cases h
  | setVariable name v =>
    simp only [Context.run] at h ⊢
    split at h
    · simp_all
    · cases h
    · split at h
      · rename_i hd hc; simp [hd, hc]
      · cases h

theorem fresh_insert {same : Str → Str → Bool} (hs : Equiv same) {m : Map V} {a : Str} {v : V} {l : List Str} (hl : Fresh same m l)
    (ha : ∀ b ∈ l, same a b = false) : Fresh same (Map.insert same m a v) l := by
  induction l with
  | nil => trivial
  | cons b l ih =>
    refine ⟨?_, hl.2.1, ih hl.2.2 (fun x hx => ha x (by simp [hx]))⟩
    rw [Map.get_insert hs, ha b (by simp)]
    simpa using hl.1

theorem insertAliases_panic {same : Str → Str → Bool} (hs : Equiv same) (v : V) (as : List Str) (m : Map V) :
    (insertAliases same v as m).1 = .ok () ↔ Fresh same m as := by
  induction as generalizing m with
  | nil => simp [insertAliases, Fresh]
  | cons a as ih =>
    unfold insertAliases Fresh Map.containsKey
    cases hg : Map.get same m a with
    | some x => simp
    | none =>
      simp only [Option.isSome_none, Bool.false_eq_true, if_false, true_and]
      rw [ih]
      constructor
      · intro hf
        have hno : ∀ b ∈ as, same a b = false := by
          intro b hb
          clear ih
          induction as with
          | nil => cases hb
          | cons d as ih =>
            rcases List.mem_cons.mp hb with rfl | hb
            · have h1 := hf.1
              rw [Map.get_insert hs] at h1
              cases hab : same a b with
              | false => rfl
              | true => rw [hab] at h1; simp at h1
            · exact ih hf.2.2 hb
        refine ⟨hno, ?_⟩
        clear ih
        induction as with
        | nil => trivial
        | cons d as ih =>
          refine ⟨?_, hf.2.1, ih hf.2.2 (fun b hb => hno b (by simp [hb]))⟩
          have h1 := hf.1
          rw [Map.get_insert hs, hno d (by simp)] at h1
          simpa using h1
      · rintro ⟨h1, h2⟩
        exact fresh_insert hs h2 h1

theorem addAs_not_panic {same : Str → Str → Bool} (hs : Equiv same) (debug : Bool) (m : Map V) (f : Named V) (name : Str)
    (hf : Fresh same m f.aliases) : (addAs same debug m f name).1 ≠ .panic := by
  unfold addAs
  cases hd : debugCheck debug name with
  | err k => simp
  | panic => exact absurd hd (debugCheck_ne_panic debug name)
  | ok u =>
    simp only
    split
    · simp
    · have := (insertAliases_panic hs f.fn f.aliases m).mpr hf
      cases hi : insertAliases same f.fn f.aliases m with
      | mk r m' =>
        rw [hi] at this
        simp only at this
        subst this
        simp

/-- C27, the part that holds: an operation that returns `Err` leaves the context as it was, in any state. Missing: an operation that
panics, see the counterexample; it panics only if aliases clash. -/
theorem C27_err_unchanged_partial (K : Keys) (debug : Bool) (c : Context N) (o : Op N) (k : ErrorKind)
    (h : (c.run K debug o).1 = .err k) : (c.run K debug o).2 = c := run_err K debug c o k h

/-- C27: no operation panics whose aliases are new and pairwise different. -/
theorem C27_no_panic_partial (K : Keys) (debug : Bool) (c : Context N) (o : Op N)
    (hf : match o with
      | .addFunctionAs f _ => Fresh K.same c.functions f.aliases
      | .addUnaryFunctionAs f _ => Fresh K.same c.unary f.aliases
      | .addBinaryFunctionAs f _ => Fresh K.same c.binary f.aliases
      | _ => True) : (c.run K debug o).1 ≠ .panic := by
  have hm : ∀ (r : Res Unit), r ≠ .panic → (r.map fun _ => (none : Option N)) ≠ .panic := by
    intro r hr; cases r <;> simp_all [Res.map]
  cases o with
  | addFunctionAs f name => exact hm _ (addAs_not_panic K.equiv debug c.functions f name hf)
  | addUnaryFunctionAs f name => exact hm _ (addAs_not_panic K.equiv debug c.unary f name hf)
  | addBinaryFunctionAs f name => exact hm _ (addAs_not_panic K.equiv debug c.binary f name hf)
  | addConstant name v =>
    simp only [Context.run]
    split
    · simp
    · rename_i hd; exact absurd hd (debugCheck_ne_panic debug name)
    · split <;> simp
  | setVariable name v =>
    simp only [Context.run]
    split
    · simp
    · rename_i hd; exact absurd hd (debugCheck_ne_panic debug name)
    · split <;> simp

example : ((Context.withConfig Config.new).run (Keys.byEq demoLowercase) true (.addFunctionAs sumNamed (str "a b"))).1 =
    (.err .invalidInput : Res (Option Int)) := by decide

/-- C27 fails for clashing aliases: registering a second function with an alias that exists panics, after its earlier alias was added. -/
theorem C27_alias_counterexample :
    let K := Keys.byEq demoLowercase
    let c := ((Context.withConfig Config.new).run K true (.addFunction sumNamed)).2
    let g : Named (Fn Int) := ⟨str "digits", [str "d", str "ADD_ALL"], Demo.digits⟩
    (c.run K true (.addFunction g)).1 = .panic ∧ (c.view K).getFunction (str "d") = none ∧
    ((c.run K true (.addFunction g)).2.view K).getFunction (str "d") = some Demo.digits ∧
    ((c.run K true (.addFunction g)).2.view K).getFunction (str "digits") = none := by
  refine ⟨by rfl, by rfl, by rfl, by rfl⟩

/-! ## C28: case -/

/-- C28, the part that holds: names that differ only in the case of ASCII letters are looked up alike, after any history. Missing: letters
outside ASCII, where `Hash` and `Eq` of `IgnoreCaseString` disagree; see the counterexample. -/
theorem C28_ascii_case_partial (K : Keys) (c : Context N) (a b : Str) (h : a.map asciiLower = b.map asciiLower) :
    (c.view K).getConstant a = (c.view K).getConstant b ∧ (c.view K).getFunction a = (c.view K).getFunction b ∧
    (c.view K).getUnary a = (c.view K).getUnary b ∧ (c.view K).getBinary a = (c.view K).getBinary b := by
  have := K.hash a b h
  exact ⟨Map.get_congr K.equiv _ this, Map.get_congr K.equiv _ this, Map.get_congr K.equiv _ this, Map.get_congr K.equiv _ this⟩

/-- C28: and only such names are confused, among ASCII names: a constant, function or operator found under `b` was registered under an
ASCII case variant of `b`. -/
theorem C28_only_case_partial (K : Keys) (c : Context N) (b : Str) (hb : b.all isAscii = true) (hc : ∀ k ∈ c.names, k.all isAscii = true) :
    (∀ v, (c.view K).getConstant b = some v → ∃ k ∈ Map.keys c.constants, k.map asciiLower = b.map asciiLower) ∧
    (∀ f, (c.view K).getFunction b = some f → ∃ k ∈ Map.keys c.functions, k.map asciiLower = b.map asciiLower) ∧
    (∀ f, (c.view K).getUnary b = some f → ∃ k ∈ Map.keys c.unary, k.map asciiLower = b.map asciiLower) ∧
    (∀ f, (c.view K).getBinary b = some f → ∃ k ∈ Map.keys c.binary, k.map asciiLower = b.map asciiLower) := by
  have key : ∀ {W : Type} (m : Map W), (∀ k ∈ Map.keys m, k.all isAscii = true) → ∀ v, Map.get K.same m b = some v →
      ∃ k ∈ Map.keys m, k.map asciiLower = b.map asciiLower := by
    intro W m hm v hv
    obtain ⟨k, hk, hkb⟩ := Map.get_some_key hv
    exact ⟨k, hk, (K.same_ascii (hm k hk) hb).mp hkb⟩
  simp only [Context.names, List.mem_append] at hc
  exact ⟨fun v h => key _ (fun k hk => hc k (by simp [hk])) v h, fun v h => key _ (fun k hk => hc k (by simp [hk])) v h,
    fun v h => key _ (fun k hk => hc k (by simp [hk])) v h, fun v h => key _ (fun k hk => hc k (by simp [hk])) v h⟩

example : (str "Sin").map asciiLower = (str "sIN").map asciiLower := by decide

/-- C28 fails outside ASCII: `Π` and `π` are equal ignoring case, but their hashes differ, so a map that relies on the hash does not find
one under the other. -/
theorem C28_non_ascii_counterexample :
    let K := Keys.byHash demoLowercase
    let c := ((Context.withConfig Config.new).run K true (.addConstant (str "π") (3 : Int))).2
    eqIgnoreCase K.L (str "π") (str "Π") = true ∧ (c.view K).getConstant (str "π") = some 3 ∧ (c.view K).getConstant (str "Π") = none := by
  decide

/-! ## C29: names -/

theorem checkTokenName_ok {name : Str} : checkTokenName name = .ok () ↔ ValidName name := by
  unfold checkTokenName ValidName
  constructor
  · intro h
    split at h
    · cases h
    · rename_i h1
      split at h
      · cases h
      · rename_i h2
        split at h
        · cases h
        · rename_i h3
          simp only [Bool.not_eq_true, List.any_eq_false] at h2 h3
          refine ⟨?_, fun c hc => ⟨by simpa using h2 c hc, by simpa using h3 c hc⟩⟩
          rintro rfl
          simp at h1
  · rintro ⟨hne, h⟩
    have h1 : name.all isWhitespace = false := by
      cases name with
      | nil => exact absurd rfl hne
      | cons c l => simp [(h c (by simp)).1]
    have h2 : name.any isWhitespace = false := by rw [List.any_eq_false]; intro c hc; simp [(h c hc).1]
    have h3 : name.any isControl = false := by rw [List.any_eq_false]; intro c hc; simp [(h c hc).2]
    simp [h1, h2, h3]

theorem checkTokenName_cases (name : Str) : checkTokenName name = .ok () ∨ ∃ k, checkTokenName name = .err k := by
  unfold checkTokenName
  repeat' split
  all_goals simp

/-- C29, the part that holds: in a debug build every operation refuses a name that is blank or contains white space or a control character,
with an error, and changes nothing. Missing: release builds and aliases, see the counterexamples. -/
theorem C29_debug_refuses_partial (K : Keys) (c : Context N) (o : Op N) (h : ¬ ValidName o.name) :
    (∃ k, (c.run K true o).1 = .err k) ∧ (c.run K true o).2 = c := by
  suffices hs : ∃ k, (c.run K true o).1 = .err k by
    obtain ⟨k, hk⟩ := hs
    exact ⟨⟨k, hk⟩, run_err K true c o k hk⟩
  rcases checkTokenName_cases o.name with hok | ⟨k, hk⟩
  · exact absurd (checkTokenName_ok.mp hok) h
  · refine ⟨k, ?_⟩
    cases o <;> simp only [Op.name] at hk <;> simp [Context.run, addAs, debugCheck, hk, Res.map]

/-- Names enter a map only through `addAs`. -/
theorem mem_keys_insertAliases {same : Str → Str → Bool} {v : V} {as : List Str} {m : Map V} {x : Str}
    (h : x ∈ Map.keys (insertAliases same v as m).2) : x ∈ as ∨ x ∈ Map.keys m := by
  induction as generalizing m with
  | nil => right; exact h
  | cons a as ih =>
    unfold insertAliases at h
    split at h
    · right; exact h
    · rcases ih h with h | h
      · left; simp [h]
      · rcases Map.mem_keys_insert h with rfl | h
        · left; simp
        · right; exact h

theorem mem_keys_addAs {same : Str → Str → Bool} {debug : Bool} {m : Map V} {f : Named V} {name x : Str}
    (h : x ∈ Map.keys (addAs same debug m f name).2) : (x = name ∧ debugCheck debug name = .ok ()) ∨ x ∈ f.aliases ∨ x ∈ Map.keys m := by
  unfold addAs at h
  cases hd : debugCheck debug name with
  | err k => rw [hd] at h; exact .inr (.inr h)
  | panic => rw [hd] at h; exact .inr (.inr h)
  | ok u =>
    rw [hd] at h
    simp only at h
    split at h
    · exact .inr (.inr h)
    · split at h
      · rename_i m' he
        rcases Map.mem_keys_insert h with rfl | h
        · exact .inl ⟨rfl, rfl⟩
        · have := mem_keys_insertAliases (same := same) (v := f.fn) (as := f.aliases) (m := m) (x := x) (by rw [he]; exact h)
          exact .inr this
      · rename_i r m' _ he
        have := mem_keys_insertAliases (same := same) (v := f.fn) (as := f.aliases) (m := m) (x := x) (by rw [he]; exact h)
        exact .inr this

theorem run_names (K : Keys) (debug : Bool) (c : Context N) (o : Op N) {x : Str} (h : x ∈ (c.run K debug o).2.names) :
    (x = o.name ∧ debugCheck debug o.name = .ok ()) ∨ x ∈ o.aliases ∨ x ∈ c.names := by
  cases o with
  | addFunctionAs f name =>
    simp only [Context.run, Context.names, List.mem_append, Op.name, Op.aliases] at h ⊢
    rcases h with (((h | h) | h) | h) | h
    · simp [h]
    · simp [h]
    · rcases mem_keys_addAs h with h | h | h <;> simp [h]
    · simp [h]
    · simp [h]
  | addUnaryFunctionAs f name =>
    simp only [Context.run, Context.names, List.mem_append, Op.name, Op.aliases] at h ⊢
    rcases h with (((h | h) | h) | h) | h
    · simp [h]
    · simp [h]
    · simp [h]
    · rcases mem_keys_addAs h with h | h | h <;> simp [h]
    · simp [h]
  | addBinaryFunctionAs f name =>
    simp only [Context.run, Context.names, List.mem_append, Op.name, Op.aliases] at h ⊢
    rcases h with (((h | h) | h) | h) | h
    · simp [h]
    · simp [h]
    · simp [h]
    · simp [h]
    · rcases mem_keys_addAs h with h | h | h <;> simp [h]
  | addConstant name v =>
    simp only [Context.run, Op.name, Op.aliases] at h ⊢
    split at h
    · exact .inr (.inr h)
    · exact .inr (.inr h)
    · rename_i hd
      split at h
      · exact .inr (.inr h)
      · simp only [Context.names, List.mem_append] at h ⊢
        rcases h with (((h | h) | h) | h) | h
        · simp [h]
        · rcases Map.mem_keys_insert h with h | h
          · exact .inl ⟨h, hd⟩
          · simp [h]
        · simp [h]
        · simp [h]
        · simp [h]
  | setVariable name v =>
    simp only [Context.run, Op.name, Op.aliases] at h ⊢
    split at h
    · exact .inr (.inr h)
    · exact .inr (.inr h)
    · rename_i hd
      split at h
      · exact .inr (.inr h)
      · simp only [Context.names, List.mem_append] at h ⊢
        rcases h with (((h | h) | h) | h) | h
        · rcases Map.mem_keys_insert h with h | h
          · exact .inl ⟨h, hd⟩
          · simp [h]
        · simp [h]
        · simp [h]
        · simp [h]
        · simp [h]

/-- C29, over histories: in a debug build, whatever operations were attempted, a listed name is valid or an alias of an attempted registration. -/
theorem C29_debug_names_valid_partial (K : Keys) (config : Config) (os : List (Op N)) (x : Str)
    (h : x ∈ ((Context.withConfig config).runAll K true os).names) : ValidName x ∨ ∃ o ∈ os, x ∈ o.aliases := by
  suffices ∀ c : Context N, x ∈ (c.runAll K true os).names → ValidName x ∨ (∃ o ∈ os, x ∈ o.aliases) ∨ x ∈ c.names by
    rcases this _ h with h | h | h
    · exact .inl h
    · exact .inr h
    · simp [Context.withConfig, Context.names, Map.keys] at h
  clear h
  induction os with
  | nil => intro c h; exact .inr (.inr h)
  | cons o os ih =>
    intro c h
    rcases ih _ h with h | ⟨o', ho', h⟩ | h
    · exact .inl h
    · exact .inr (.inl ⟨o', by simp [ho'], h⟩)
    · rcases run_names K true c o h with ⟨rfl, hd⟩ | h | h
      · exact .inl (checkTokenName_ok.mp (by simpa [debugCheck] using hd))
      · exact .inr (.inl ⟨o, by simp, h⟩)
      · exact .inr (.inr h)

example : ¬ ValidName (str "a b") := by rintro ⟨_, h⟩; exact absurd (h ' ' (by decide)).1 (by decide)
example : ValidName (str "sum") := checkTokenName_ok.mp (by decide)

/-- C29 fails in release builds. -/
theorem C29_release_counterexample :
    ((Context.withConfig Config.new).run (Keys.byEq demoLowercase) false (.setVariable (str " ") (1 : Int))).1 = .ok none := by decide

/-- C29 fails for aliases, also in debug builds. -/
theorem C29_alias_counterexample :
    let c := ((Context.withConfig Config.new).run (Keys.byEq demoLowercase) true
      (.addFunctionAs ⟨str "f", [str " "], Demo.digits⟩ (str "f"))).2
    (c.view (Keys.byEq demoLowercase)).getFunction (str " ") = some Demo.digits := by rfl

/-! ## C30: grouping symbols -/

/-- The same context with another set of configured grouping symbols. -/
def Ctx.withGroupingSet (c : Ctx N) (g : List Grouping) : Ctx N := { c with config := { c.config with grouping := g } }

/-- C30 fails: `[` and `{` group although only parentheses are configured. -/
theorem C30_counterexample :
    (ctx false false).config.grouping = [.parenthesis] ∧
    eval Demo.parse (split defaultRules) (ctx false false) (str "2*[3+4]") = .ok 14 ∧
    eval Demo.parse (split defaultRules) (ctx false false) (str "2*{3+4}") = .ok 14 := by
  decide

theorem tokenizeLoop_grouping (parse : Str → Option N) (c : Ctx N) (g : List Grouping) (prev : Option Str) (ws : List Str) :
    tokenizeLoop parse (c.withGroupingSet g) prev ws = tokenizeLoop parse c prev ws := by
  have key : ∀ n (ws : List Str), ws.length ≤ n → ∀ prev,
      tokenizeLoop parse (c.withGroupingSet g) prev ws = tokenizeLoop parse c prev ws := by
    intro n
    induction n with
    | zero =>
      intro ws h prev
      cases ws with
      | nil => rfl
      | cons w ws => simp at h
    | succ n ih =>
      intro ws h prev
      cases ws with
      | nil => rfl
      | cons w ws =>
        simp only [List.length_cons, Nat.add_le_add_iff_right] at h
        unfold tokenizeLoop
        have e1 : (c.withGroupingSet g).config.complexNumber = c.config.complexNumber := rfl
        have e2 : operatorToken parse (c.withGroupingSet g) = operatorToken parse c := rfl
        have e3 : otherToken (c.withGroupingSet g) = otherToken c := rfl
        have e4 : (c.withGroupingSet g).isVariable = c.isVariable := rfl
        have e5 : (c.withGroupingSet g).isConstant = c.isConstant := rfl
        have e6 : (c.withGroupingSet g).isFunction = c.isFunction := rfl
        have e7 : (c.withGroupingSet g).isBinary = c.isBinary := rfl
        have e8 : (c.withGroupingSet g).isUnary = c.isUnary := rfl
        rw [e1, e2, e3, e4, e5, e6, e7, e8]
        cases ws with
        | nil => simp only [ih [] (by simp)]
        | cons w' ws =>
          simp only [List.length_cons] at h
          simp only [ih (w' :: ws) (by simp only [List.length_cons]; omega), ih ws (by omega)]
  exact key _ _ (Nat.le_refl _) _

theorem popForBinary_grouping (c : Ctx N) (g : List Grouping) (op : BinFn N) (ops out : List (Token N)) :
    popForBinary (c.withGroupingSet g) op ops out = popForBinary c op ops out := by
  induction ops generalizing out with
  | nil => rfl
  | cons t ops ih =>
    unfold popForBinary
    cases t <;> simp only [ih]
    rfl

theorem syLoop_grouping (c : Ctx N) (g : List Grouping) (tokens : List (Token N)) (pos : Nat) (rest : List (Token N)) (st : SY N) :
    syLoop (c.withGroupingSet g) tokens pos rest st = syLoop c tokens pos rest st := by
  induction rest generalizing pos st with
  | nil => rfl
  | cons t rest ih =>
    unfold syLoop
    have : syStep (c.withGroupingSet g) tokens pos t rest.head? st = syStep c tokens pos t rest.head? st := by
      have hd : dispatch (c.withGroupingSet g) tokens pos t rest.head? st = dispatch c tokens pos t rest.head? st := by
        cases t with
        | binary name =>
          simp only [dispatch, pushBinaryFunction, popForBinary_grouping]
          rfl
        | _ => rfl
      unfold syStep
      rw [hd]
      rfl
    rw [this]
    simp only [ih]

theorem rpnLoop_grouping (c : Ctx N) (g : List Grouping) (rpn : List (Token N)) (vs : List N) (a : Option Nat) :
    rpnLoop (c.withGroupingSet g) rpn vs a = rpnLoop c rpn vs a := by
  induction rpn generalizing vs a with
  | nil => rfl
  | cons t rpn ih =>
    unfold rpnLoop
    have : rpnStep (c.withGroupingSet g) t vs a = rpnStep c t vs a := rfl
    rw [this]
    simp only [ih]

/-- C30, what the code does instead, for every configuration: the set of configured grouping symbols has no influence on tokenizing,
converting or evaluating. Missing: everything the property claims. -/
theorem C30_grouping_set_ignored_partial (parse : Str → Option N) (splitter : Str → List Str) (c : Ctx N) (g : List Grouping) (s : Str)
    (tokens : List (Token N)) :
    tokenize parse splitter (c.withGroupingSet g) s = tokenize parse splitter c s ∧
    infixToRpn (c.withGroupingSet g) tokens = infixToRpn c tokens ∧
    evalTokens (c.withGroupingSet g) tokens = evalTokens c tokens ∧
    eval parse splitter (c.withGroupingSet g) s = eval parse splitter c s := by
  have h1 : tokenize parse splitter (c.withGroupingSet g) s = tokenize parse splitter c s := by
    unfold tokenize; rw [tokenizeLoop_grouping]
  have h2 : ∀ tokens, infixToRpn (c.withGroupingSet g) tokens = infixToRpn c tokens := by
    intro tokens; unfold infixToRpn; rw [syLoop_grouping]
  have h3 : ∀ tokens, evalTokens (c.withGroupingSet g) tokens = evalTokens c tokens := by
    intro tokens; unfold evalTokens; simp only [h2, rpnLoop_grouping]
  refine ⟨h1, h2 tokens, h3 tokens, ?_⟩
  unfold eval
  rw [h1]
  have : evalTokens (c.withGroupingSet g) = evalTokens c := funext h3
  rw [this]

example : (ctx false false).withGroupingSet [] ≠ ctx false false := by
  intro h
  have := congrArg (fun c => c.config.grouping) h
  simp [Ctx.withGroupingSet, ctx] at this

/-! ## C54: the order on names that ignore case -/

theorem cmpChars_swap (l m : List Char) : cmpChars m l = (cmpChars l m).swap := by
  induction l generalizing m with
  | nil => cases m <;> rfl
  | cons a l ih =>
    cases m with
    | nil => rfl
    | cons b m =>
      simp only [cmpChars]
      rw [← Nat.compare_swap a.toNat b.toNat]
      cases compare a.toNat b.toNat <;> simp [ih]

theorem cmpIgnoreCase_swap (L : Lowercase) (a b : Str) : cmpIgnoreCase L b a = (cmpIgnoreCase L a b).swap := by
  induction a generalizing b with
  | nil => cases b <;> rfl
  | cons x a ih =>
    cases b with
    | nil => rfl
    | cons y b =>
      simp only [cmpIgnoreCase]
      rw [cmpChars_swap (L.lower x) (L.lower y)]
      cases cmpChars (L.lower x) (L.lower y) <;> simp [ih]

theorem cmpChars_trans (l m n : List Char) (h : cmpChars l m = .lt) (h' : cmpChars m n = .lt) : cmpChars l n = .lt := by
  induction l generalizing m n with
  | nil =>
    cases m with
    | nil => simp [cmpChars] at h
    | cons b m => cases n with
      | nil => simp [cmpChars] at h'
      | cons d n => rfl
  | cons a l ih =>
    cases m with
    | nil => simp [cmpChars] at h
    | cons b m =>
      cases n with
      | nil => simp [cmpChars] at h'
      | cons d n =>
        simp only [cmpChars] at h h' ⊢
        cases h1 : compare a.toNat b.toNat with
        | gt => simp [h1] at h
        | lt =>
          have l1 := Nat.compare_eq_lt.mp h1
          cases h2 : compare b.toNat d.toNat with
          | gt => simp [h2] at h'
          | lt =>
            have l2 := Nat.compare_eq_lt.mp h2
            have : compare a.toNat d.toNat = .lt := Nat.compare_eq_lt.mpr (by omega)
            simp [this]
          | eq =>
            have l2 := Nat.compare_eq_eq.mp h2
            have : compare a.toNat d.toNat = .lt := Nat.compare_eq_lt.mpr (by omega)
            simp [this]
        | eq =>
          have l1 := Nat.compare_eq_eq.mp h1
          simp only [h1] at h
          rw [l1]
          cases h2 : compare b.toNat d.toNat with
          | gt => simp [h2] at h'
          | lt => rfl
          | eq => simp only [h2] at h' ⊢; exact ih m n h h'

theorem cmpIgnoreCase_trans (L : Lowercase) (a b d : Str) (h : cmpIgnoreCase L a b = .lt) (h' : cmpIgnoreCase L b d = .lt) :
    cmpIgnoreCase L a d = .lt := by
  induction a generalizing b d with
  | nil =>
    cases b with
    | nil => simp [cmpIgnoreCase] at h
    | cons y b => cases d with
      | nil => simp [cmpIgnoreCase] at h'
      | cons z d => rfl
  | cons x a ih =>
    cases b with
    | nil => simp [cmpIgnoreCase] at h
    | cons y b =>
      cases d with
      | nil => simp [cmpIgnoreCase] at h'
      | cons z d =>
        simp only [cmpIgnoreCase] at h h' ⊢
        cases h1 : cmpChars (L.lower x) (L.lower y) with
        | gt => simp [h1] at h
        | lt =>
          cases h2 : cmpChars (L.lower y) (L.lower z) with
          | gt => simp [h2] at h'
          | lt => rw [cmpChars_trans _ _ _ h1 h2]
          | eq => rw [← (cmpChars_eq _ _).mp h2, h1]
        | eq =>
          simp only [h1] at h
          rw [(cmpChars_eq _ _).mp h1]
          cases h2 : cmpChars (L.lower y) (L.lower z) with
          | gt => simp [h2] at h'
          | lt => rfl
          | eq => simp only [h2] at h' ⊢; exact ih b d h h'

/-- C54. Comparing names ignoring case is a total order that agrees with equality ignoring case, for any lower-case table; two names are
equal exactly if they agree character by character in lower case. -/
theorem C54_total_order (L : Lowercase) (a b d : Str) :
    cmpIgnoreCase L a a = .eq ∧ cmpIgnoreCase L b a = (cmpIgnoreCase L a b).swap ∧
    (cmpIgnoreCase L a b = .lt → cmpIgnoreCase L b d = .lt → cmpIgnoreCase L a d = .lt) ∧
    (cmpIgnoreCase L a b = .eq ↔ eqIgnoreCase L a b = true) ∧ (eqIgnoreCase L a b = true ↔ a.map L.lower = b.map L.lower) :=
  ⟨(cmpIgnoreCase_eq L a a).mpr rfl, cmpIgnoreCase_swap L a b, cmpIgnoreCase_trans L a b d, by simp [eqIgnoreCase], eqIgnoreCase_iff L a b⟩

/-- C54, the part about hashing that holds: names of ASCII characters that are equal ignoring case have equal hashes. Missing: other
characters, see the counterexample. -/
theorem C54_hash_ascii_partial (L : Lowercase) (a b : Str) (ha : a.all isAscii = true) (hb : b.all isAscii = true)
    (h : eqIgnoreCase L a b = true) : hashInput a = hashInput b :=
  ((Keys.byEq L).same_ascii ha hb).mp h

example : eqIgnoreCase demoLowercase (str "Sqrt") (str "sQRT") = true ∧ cmpIgnoreCase demoLowercase (str "Sin") (str "sinh") = .lt := by
  decide

/-- C54: equal names with different hashes. -/
theorem C54_hash_counterexample :
    eqIgnoreCase demoLowercase (str "π") (str "Π") = true ∧ hashInput (str "π") ≠ hashInput (str "Π") := by decide

/-! ## C55: constants -/

theorem run_getConstant (K : Keys) (debug : Bool) (c : Context N) (o : Op N) (x : Str) :
    ((c.run K debug o).2.view K).getConstant x =
      (lastConstant K.same x [(o, (c.run K debug o).1)]).or ((c.view K).getConstant x) := by
  cases o with
  | addFunctionAs f name => simp [Context.run, Context.view, lastConstant]
  | addUnaryFunctionAs f name => simp [Context.run, Context.view, lastConstant]
  | addBinaryFunctionAs f name => simp [Context.run, Context.view, lastConstant]
  | setVariable name v =>
    simp only [Context.run]
    split
    · simp [lastConstant]
    · simp [lastConstant]
    · split <;> simp [lastConstant, Context.view]
  | addConstant name v =>
    simp only [Context.run]
    split
    · simp [lastConstant]
    · simp [lastConstant]
    · split
      · simp [lastConstant]
      · simp only [lastConstant, Context.view, Map.get_insert K.equiv, Option.none_or]
        split <;> simp

theorem lastConstant_cons (same : Str → Str → Bool) (x : Str) (e : Op N × Res (Option N)) (t : List (Op N × Res (Option N))) :
    lastConstant same x (e :: t) = (lastConstant same x t).or (lastConstant same x [e]) := by
  obtain ⟨o, r⟩ := e
  cases o <;> cases r <;> simp [lastConstant]

/-- C55. After any history on a new context, a constant has the value of the last successful `add_constant` of that name: registering a
constant again replaces its value. -/
theorem C55_get_constant (K : Keys) (debug : Bool) (config : Config) (os : List (Op N)) (x : Str) :
    (((Context.withConfig config).runAll K debug os).view K).getConstant x =
      lastConstant K.same x ((Context.withConfig config : Context N).trace K debug os) := by
  suffices ∀ c : Context N, ((c.runAll K debug os).view K).getConstant x =
      (lastConstant K.same x (c.trace K debug os)).or ((c.view K).getConstant x) by
    rw [this]; simp [Context.withConfig, Context.view, Map.get]
  induction os with
  | nil => intro c; simp [Context.runAll, Context.trace, lastConstant]
  | cons o os ih =>
    intro c
    rw [Context.runAll, ih, Context.trace, lastConstant_cons, run_getConstant]
    cases lastConstant K.same x (Context.trace K debug (Context.run K debug c o).2 os) <;> simp

example : (((Context.withConfig Config.new).runAll (Keys.byEq demoLowercase) true
    [.addConstant (str "E") (2 : Int), .addConstant (str "e") 3]).view (Keys.byEq demoLowercase)).getConstant (str "E") = some 3 := by decide

end Prexel
