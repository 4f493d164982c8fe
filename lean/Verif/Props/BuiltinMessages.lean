import Verif.Model.BuiltinMessages
import Verif.Spec.Blame
import Verif.Lemmas.Values
import Verif.Props.FirstFault
import Verif.Props.Integer
import Verif.Props.Complex
/-!
# C128: what the errors of the built-in functions say
-/

namespace Prexel
variable {N F T : Type} {w : Width}

/-! ## Any text -/

theorem fixed_of_blame {D : Debugs N} {M : Inner N} {parse : Str → Option N} {c : Ctx N} (hu : ∀ u x, M.unary u x = none)
    (hb : ∀ b x y, M.binary b x y = none)
    (hf : ∀ f fn xs k, c.getFunction f = some fn → fn xs = .err k → k ≠ .invalidInput → M.function f xs = none) {s : Str} {e : Fault}
    (h : Told.eval D M parse (split defaultRules) c s = .err e) (h1 : e.kind ≠ .invalidInput) (h2 : e.kind ≠ .invalidExpression)
    (h3 : e.kind ≠ .empty) : e.message = none := by
  rcases C118_blame D M parse defaultRules_good defaultRules_skips c s e h with ⟨-, rfl⟩ | hr | ⟨ts, -, he⟩
  · exact absurd rfl h3
  · cases hr <;> first | exact absurd rfl h1 | exact absurd rfl h2
  · cases he with
    | function f _ fn hfn xs k hk => exact hf f fn xs k hfn hk h1
    | unary u _ fn hfn x k hk => exact hu u x
    | binary b _ fn hfn x y k hk => exact hb b x y
    | _ => first | exact absurd rfl h1 | exact absurd rfl h2 | rfl

theorem inner_none (f : F64 F) (num : Num N F) (display : F → Str) {table : List (Named (Fn N))}
    (ht : ∀ name, hashSame name (str "random") = true → lookup hashSame table name = some (Ops.random f num).fn) (name : Str) (fn : List N → Res N)
    (xs : List N) (k : ErrorKind) (hfn : lookup hashSame table name = some fn) (hk : fn xs = .err k) (hne : k ≠ .invalidInput) :
    (Ops.inner f num display).function name xs = none := by
  unfold Ops.inner
  dsimp only
  split
  · rename_i hn
    have := ht name hn
    rw [hfn] at this
    cases this
    rcases xs with _ | ⟨a, _ | ⟨b, _ | ⟨d, xs⟩⟩⟩ <;> try rfl
    simp only [Ops.random] at hk ⊢
    cases ha : Ops.tryToFloat f num a <;> simp only [ha, Res.bind_ok] at hk ⊢
    cases hb : Ops.tryToFloat f num b <;> simp only [hb, Res.bind_ok] at hk ⊢
    split at hk
    · cases hk; exact absurd rfl hne
    · rename_i hlt; simp [hlt]
  · rfl

theorem random_checked (docs : Bool) (f : F64 F) (num : Num N F) (name : Str) (h : hashSame name (str "random") = true) :
    lookup hashSame (Ops.checkedFunctions docs f num) name = some (Ops.random f num).fn := by
  have : lookup hashSame (Ops.checkedFunctions docs f num) name = lookup hashSame (Ops.checkedFunctions docs f num) (str "random") := by
    unfold lookup
    congr 2
    funext g
    congr 1
    funext a
    simp only [hashSame, beq_iff_eq] at h ⊢
    rw [h]
  rw [this]
  cases docs <;> rfl

theorem random_unchecked (f : F64 F) (num : Num N F) (name : Str) (h : hashSame name (str "random") = true) :
    lookup hashSame (Ops.uncheckedFunctions f num) name = some (Ops.random f num).fn := by
  have : lookup hashSame (Ops.uncheckedFunctions f num) name = lookup hashSame (Ops.uncheckedFunctions f num) (str "random") := by
    unfold lookup
    congr 2
    funext g
    congr 1
    funext a
    simp only [hashSame, beq_iff_eq] at h ⊢
    rw [h]
  rw [this]
  rfl

theorem values_function (K : Keys) (debug : Bool) (c : Context N) {os : List (Op N)} (hos : OnlyValues os) :
    ((c.runAll K debug os).view K).getFunction = (c.view K).getFunction := by
  simp only [Context.view, (runAll_values K debug hos c).2.1]

/-- C128. In a context with the built-in functions, to which only variables and constants were added, every error of every text has the fixed text of its kind,
unless it is `InvalidInput`, `InvalidExpression` or `Empty`. `ctx` is the checked or the unchecked context. -/
theorem C128_fixed_text (K : Keys) (debug docs : Bool) (f : F64 F) (num : Num N F) (display : F → Str) (config : Config) (c : Context N)
    (hc : Context.checked K debug docs f num config = .ok c ∨ Context.unchecked K debug f num config = .ok c) (os : List (Op N)) (hos : OnlyValues os)
    (D : Debugs N) (parse : Str → Option N) (s : Str) (e : Fault)
    (h : Told.eval D (Ops.inner f num display) parse (split defaultRules) ((c.runAll K debug os).view K) s = .err e) (h1 : e.kind ≠ .invalidInput)
    (h2 : e.kind ≠ .invalidExpression) (h3 : e.kind ≠ .empty) : e.text = e.kind.text := by
  have : e.message = none := by
    refine fixed_of_blame (fun _ _ => rfl) (fun _ _ _ => rfl) (fun name fn xs k hfn hk hne => ?_) h h1 h2 h3
    rw [values_function K debug c hos] at hfn
    rcases hc with hc | hc
    · obtain ⟨pi, e', hv⟩ := checked_inv hc
      rw [hv] at hfn
      exact inner_none f num display (random_checked docs f num) name fn xs k hfn hk hne
    · obtain ⟨pi, e', hv⟩ := unchecked_inv hc
      rw [hv] at hfn
      exact inner_none f num display (random_unchecked f num) name fn xs k hfn hk hne
  simp [Fault.text, this]

theorem complex_lookup (k : Cx T) {name name' : Str} (h : hashSame name name' = true) :
    lookup hashSame k.functions name = lookup hashSame k.functions name' := by
  unfold lookup
  congr 2
  funext g
  congr 1
  funext a
  simp only [hashSame, beq_iff_eq] at h ⊢
  rw [h]

/-- C128 over complex numbers. -/
theorem C128_complex_fixed_text (K : Keys) (debug : Bool) (k : Cx T) (display : T → Str) (config : Config) (c : Context (Cplx T))
    (hc : k.context K debug config = .ok c) (os : List (Op (Cplx T))) (hos : OnlyValues os) (D : Debugs (Cplx T)) (parse : Str → Option (Cplx T)) (s : Str)
    (e : Fault) (h : Told.eval D (k.inner display) parse (split defaultRules) ((c.runAll K debug os).view K) s = .err e) (h1 : e.kind ≠ .invalidInput)
    (h2 : e.kind ≠ .invalidExpression) (h3 : e.kind ≠ .empty) : e.text = e.kind.text := by
  have : e.message = none := by
    refine fixed_of_blame (fun _ _ => rfl) (fun _ _ _ => rfl) (fun name fn xs kd hfn hk hne => ?_) h h1 h2 h3
    rw [values_function K debug c hos] at hfn
    obtain ⟨pi, e', -, -, hv⟩ := complex_inv hc
    rw [hv] at hfn
    unfold Cx.inner
    dsimp only
    split
    · rename_i hn
      have hl : lookup hashSame k.functions name = some k.logFn.fn := (complex_lookup k hn).trans rfl
      have : some fn = some k.logFn.fn := hfn.symm.trans hl
      cases this
      rcases xs with _ | ⟨a, _ | ⟨b, _ | ⟨d, xs⟩⟩⟩ <;> try rfl
      simp only [Cx.logFn] at hk ⊢
      split at hk
      · cases hk
      · cases hk; exact absurd rfl hne
    · split
      · rename_i hn
        have hl : lookup hashSame k.functions name = some k.randFn.fn := (complex_lookup k hn).trans rfl
        have : some fn = some k.randFn.fn := hfn.symm.trans hl
        cases this
        rcases xs with _ | ⟨a, _ | ⟨b, _ | ⟨d, xs⟩⟩⟩ <;> try rfl
        · simp only [Cx.randFn, Cx.tryGetReal] at hk ⊢
          split at hk
          · cases hk; exact absurd rfl hne
          · rename_i ha; simp [ha]
        · simp only [Cx.randFn, Cx.tryGetReal] at hk ⊢
          split at hk
          · cases hk; exact absurd rfl hne
          · rename_i ha
            simp only [Res.bind_ok] at hk
            split at hk
            · cases hk; exact absurd rfl hne
            · rename_i hb
              simp only [Res.bind_ok] at hk
              split at hk
              · cases hk; exact absurd rfl hne
              · rename_i hs; simp only [ha, hb, hs]; rfl
      · rfl
  simp [Fault.text, this]

/-! ## `random` -/

theorem told_call (D : Debugs N) (M : Inner N) (ctx : Ctx N) {name : Str} {g : Fn N} (h : ctx.getFunction name = some g) (x : N) (xs : List N) :
    Told.evalTokens D M ctx (callTokens name (x :: xs)) = Told.ofRes (g (x :: xs)) (M.function name (x :: xs)) := by
  have := toldTokens_told D M ctx (.call name .parenthesis (numArgs x xs)) ⟨.inl rfl, numArgs_wf ctx x xs⟩
  simp only [Expr.render, numArgs_render] at this
  refine (show Told.evalTokens D M ctx (callTokens name (x :: xs)) = _ from this).trans ?_
  have hargs : (numArgs x xs).told M ctx = .ok (x :: xs) := Told.ok_of_plain (by rw [Args.told_plain]; exact numArgs_denote ctx x xs)
  simp [Expr.told, hargs, toldCall, h, Told.ofOption]

/-- C128, `random`: if the lower bound is above the upper bound, the message shows both. -/
theorem C128_random (K : Keys) (debug docs : Bool) (f : F64 F) (num : Num N F) (display : F → Str) (config : Config) (c : Context N)
    (hc : Context.checked K debug docs f num config = .ok c ∨ Context.unchecked K debug f num config = .ok c) (os : List (Op N)) (D : Debugs N)
    (x y : N) (lo hi : F) (hx : num.toF64 x = some lo) (hy : num.toF64 y = some hi) (hlo : f.notFinite lo = false) (hhi : f.notFinite hi = false)
    (hlt : f.lt hi lo = true) :
    Told.evalTokens D (Ops.inner f num display) ((c.runAll K debug os).view K) (callTokens (str "random") [x, y]) =
      .err (.new .invalidInput (str "Invalid range for `Random`: min > max, " ++ display lo ++ str " > " ++ display hi)) := by
  have hg : (c.view K).getFunction (str "random") = some (Ops.random f num).fn := by
    rcases hc with hc | hc
    · obtain ⟨pi, e, hv⟩ := checked_inv hc
      rw [hv]; cases docs <;> rfl
    · obtain ⟨pi, e, hv⟩ := unchecked_inv hc
      rw [hv]; rfl
  rw [told_call D _ _ ((C26_never_replaced K debug c os _).1 _ hg)]
  have h1 : Ops.tryToFloat f num x = .ok lo := by simp [Ops.tryToFloat, hx, hlo]
  have h2 : Ops.tryToFloat f num y = .ok hi := by simp [Ops.tryToFloat, hy, hhi]
  have h3 : (Ops.random f num).fn [x, y] = .err .invalidInput := by simp [Ops.random, h1, h2, hlt]
  have h4 : (Ops.inner f num display).function (str "random") [x, y] =
      some (str "Invalid range for `Random`: min > max, " ++ display lo ++ str " > " ++ display hi) := by simp [Ops.inner, h1, h2, hlt]
  rw [h3, h4]
  rfl

/-- The hypotheses are met by `random(5, 2)`. -/
example : ∃ c, Context.checked Demo.keys true true Demo.float (Demo.int i32 true) Config.new = .ok c ∧ ∀ D,
    Told.evalTokens D (Ops.inner Demo.float (Demo.int i32 true) fun x => (toString x).toList) (c.view Demo.keys)
      (callTokens (str "random") [Demo.i32 5, Demo.i32 2]) = .err (.new .invalidInput (str "Invalid range for `Random`: min > max, 5 > 2")) := by
  obtain ⟨c, hc⟩ := demo_checked true true
  exact ⟨c, hc, fun D => C128_random Demo.keys true true Demo.float _ _ Config.new c (.inl hc) [] D (Demo.i32 5) (Demo.i32 2) 5 2 rfl rfl rfl rfl rfl⟩

/-- C128, the messages of the functions over complex numbers: `log(z, b)` with a real base `b`; `random` with a bound that is not real; `random(a, b)` with a bound
whose sign is negative. -/
theorem C128_complex_messages (K : Keys) (debug : Bool) (k : Cx T) (display : T → Str) (config : Config) (c : Context (Cplx T))
    (hc : k.context K debug config = .ok c) (os : List (Op (Cplx T))) (D : Debugs (Cplx T)) :
    let told := fun name args => Told.evalTokens D (k.inner display) ((c.runAll K debug os).view K) (callTokens (str name) args)
    (∀ z b, k.isZero b.im = true → told "log" [z, b] = .err (.new .invalidInput (str "Expected decimal base"))) ∧
    (∀ z, k.isZero z.im = false → told "random" [z] = .err (.new .invalidInput (str "Random(...) only accepts real numbers as arguments"))) ∧
    (∀ z w, k.isZero z.im = false ∨ k.isZero w.im = false →
      told "random" [z, w] = .err (.new .invalidInput (str "Random(...) only accepts real numbers as arguments"))) ∧
    (∀ z w, k.isZero z.im = true → k.isZero w.im = true → k.isSignNegative z.re = true ∨ k.isSignNegative w.re = true →
      told "random" [z, w] = .err (.new .invalidInput (str "Invalid `Random` arguments: `min > max`, " ++ display z.re ++ str " > " ++ display w.re))) := by
  intro told
  obtain ⟨pi, e, -, -, hv⟩ := complex_inv hc
  have hl : (c.view K).getFunction (str "log") = some k.logFn.fn := by rw [hv]; rfl
  have hr : (c.view K).getFunction (str "random") = some k.randFn.fn := by rw [hv]; rfl
  have log := fun x xs => told_call D (k.inner display) _ ((C26_never_replaced K debug c os _).1 _ hl) x xs
  have rand := fun x xs => told_call D (k.inner display) _ ((C26_never_replaced K debug c os _).1 _ hr) x xs
  have ne : hashInput (str "random") ≠ hashInput (str "log") := by decide
  refine ⟨fun z b h => ?_, fun z h => ?_, fun z v h => ?_, fun z v h1 h2 h3 => ?_⟩
  · refine (log z [b]).trans ?_
    have h1 : k.logFn.fn [z, b] = .err .invalidInput := by simp [Cx.logFn, h]
    have h2 : (k.inner display).function (str "log") [z, b] = some (str "Expected decimal base") := by simp [Cx.inner, h]
    rw [h1, h2]; rfl
  · refine (rand z []).trans ?_
    have h1 : k.randFn.fn [z] = .err .invalidInput := by simp [Cx.randFn, Cx.tryGetReal, h]
    have h2 : (k.inner display).function (str "random") [z] = some (str "Random(...) only accepts real numbers as arguments") := by
      simp [Cx.inner, h, ne]
    rw [h1, h2]; rfl
  · refine (rand z [v]).trans ?_
    have h1 : k.randFn.fn [z, v] = .err .invalidInput := by
      rcases h with h | h
      · simp [Cx.randFn, Cx.tryGetReal, h]
      · cases hz : k.isZero z.im <;> simp [Cx.randFn, Cx.tryGetReal, h, hz]
    have h2 : (k.inner display).function (str "random") [z, v] = some (str "Random(...) only accepts real numbers as arguments") := by
      rcases h with h | h <;> simp [Cx.inner, h, ne]
    rw [h1, h2]; rfl
  · refine (rand z [v]).trans ?_
    have h4 : k.randFn.fn [z, v] = .err .invalidInput := by
      rcases h3 with h | h <;> simp [Cx.randFn, Cx.tryGetReal, h, h1, h2]
    have h5 : (k.inner display).function (str "random") [z, v] =
        some (str "Invalid `Random` arguments: `min > max`, " ++ display z.re ++ str " > " ++ display v.re) := by
      rcases h3 with h | h <;> simp [Cx.inner, h, ne, h1, h2]
    rw [h4, h5]; rfl

/-- C128 is false for `random` over complex numbers: for `random(-1, 2)` the message says that -1 is above 2. -/
theorem C128_counterexample : ∃ c, Demo.cx.newContext Demo.keys true = .ok c ∧ ∀ D : Debugs (Cplx Rat), ∃ display : Rat → Str,
    Told.evalTokens D (Demo.cx.inner display) (c.view Demo.keys) (callTokens (str "random") [⟨-1, 0⟩, ⟨2, 0⟩]) =
      .err (.new .invalidInput (str "Invalid `Random` arguments: `min > max`, -1 > 2")) := by
  obtain ⟨c, hc, -⟩ := C31_complex Demo.keys true Demo.cx (Config.new.withComplexNumber true) 3 2 rfl rfl
  refine ⟨c, hc, fun D => ⟨fun x => (toString x.num).toList, ?_⟩⟩
  exact ((C128_complex_messages Demo.keys true Demo.cx _ _ c hc [] D).2.2.2 ⟨-1, 0⟩ ⟨2, 0⟩ rfl rfl (.inl (by decide +kernel))).trans (by decide +kernel)

/-! ## Integers -/

/-- Kinds only. -/
def Ending.Plain (r : Res (SInt w)) : Ending → Prop
  | .value z => ∃ v, r = .ok v ∧ v.1 = z
  | .tooLarge => r = .err .overflow
  | .byZero => r = .err .divisionByZero

theorem fit_plain (z : Int) : (Ending.fit w z).Plain (Res.ofOption (SInt.of? z) .overflow : Res (SInt w)) := by
  rw [orOverflow_exactly]
  unfold Ending.fit exactly
  by_cases h : w.Fits z
  · simp only [h, if_true, dif_pos]; exact ⟨_, rfl, rfl⟩
  · simp only [h, if_false, dif_neg, not_false_eq_true]; rfl

theorem quotient_fits (x y : SInt w) (hy : y.1 ≠ 0) : w.Fits (x.1.tdiv y.1) ↔ ¬ (x.1 = w.lo ∧ y.1 = -1) := by
  refine ⟨fun h h' => ?_, fun h => SInt.tdiv_fits x y h hy⟩
  rw [h'.1, h'.2, Int.tdiv_neg, Int.tdiv_one] at h
  have h1 := SInt.hi_eq w
  have h2 := h.2
  omega

theorem byHand_plain (f : F64 F) (debug : Bool) (toF64 : SInt w → F) (fromF64 : F → Option (SInt w)) (e : Arith (SInt w)) (hb : e.Basic) :
    e.byHand.Plain (e.value (checkedArithmetic f (SInt.num w debug toF64 fromF64))) := by
  induction e with
  | num n => exact ⟨n, rfl, rfl⟩
  | fact e => exact absurd hb (by simp [Arith.Basic])
  | neg e ih =>
    have := ih hb
    simp only [Arith.value, Arith.byHand]
    cases h : e.byHand with
    | value x =>
      rw [h] at this
      obtain ⟨v, h1, rfl⟩ := this
      rw [h1]
      exact fit_plain _
    | tooLarge => rw [h] at this; rw [show _ = Res.err _ from this]; rfl
    | byZero => rw [h] at this; rw [show _ = Res.err _ from this]; rfl
  | bin o l r ihl ihr =>
    obtain ⟨ho, hl, hr⟩ := hb
    have h1 := ihl hl
    have h2 := ihr hr
    simp only [Arith.value, Arith.byHand]
    cases h : l.byHand with
    | tooLarge => rw [h] at h1; rw [show _ = Res.err _ from h1]; rfl
    | byZero => rw [h] at h1; rw [show _ = Res.err _ from h1]; rfl
    | value x =>
      rw [h] at h1
      obtain ⟨x, hx, rfl⟩ := h1
      rw [hx]
      cases h' : r.byHand with
      | tooLarge => rw [h'] at h2; rw [show _ = Res.err _ from h2]; rfl
      | byZero => rw [h'] at h2; rw [show _ = Res.err _ from h2]; rfl
      | value y =>
        rw [h'] at h2
        obtain ⟨y, hy, rfl⟩ := h2
        rw [hy]
        simp only [Res.bind_ok]
        cases o with
        | add => exact fit_plain _
        | sub => exact fit_plain _
        | mul => exact fit_plain _
        | pow => exact absurd rfl ho
        | div =>
          simp only [checkedArithmetic, SInt.num, SInt.checkedDivision, Ending.step]
          by_cases h0 : y.1 = 0
          · simp only [h0, beq_self_eq_true, if_true]; rfl
          · simp only [beq_iff_eq, h0, if_false]
            split
            · rename_i hm
              have := mt (quotient_fits x y h0).1 (by simpa using hm)
              simp only [Ending.fit, this, if_false]
              rfl
            · exact fit_plain _
        | mod =>
          simp only [checkedArithmetic, SInt.num, SInt.checkedDivision, Ending.step]
          by_cases h0 : y.1 = 0
          · simp only [h0, beq_self_eq_true, if_true]; rfl
          · simp only [beq_iff_eq, h0, if_false]
            split
            · rename_i hm
              have := mt (quotient_fits x y h0).1 (by simpa using hm)
              simp only [this, if_false]
              rfl
            · rename_i hm
              simp only [(quotient_fits x y h0).2 hm, if_true]
              exact ⟨⟨_, SInt.tmod_fits x y⟩, by simp [SInt.of?_fits (SInt.tmod_fits x y), Res.ofOption], rfl⟩

/-- C128 over integers: an expression of sums, differences, products, quotients, remainders and signs, written with decimal literals and white space between the
words, ends as the calculation by hand does: with its value; or at the first result that does not fit, with the text `Value has overflow`; or at the first
division by zero, with the text `Cannot divide by zero`. -/
theorem C128_integers (K : Keys) (debug docs : Bool) (f : F64 F) (toF64 : SInt w → F) (fromF64 : F → Option (SInt w)) (display : F → Str)
    (config : Config) (hcx : config.complexNumber = false) (c : Context (SInt w))
    (hc : Context.checked K debug docs f (SInt.num w debug toF64 fromF64) config = .ok c) (D : Debugs (SInt w))
    (e : Arith (SInt w)) (hb : e.Basic) (hpos : ∀ n, .number n ∈ e.tokens → 0 ≤ n.1) (s : Str)
    (hsp : Spaced (e.tokens.map (wordOf decimal)) s) :
    let r := Told.eval D (Ops.inner f (SInt.num w debug toF64 fromF64) display) (SInt.parse w) (split defaultRules) (c.view K) s
    match e.byHand with
    | .value z => ∃ v, r = .ok v ∧ v.1 = z
    | .tooLarge => ∃ e, r = .err e ∧ e.kind = .overflow ∧ e.text = str "Value has overflow"
    | .byZero => ∃ e, r = .err e ∧ e.kind = .divisionByZero ∧ e.text = str "Cannot divide by zero" := by
  intro r
  have hr : r.plain = e.value (checkedArithmetic f (SInt.num w debug toF64 fromF64)) :=
    (Told.eval_plain D _ _ _ _ s).trans (integer_text_value K debug docs f toF64 fromF64 config hcx c hc e hpos s hsp)
  have hp := byHand_plain f debug toF64 fromF64 e hb
  rw [← hr] at hp
  have fixed : ∀ e' : Fault, r = .err e' → e'.kind ≠ .invalidInput → e'.kind ≠ .invalidExpression → e'.kind ≠ .empty → e'.text = e'.kind.text :=
    fun e' h => C128_fixed_text K debug docs f _ display config c (.inl hc) [] (by simp [OnlyValues]) D (SInt.parse w) s e' h
  clear_value r
  cases h : e.byHand with
  | value z =>
    rw [h] at hp
    obtain ⟨v, h1, h2⟩ := hp
    exact ⟨v, Told.ok_of_plain h1, h2⟩
  | tooLarge =>
    rw [h] at hp
    cases r with
    | ok v => cases hp
    | panic => cases hp
    | err e' =>
      have hk : e'.kind = .overflow := Res.err.inj hp
      refine ⟨e', rfl, hk, ?_⟩
      rw [fixed e' rfl (by rw [hk]; decide) (by rw [hk]; decide) (by rw [hk]; decide), hk]; rfl
  | byZero =>
    rw [h] at hp
    cases r with
    | ok v => cases hp
    | panic => cases hp
    | err e' =>
      have hk : e'.kind = .divisionByZero := Res.err.inj hp
      refine ⟨e', rfl, hk, ?_⟩
      rw [fixed e' rfl (by rw [hk]; decide) (by rw [hk]; decide) (by rw [hk]; decide), hk]; rfl

/-- The hypotheses are met: `1 / 0 + 2147483647 * 2` ends at the division by zero, which comes first, `2147483647 * 2 + 1 / 0` at the product. -/
example : ∃ c, Context.checked Demo.keys true true Demo.float (Demo.int i32 true) Config.new = .ok c ∧
    ∀ D display,
      (∃ e, Told.eval D (Ops.inner Demo.float (Demo.int i32 true) display) (SInt.parse i32) (split defaultRules) (c.view Demo.keys)
        (str "1 / 0 + 2147483647 * 2") = .err e ∧ e.text = str "Cannot divide by zero") ∧
      ∃ e, Told.eval D (Ops.inner Demo.float (Demo.int i32 true) display) (SInt.parse i32) (split defaultRules) (c.view Demo.keys)
        (str "2147483647 * 2 + 1 / 0") = .err e ∧ e.text = str "Value has overflow" := by
  obtain ⟨c, hc⟩ := demo_checked true true
  refine ⟨c, hc, fun D display => ⟨?_, ?_⟩⟩
  · obtain ⟨e, h1, -, h2⟩ := C128_integers Demo.keys true true Demo.float _ _ display Config.new rfl c hc D
      (.bin .add (.bin .div (.num (Demo.i32 1)) (.num (Demo.i32 0))) (.bin .mul (.num (Demo.i32 2147483647)) (.num (Demo.i32 2))))
      (by simp [Arith.Basic])
      (by intro n hn; simp [Arith.tokens, atLevel, ArOp.leftLevel, ArOp.rightLevel, ArOp.level, Arith.level] at hn
          rcases hn with rfl | rfl | rfl | rfl <;> decide) (str "1 / 0 + 2147483647 * 2") (by
        show Spaced [['1'], ['/'], ['0'], ['+'], str "2147483647", ['*'], ['2']] (str "1 / 0 + 2147483647 * 2")
        refine .cons [] ['1'] ' ' _ _ _ (by decide) (by decide) ?_
        refine .cons [] ['/'] ' ' _ _ _ (by decide) (by decide) ?_
        refine .cons [] ['0'] ' ' _ _ _ (by decide) (by decide) ?_
        refine .cons [] ['+'] ' ' _ _ _ (by decide) (by decide) ?_
        refine .cons [] (str "2147483647") ' ' _ _ _ (by decide) (by decide) ?_
        refine .cons [] ['*'] ' ' _ _ _ (by decide) (by decide) ?_
        exact .last [] ['2'] [] (by decide) (by decide))
    exact ⟨e, h1, h2⟩
  · obtain ⟨e, h1, -, h2⟩ := C128_integers Demo.keys true true Demo.float _ _ display Config.new rfl c hc D
      (.bin .add (.bin .mul (.num (Demo.i32 2147483647)) (.num (Demo.i32 2))) (.bin .div (.num (Demo.i32 1)) (.num (Demo.i32 0))))
      (by simp [Arith.Basic])
      (by intro n hn; simp [Arith.tokens, atLevel, ArOp.leftLevel, ArOp.rightLevel, ArOp.level, Arith.level] at hn
          rcases hn with rfl | rfl | rfl | rfl <;> decide) (str "2147483647 * 2 + 1 / 0") (by
        show Spaced [str "2147483647", ['*'], ['2'], ['+'], ['1'], ['/'], ['0']] (str "2147483647 * 2 + 1 / 0")
        refine .cons [] (str "2147483647") ' ' _ _ _ (by decide) (by decide) ?_
        refine .cons [] ['*'] ' ' _ _ _ (by decide) (by decide) ?_
        refine .cons [] ['2'] ' ' _ _ _ (by decide) (by decide) ?_
        refine .cons [] ['+'] ' ' _ _ _ (by decide) (by decide) ?_
        refine .cons [] ['1'] ' ' _ _ _ (by decide) (by decide) ?_
        refine .cons [] ['/'] ' ' _ _ _ (by decide) (by decide) ?_
        exact .last [] ['0'] [] (by decide) (by decide))
    exact ⟨e, h1, h2⟩

end Prexel
