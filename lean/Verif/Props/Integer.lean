import Verif.Props.Arith
import Verif.Lemmas.Fold
import Verif.Lemmas.Calls
/-!
# The built-in context over integers (C33 to C38, C58, C59)

`SInt w` is a signed integer type of any width (`i8` to `i128`, `isize`); conversions to and from `f64` are arbitrary.
-/

set_option linter.unusedVariables false
set_option linter.unusedSimpArgs false

namespace Prexel
variable {F : Type} {w : Width}

/-- The value of the factory method succeeds, so PI and E were representable. -/
theorem checked_inv {N : Type} {K : Keys} {debug docs : Bool} {f : F64 F} {num : Num N F} {config : Config} {c : Context N}
    (hc : Context.checked K debug docs f num config = .ok c) :
    ∃ pi e, c.view K = tablesCtx config [(str "PI", pi), (str "E", e)] (Ops.checkedBinary f num) (Ops.checkedUnary f num)
        (Ops.checkedFunctions docs f num) := by
  cases hpi : num.fromF64 f.pi with
  | none => simp [Context.checked, hpi] at hc
  | some pi =>
    cases he : num.fromF64 f.e with
    | none => simp [Context.checked, hpi, he] at hc
    | some e =>
      obtain ⟨c', hc', hv⟩ := checked_build K debug docs f num config pi e hpi he
      rw [hc] at hc'
      cases hc'
      exact ⟨pi, e, hv⟩

theorem unchecked_inv {N : Type} {K : Keys} {debug : Bool} {f : F64 F} {num : Num N F} {config : Config} {c : Context N}
    (hc : Context.unchecked K debug f num config = .ok c) :
    ∃ pi e, c.view K = tablesCtx config [(str "PI", pi), (str "E", e)] (Ops.uncheckedBinary f num) (Ops.uncheckedUnary f num)
        (Ops.uncheckedFunctions f num) := by
  cases hpi : num.fromF64 f.pi with
  | none => simp [Context.unchecked, hpi] at hc
  | some pi =>
    cases he : num.fromF64 f.e with
    | none => simp [Context.unchecked, hpi, he] at hc
    | some e =>
      obtain ⟨c', hc', hv⟩ := unchecked_build K debug f num config pi e hpi he
      rw [hc] at hc'
      cases hc'
      exact ⟨pi, e, hv⟩

/-- A built-in function of the checked context is still there after any operations. -/
theorem checked_call {N : Type} {K : Keys} {debug docs : Bool} {f : F64 F} {num : Num N F} {config : Config} {c : Context N}
    (hc : Context.checked K debug docs f num config = .ok c) (os : List (Op N)) {name : Str} {g : Fn N}
    (h : lookup hashSame (Ops.checkedFunctions docs f num) name = some g) (xs : List N) :
    evalTokens ((c.runAll K debug os).view K) (callTokens name xs) = g xs := by
  obtain ⟨pi, e, hv⟩ := checked_inv hc
  refine eval_call _ ((C26_never_replaced K debug c os _).1 _ ?_) xs
  rw [hv]; exact h

theorem unchecked_call {N : Type} {K : Keys} {debug : Bool} {f : F64 F} {num : Num N F} {config : Config} {c : Context N}
    (hc : Context.unchecked K debug f num config = .ok c) (os : List (Op N)) {name : Str} {g : Fn N}
    (h : lookup hashSame (Ops.uncheckedFunctions f num) name = some g) (xs : List N) :
    evalTokens ((c.runAll K debug os).view K) (callTokens name xs) = g xs := by
  obtain ⟨pi, e, hv⟩ := unchecked_inv hc
  refine eval_call _ ((C26_never_replaced K debug c os _).1 _ ?_) xs
  rw [hv]; exact h

theorem orOverflow_exactly (x : Int) : (Res.ofOption (SInt.of? x) .overflow : Res (SInt w)) = exactly x := by
  unfold exactly SInt.of?
  split <;> rfl

/-! ## C33: the operators -/

/-- C33. In the checked context over integers, `+`, `-`, `*` and the sign give the exact result, or `Overflow` exactly if it does not fit;
`/` gives `DivisionByZero` exactly for the divisor 0, and otherwise the quotient rounded towards zero, or `Overflow` exactly if that does not
fit. -/
theorem C33_checked_operators (K : Keys) (debug docs : Bool) (f : F64 F) (toF64 : SInt w → F) (fromF64 : F → Option (SInt w))
    (config : Config) (c : Context (SInt w))
    (hc : Context.checked K debug docs f (SInt.num w debug toF64 fromF64) config = .ok c) (os : List (Op (SInt w))) (x y : SInt w) :
    let ctx := (c.runAll K debug os).view K
    evalTokens ctx (infixTokens x ['+'] y) = exactly (x.1 + y.1) ∧
    evalTokens ctx (infixTokens x ['-'] y) = exactly (x.1 - y.1) ∧
    evalTokens ctx (infixTokens x ['*'] y) = exactly (x.1 * y.1) ∧
    evalTokens ctx (infixTokens x ['/'] y) = (if y.1 = 0 then .err .divisionByZero else exactly (x.1.tdiv y.1)) ∧
    evalTokens ctx [.unary ['-'], .number x] = exactly (-x.1) := by
  intro ctx
  have h := fun e => C32_checked K debug docs f _ config c hc os e
  refine ⟨?_, ?_, ?_, ?_, ?_⟩
  · exact (h (.bin .add (.num x) (.num y))).trans (orOverflow_exactly _)
  · exact (h (.bin .sub (.num x) (.num y))).trans (orOverflow_exactly _)
  · exact (h (.bin .mul (.num x) (.num y))).trans (orOverflow_exactly _)
  · refine (h (.bin .div (.num x) (.num y))).trans ?_
    simp only [Arith.value, Res.bind_ok, checkedArithmetic, SInt.num, SInt.checkedDivision]
    by_cases hy : y.1 = 0
    · simp [hy]
    · simp only [beq_iff_eq, hy, if_false]
      split
      · rename_i h1
        rw [h1.1, h1.2]
        have h2 := SInt.hi_eq w
        have h3 : ¬ w.Fits (w.lo.tdiv (-1)) := by
          rw [Int.tdiv_neg, Int.tdiv_one]
          rintro ⟨_, h⟩
          omega
        simp only [exactly, h3, Res.ofOption]; rfl
      · exact orOverflow_exactly _
  · exact (h (.neg (.num x))).trans (orOverflow_exactly _)

/-- C33, `mod`: the exact remainder, or `DivisionByZero` exactly for the divisor 0. Missing: `MIN mod -1`, see the counterexample. -/
theorem C33_checked_mod_partial (K : Keys) (debug docs : Bool) (f : F64 F) (toF64 : SInt w → F) (fromF64 : F → Option (SInt w))
    (config : Config) (c : Context (SInt w))
    (hc : Context.checked K debug docs f (SInt.num w debug toF64 fromF64) config = .ok c) (os : List (Op (SInt w))) (x y : SInt w) :
    (y.1 = 0 → evalTokens ((c.runAll K debug os).view K) (infixTokens x (str "mod") y) = .err .divisionByZero) ∧
    (y.1 ≠ 0 → ¬ (x.1 = w.lo ∧ y.1 = -1) → ∃ r : SInt w, r.1 = x.1.tmod y.1 ∧
      evalTokens ((c.runAll K debug os).view K) (infixTokens x (str "mod") y) = .ok r) := by
  have h := (C32_checked K debug docs f _ config c hc os) (.bin .mod (.num x) (.num y))
  have h' : evalTokens ((c.runAll K debug os).view K) (infixTokens x (str "mod") y) = _ := h
  rw [h']
  simp only [Arith.value, Res.bind_ok, checkedArithmetic, SInt.num, SInt.checkedDivision]
  refine ⟨fun hy => by simp [hy], fun hy hm => ⟨⟨_, SInt.tmod_fits x y⟩, rfl, ?_⟩⟩
  simp [hy, hm, SInt.of?_fits (SInt.tmod_fits x y), Res.ofOption]

/-- C33 is false for `MIN mod -1`, in every width: the remainder is 0, which fits, but the result is `Overflow`. -/
theorem C33_mod_counterexample (K : Keys) (debug docs : Bool) (f : F64 F) (toF64 : SInt w → F) (fromF64 : F → Option (SInt w))
    (config : Config) (c : Context (SInt w))
    (hc : Context.checked K debug docs f (SInt.num w debug toF64 fromF64) config = .ok c) (x y : SInt w) (hx : x.1 = w.lo)
    (hy : y.1 = -1) :
    x.1.tmod y.1 = 0 ∧ evalTokens (c.view K) (infixTokens x (str "mod") y) = .err .overflow := by
  refine ⟨by rw [hy]; simp [Int.tmod_neg], ?_⟩
  have h := (C32_checked K debug docs f _ config c hc []) (.bin .mod (.num x) (.num y))
  have h' : evalTokens (c.view K) (infixTokens x (str "mod") y) = _ := h
  rw [h']
  simp [Arith.value, checkedArithmetic, SInt.num, SInt.checkedDivision, hx, hy, Res.ofOption]

/-- A checked context over `i32` that the theorems apply to. -/
theorem demo_checked (debug docs : Bool) : ∃ c, Context.checked Demo.keys debug docs Demo.float (Demo.int i32 debug) Config.new = .ok c := by
  obtain ⟨c, hc, -⟩ := checked_build Demo.keys debug docs Demo.float (Demo.int i32 debug) Config.new (Demo.i32 3) (Demo.i32 2)
    (by cases debug <;> decide) (by cases debug <;> decide)
  exact ⟨c, hc⟩

example : ∃ c, Context.checked Demo.keys true true Demo.float (Demo.int i32 true) Config.new = .ok c ∧
    evalTokens (c.view Demo.keys) (infixTokens (Demo.i32 2147483647) ['+'] (Demo.i32 1)) = .err .overflow ∧
    evalTokens (c.view Demo.keys) (infixTokens (Demo.i32 (-7)) ['/'] (Demo.i32 2)) = .ok (Demo.i32 (-3)) := by
  obtain ⟨c, hc⟩ := demo_checked true true
  have := C33_checked_operators Demo.keys true true Demo.float _ _ Config.new c hc []
  exact ⟨c, hc, (this _ _).1.trans (by decide), (this _ _).2.2.2.1.trans (by decide)⟩

/-! ## C34: whole expressions -/

/-- An outcome of exact arithmetic. -/
def ExactOutcome (e : Arith (SInt w)) (r : Res (SInt w)) : Prop :=
  (∃ v, r = .ok v ∧ e.exact = some v.1) ∨ r = .err .overflow ∨ (r = .err .divisionByZero ∧ e.exact = none)

theorem exactly_cases (x : Int) : (∃ v : SInt w, (exactly x : Res (SInt w)) = .ok v ∧ v.1 = x) ∨ (exactly x : Res (SInt w)) = .err .overflow := by
  unfold exactly
  split
  · rename_i h; exact .inl ⟨⟨x, h⟩, rfl, rfl⟩
  · exact .inr rfl

theorem outcome (f : F64 F) (debug : Bool) (toF64 : SInt w → F) (fromF64 : F → Option (SInt w)) (e : Arith (SInt w)) (hb : e.Basic) :
    ExactOutcome e (e.value (checkedArithmetic f (SInt.num w debug toF64 fromF64))) := by
  induction e with
  | num n => exact .inl ⟨n, rfl, rfl⟩
  | fact e => exact absurd hb (by simp [Arith.Basic])
  | neg e ih =>
    rcases ih hb with ⟨v, h1, h2⟩ | h1 | ⟨h1, h2⟩
    · simp only [Arith.value, h1, Res.bind_ok]
      show ExactOutcome _ (Res.ofOption (SInt.of? (-v.1)) .overflow)
      rw [orOverflow_exactly]
      rcases exactly_cases (w := w) (-v.1) with ⟨u, h3, h4⟩ | h3
      · exact .inl ⟨u, h3, by simp [Arith.exact, h2, h4]⟩
      · exact .inr (.inl h3)
    · exact .inr (.inl (by simp [Arith.value, h1]))
    · exact .inr (.inr ⟨by simp [Arith.value, h1], by simp [Arith.exact, h2]⟩)
  | bin o l r ihl ihr =>
    obtain ⟨ho, hl, hr⟩ := hb
    rcases ihl hl with ⟨x, h1, h2⟩ | h1 | ⟨h1, h2⟩
    · rcases ihr hr with ⟨y, h3, h4⟩ | h3 | ⟨h3, h4⟩
      · simp only [Arith.value, h1, h3, Res.bind_ok]
        have simple : ∀ z : Int, (Arith.bin o l r).exact = some z → ExactOutcome (.bin o l r) (exactly z) := by
          intro z hz
          rcases exactly_cases (w := w) z with ⟨u, h5, h6⟩ | h5
          · exact .inl ⟨u, h5, by rw [hz, h6]⟩
          · exact .inr (.inl h5)
        have hdiv : ∀ g : Int → Int → Int, (y.1 ≠ 0 → (Arith.bin o l r).exact = some (g x.1 y.1)) →
            (y.1 = 0 → (Arith.bin o l r).exact = none) →
            ExactOutcome (.bin o l r) (if (y.1 == 0) = true then .err .divisionByZero
              else Res.ofOption (SInt.checkedDivision g x y) .overflow) := by
          intro g hg hz
          by_cases hy : y.1 = 0
          · simp only [hy, beq_self_eq_true, if_true]
            exact .inr (.inr ⟨rfl, hz hy⟩)
          · simp only [beq_iff_eq, hy, if_false, SInt.checkedDivision]
            split
            · exact .inr (.inl rfl)
            · rw [orOverflow_exactly]; exact simple _ (hg hy)
        cases o with
        | add => simp only [checkedArithmetic, SInt.num, orOverflow_exactly]; exact simple _ (by simp [Arith.exact, h2, h4])
        | sub => simp only [checkedArithmetic, SInt.num, orOverflow_exactly]; exact simple _ (by simp [Arith.exact, h2, h4])
        | mul => simp only [checkedArithmetic, SInt.num, orOverflow_exactly]; exact simple _ (by simp [Arith.exact, h2, h4])
        | div => exact hdiv Int.tdiv (fun hy => by simp [Arith.exact, h2, h4, hy]) (fun hy => by simp [Arith.exact, h2, h4, hy])
        | mod => exact hdiv Int.tmod (fun hy => by simp [Arith.exact, h2, h4, hy]) (fun hy => by simp [Arith.exact, h2, h4, hy])
        | pow => exact absurd rfl ho
      · exact .inr (.inl (by simp [Arith.value, h1, h3]))
      · exact .inr (.inr ⟨by simp [Arith.value, h1, h3], by simp [Arith.exact, h4]⟩)
    · exact .inr (.inl (by simp [Arith.value, h1]))
    · exact .inr (.inr ⟨by simp [Arith.value, h1], by simp [Arith.exact, h2]⟩)

theorem allFit_value (f : F64 F) (debug : Bool) (toF64 : SInt w → F) (fromF64 : F → Option (SInt w)) (e : Arith (SInt w)) (hb : e.Basic)
    (hfit : e.AllFit) : ∃ v, e.value (checkedArithmetic f (SInt.num w debug toF64 fromF64)) = .ok v ∧ e.exact = some v.1 := by
  have key : ∀ z : Int, w.Fits z → ∃ v : SInt w, (Res.ofOption (SInt.of? z) .overflow : Res (SInt w)) = .ok v ∧ v.1 = z := by
    intro z hz
    exact ⟨⟨z, hz⟩, by simp [SInt.of?_fits hz, Res.ofOption], rfl⟩
  induction e with
  | num n => exact ⟨n, rfl, rfl⟩
  | fact e => exact absurd hb (by simp [Arith.Basic])
  | neg e ih =>
    obtain ⟨h1, x, h2, h3⟩ := hfit
    obtain ⟨v, h4, h5⟩ := ih hb h1
    simp only [Arith.value, h4, Res.bind_ok]
    have : x = -v.1 := by simpa [Arith.exact, h5] using h2.symm
    subst this
    obtain ⟨u, hu, hu'⟩ := key _ h3
    exact ⟨u, hu, by simp [Arith.exact, h5, hu']⟩
  | bin o l r ihl ihr =>
    obtain ⟨ho, hl, hr⟩ := hb
    obtain ⟨fl, fr, ⟨z, hz, hzf⟩, hmod⟩ := hfit
    obtain ⟨x, h1, h2⟩ := ihl hl fl
    obtain ⟨y, h3, h4⟩ := ihr hr fr
    obtain ⟨u, hu, hu'⟩ := key _ hzf
    refine ⟨u, ?_, by rw [hz, hu']⟩
    simp only [Arith.value, h1, h3, Res.bind_ok]
    cases o with
    | add =>
      have : z = x.1 + y.1 := by simpa [Arith.exact, h2, h4] using hz.symm
      subst this; exact hu
    | sub =>
      have : z = x.1 - y.1 := by simpa [Arith.exact, h2, h4] using hz.symm
      subst this; exact hu
    | mul =>
      have : z = x.1 * y.1 := by simpa [Arith.exact, h2, h4] using hz.symm
      subst this; exact hu
    | div =>
      have h5 : y.1 ≠ 0 := by intro h0; simp [Arith.exact, h2, h4, h0] at hz
      have : z = x.1.tdiv y.1 := by simpa [Arith.exact, h2, h4, h5] using hz.symm
      subst this
      have h6 : ¬ (x.1 = w.lo ∧ y.1 = -1) := by
        rintro ⟨h7, h8⟩
        rw [h7, h8, Int.tdiv_neg, Int.tdiv_one] at hzf
        have := SInt.hi_eq w
        have := hzf.2
        omega
      simp only [checkedArithmetic, SInt.num, SInt.checkedDivision, beq_iff_eq, h5, if_false, h6]
      exact hu
    | mod =>
      have h5 : y.1 ≠ 0 := by intro h0; simp [Arith.exact, h2, h4, h0] at hz
      have : z = x.1.tmod y.1 := by simpa [Arith.exact, h2, h4, h5] using hz.symm
      subst this
      have h6 : ¬ (x.1 = w.lo ∧ y.1 = -1) := fun ⟨h7, h8⟩ => hmod ⟨rfl, by rw [h2, h7], by rw [h4, h8]⟩
      simp only [checkedArithmetic, SInt.num, SInt.checkedDivision, beq_iff_eq, h5, if_false, h6]
      exact hu
    | pow => exact absurd rfl ho

/-- C34. In the checked context over integers, an expression of sums, differences, products, quotients, remainders and signs gives its exact
value over the unbounded integers, or `Overflow`, or `DivisionByZero`, the latter only if it has no exact value. It never panics. -/
theorem C34_exact_or_error (K : Keys) (debug docs : Bool) (f : F64 F) (toF64 : SInt w → F) (fromF64 : F → Option (SInt w))
    (config : Config) (c : Context (SInt w))
    (hc : Context.checked K debug docs f (SInt.num w debug toF64 fromF64) config = .ok c) (os : List (Op (SInt w)))
    (e : Arith (SInt w)) (hb : e.Basic) :
    let r := evalTokens ((c.runAll K debug os).view K) e.tokens
    (∃ v, r = .ok v ∧ e.exact = some v.1) ∨ r = .err .overflow ∨ (r = .err .divisionByZero ∧ e.exact = none) := by
  intro r
  show ExactOutcome e r
  simp only [r, C32_checked K debug docs f _ config c hc os e]
  exact outcome f debug toF64 fromF64 e hb

/-- C34, when there is no error: if every part of the expression has a value that fits, the result is the exact value. -/
theorem C34_no_error (K : Keys) (debug docs : Bool) (f : F64 F) (toF64 : SInt w → F) (fromF64 : F → Option (SInt w))
    (config : Config) (c : Context (SInt w))
    (hc : Context.checked K debug docs f (SInt.num w debug toF64 fromF64) config = .ok c) (os : List (Op (SInt w)))
    (e : Arith (SInt w)) (hb : e.Basic) (hfit : e.AllFit) :
    ∃ v, evalTokens ((c.runAll K debug os).view K) e.tokens = .ok v ∧ e.exact = some v.1 := by
  rw [C32_checked K debug docs f _ config c hc os e]
  exact allFit_value f debug toF64 fromF64 e hb hfit

/-- How a number is written: decimal digits. -/
def decimal (n : SInt w) : Str := Nat.toDigits 10 n.1.toNat

theorem integer_text_value (K : Keys) (debug docs : Bool) (f : F64 F) (toF64 : SInt w → F) (fromF64 : F → Option (SInt w))
    (config : Config) (hcx : config.complexNumber = false) (c : Context (SInt w))
    (hc : Context.checked K debug docs f (SInt.num w debug toF64 fromF64) config = .ok c)
    (e : Arith (SInt w)) (hpos : ∀ n, .number n ∈ e.tokens → 0 ≤ n.1) (s : Str) (hsp : Spaced (e.tokens.map (wordOf decimal)) s) :
    eval (SInt.parse w) (split defaultRules) (c.view K) s = e.value (checkedArithmetic f (SInt.num w debug toF64 fromF64)) :=
  C32_checked_text K debug docs f _ config hcx c hc (SInt.parse w) decimal (by
      intro x hx
      simp only [arithWords, List.map_cons, List.map_nil, List.mem_cons, List.not_mem_nil, or_false] at hx
      rcases hx with rfl | rfl | rfl | rfl | rfl | rfl | rfl | rfl | rfl <;> rfl) e (by
      intro n hn
      have h0 := hpos n hn
      refine ⟨?_, SInt.split_digits Nat.toDigits_ne_nil (SInt.toDigits_isDigit (by decide) (by decide) _)⟩
      unfold SInt.parse decimal
      rw [SInt.fromStrRadix_toDigits (by decide) (by decide), SInt.of?_eq_some]
      omega) s hsp

/-- C34 from text: the expression is written with decimal literals (not negative; a sign is an operator) and white space between the words. -/
theorem C34_text (K : Keys) (debug docs : Bool) (f : F64 F) (toF64 : SInt w → F) (fromF64 : F → Option (SInt w))
    (config : Config) (hcx : config.complexNumber = false) (c : Context (SInt w))
    (hc : Context.checked K debug docs f (SInt.num w debug toF64 fromF64) config = .ok c)
    (e : Arith (SInt w)) (hb : e.Basic) (hpos : ∀ n, .number n ∈ e.tokens → 0 ≤ n.1) (s : Str)
    (hsp : Spaced (e.tokens.map (wordOf decimal)) s) :
    let r := eval (SInt.parse w) (split defaultRules) (c.view K) s
    ((∃ v, r = .ok v ∧ e.exact = some v.1) ∨ r = .err .overflow ∨ (r = .err .divisionByZero ∧ e.exact = none)) ∧
    (e.AllFit → ∃ v, r = .ok v ∧ e.exact = some v.1) := by
  intro r
  have : r = _ := integer_text_value K debug docs f toF64 fromF64 config hcx c hc e hpos s hsp
  rw [this]
  exact ⟨outcome f debug toF64 fromF64 e hb, fun h => allFit_value f debug toF64 fromF64 e hb h⟩

/-- `2 + 3 * -4` -/
def demoTree : Arith (SInt i32) := .bin .add (.num (Demo.i32 2)) (.bin .mul (.num (Demo.i32 3)) (.neg (.num (Demo.i32 4))))

example : ∃ c, Context.checked Demo.keys false false Demo.float (Demo.int i32 false) Config.new = .ok c ∧
    evalTokens (c.view Demo.keys) demoTree.tokens = .ok (Demo.i32 (-10)) ∧
    eval (SInt.parse i32) (split defaultRules) (c.view Demo.keys) (str "2 + 3 *  - 4") = .ok (Demo.i32 (-10)) := by
  obtain ⟨c, hc⟩ := demo_checked false false
  have hb : demoTree.Basic := by simp [demoTree, Arith.Basic]
  have hx : demoTree.exact = some (-10) := by decide
  have hf : demoTree.AllFit := by
    refine ⟨trivial, ⟨trivial, ⟨trivial, -4, by decide, by decide⟩, ⟨-12, by decide, by decide⟩, by decide⟩, ⟨-10, hx, by decide⟩, by decide⟩
  refine ⟨c, hc, ?_, ?_⟩
  · obtain ⟨v, h1, h2⟩ := C34_no_error Demo.keys false false Demo.float _ _ Config.new c hc [] demoTree hb hf
    have : v = Demo.i32 (-10) := Subtype.ext (Option.some.inj (h2.symm.trans hx))
    rw [← this]; exact h1
  · obtain ⟨v, h1, h2⟩ := (C34_text Demo.keys false false Demo.float _ _ Config.new rfl c hc demoTree hb
      (by intro n hn; simp [demoTree, Arith.tokens, atLevel, ArOp.leftLevel, ArOp.rightLevel, ArOp.level, Arith.level] at hn
          rcases hn with rfl | rfl | rfl <;> decide) (str "2 + 3 *  - 4") (by
        show Spaced [['2'], ['+'], ['3'], ['*'], ['-'], ['4']] ['2', ' ', '+', ' ', '3', ' ', '*', ' ', ' ', '-', ' ', '4']
        refine .cons [] ['2'] ' ' _ _ _ (by decide) (by decide) ?_
        refine .cons [] ['+'] ' ' _ _ _ (by decide) (by decide) ?_
        refine .cons [] ['3'] ' ' _ _ _ (by decide) (by decide) ?_
        refine .cons [] ['*'] ' ' _ _ _ (by decide) (by decide) ?_
        refine .cons [' '] ['-'] ' ' _ _ _ (by decide) (by decide) ?_
        exact .last [] ['4'] [] (by decide) (by decide))).2 hf
    have : v = Demo.i32 (-10) := Subtype.ext (Option.some.inj (h2.symm.trans hx))
    rw [← this]; exact h1

/-! ## C35: factorials -/

theorem factorial_call (f : F64 F) (debug : Bool) (toF64 : SInt w → F) (fromF64 : F → Option (SInt w)) (x : SInt w) :
    (Ops.factorial f (SInt.num w debug toF64 fromF64)).fn.call x =
      if x.1 < 0 then .err .negativeValue
      else if h : w.Fits (fact x.1.toNat) then .ok ⟨_, h⟩
      else if debug then .panic else .ok (SInt.wrap (fact x.1.toNat)) := by
  by_cases h0 : x.1 < 0
  · simp [Ops.factorial, SInt.num, h0, SInt.ofNat1]
  · by_cases h1 : x.1 = 0 ∨ x.1 = 1
    · have hf : w.Fits ((fact x.1.toNat : Nat) : Int) := by
        have : fact x.1.toNat = 1 := by rcases h1 with h1 | h1 <;> rw [h1] <;> rfl
        rw [this]
        exact (SInt.ofNat1 1 (by decide) : SInt w).2
      simp only [h0, if_false, hf, dif_pos]
      have : (⟨((fact x.1.toNat : Nat) : Int), hf⟩ : SInt w) = SInt.ofNat1 1 (by decide) := by
        apply Subtype.ext
        rcases h1 with h1 | h1 <;> simp [h1, fact, SInt.ofNat1]
      refine Eq.trans ?_ (congrArg Res.ok this).symm
      simp only [Ops.factorial, SInt.num]
      rcases h1 with h1 | h1 <;> simp [h1, SInt.ofNat1] <;> rfl
    · have h2 : 2 ≤ x.1 := by omega
      obtain ⟨m, hm⟩ : ∃ m : Nat, x.1 = (m : Int) + 1 := ⟨x.1.toNat - 1, by omega⟩
      have hfit : w.Fits (m : Int) := by
        have := x.2
        have h0 := SInt.lo_lt_zero w
        exact ⟨by omega, by have := this.2; omega⟩
      have htn : x.1.toNat = m + 1 := by omega
      have hsub : ∀ d, (SInt.num w d toF64 fromF64).sub x (SInt.num w d toF64 fromF64).one = .ok ⟨(m : Int), hfit⟩ := by
        intro d
        show SInt.arith d (x.1 - 1) = _
        have : x.1 - 1 = (m : Int) := by omega
        unfold SInt.arith
        rw [this, SInt.of?_fits hfit]
      have hcall : ∀ d, (Ops.factorial f (SInt.num w d toF64 fromF64)).fn.call x =
          (Ops.factorialLoop (SInt.num w d toF64 fromF64) (m + 1) x ⟨(m : Int), hfit⟩).bind fun r =>
            if (SInt.num w d toF64 fromF64).isZero r.2 then .ok r.1
            else match (SInt.num w d toF64 fromF64).toF64 r.1, (SInt.num w d toF64 fromF64).toF64 r.2 with
              | some t, some n => Ops.fromFloat (SInt.num w d toF64 fromF64) (f.mul t (f.gamma (f.add n f.one)))
              | _, _ => .err .overflow := by
        intro d
        unfold Ops.factorial
        simp only [hsub d]
        have e1 : (SInt.num w d toF64 fromF64).lt x (SInt.num w d toF64 fromF64).zero = false := by
          show decide (x.1 < 0) = false
          simp [h0]
        have e2 : (SInt.num w d toF64 fromF64).isZero x = false := by
          show (x.1 == 0) = false
          simp; omega
        have e3 : (SInt.num w d toF64 fromF64).isOne x = false := by
          show (x.1 == 1) = false
          simp; omega
        have e4 : (SInt.num w d toF64 fromF64).lt x (SInt.num w d toF64 fromF64).one = false := by
          show decide (x.1 < 1) = false
          simp; omega
        have e5 : (SInt.num w d toF64 fromF64).fuel x = m + 1 := htn
        simp only [e1, e2, e3, e4, e5]
        rfl
      have hmul : x.1 * ((fact m : Nat) : Int) = ((fact x.1.toNat : Nat) : Int) := by
        rw [htn, fact, hm]
        push_cast
        rfl
      simp only [h0, if_false]
      rw [hcall debug]
      cases debug with
      | true =>
        rcases factorialLoop_debug toF64 fromF64 (m + 1) m (by omega) x (by omega) ⟨(m : Int), hfit⟩ rfl with ⟨h3, h4⟩ | ⟨h3, h4⟩
        · have h3' : w.Fits ((fact x.1.toNat : Nat) : Int) := hmul ▸ h3
          simp only [h3', dif_pos]
          refine (congrArg (fun r => Res.bind r _) h4).trans ?_
          refine congrArg Res.ok ?_
          exact Subtype.ext hmul
        · have h3' : ¬ w.Fits ((fact x.1.toNat : Nat) : Int) := hmul ▸ h3
          simp only [h3', dif_neg, not_false_eq_true]
          refine (congrArg (fun r => Res.bind r _) h4).trans ?_
          rfl
      | false =>
        have hx : x = SInt.wrap x.1 := (wrap_fits x.2).symm
        have h4 := factorialLoop_release toF64 fromF64 (m + 1) m (by omega) x.1 ⟨(m : Int), hfit⟩ rfl
        rw [← hx, hmul] at h4
        have h5 : (Ops.factorialLoop (SInt.num w false toF64 fromF64) (m + 1) x ⟨(m : Int), hfit⟩).bind (fun r =>
            if (SInt.num w false toF64 fromF64).isZero r.2 then .ok r.1
            else match (SInt.num w false toF64 fromF64).toF64 r.1, (SInt.num w false toF64 fromF64).toF64 r.2 with
              | some t, some n => Ops.fromFloat (SInt.num w false toF64 fromF64) (f.mul t (f.gamma (f.add n f.one)))
              | _, _ => .err .overflow) = .ok (SInt.wrap (fact x.1.toNat)) :=
          (congrArg (fun r => Res.bind r _) h4).trans rfl
        refine h5.trans ?_
        by_cases h3 : w.Fits ((fact x.1.toNat : Nat) : Int)
        · simp only [h3, dif_pos]
          exact congrArg Res.ok (wrap_fits h3)
        · simp only [h3, dif_neg, not_false_eq_true]
          rfl

/-- C35, the part that holds: `n!` is the factorial if that fits, and `NegativeValue` for negative `n`. Missing: an error if it does not fit,
see the counterexample. -/
theorem C35_factorial_partial (K : Keys) (debug docs : Bool) (f : F64 F) (toF64 : SInt w → F) (fromF64 : F → Option (SInt w))
    (config : Config) (c : Context (SInt w))
    (hc : Context.checked K debug docs f (SInt.num w debug toF64 fromF64) config = .ok c) (os : List (Op (SInt w))) (x : SInt w) :
    let r := evalTokens ((c.runAll K debug os).view K) [.number x, .unary ['!']]
    (x.1 < 0 → r = .err .negativeValue) ∧
    (0 ≤ x.1 → w.Fits (fact x.1.toNat) → ∃ v, r = .ok v ∧ v.1 = fact x.1.toNat) := by
  intro r
  have hr : r = _ := (C32_checked K debug docs f _ config c hc os (.fact (.num x))).trans (factorial_call f debug toF64 fromF64 x)
  rw [hr]
  refine ⟨fun h => by simp [h], fun h hf => ?_⟩
  have : ¬ x.1 < 0 := by omega
  refine ⟨⟨_, hf⟩, ?_, rfl⟩
  simp [this, hf]

/-- C35 is false whenever the factorial does not fit: the checked context panics in a debug build and wraps around in a release build. -/
theorem C35_factorial_counterexample (K : Keys) (debug docs : Bool) (f : F64 F) (toF64 : SInt w → F) (fromF64 : F → Option (SInt w))
    (config : Config) (c : Context (SInt w))
    (hc : Context.checked K debug docs f (SInt.num w debug toF64 fromF64) config = .ok c) (x : SInt w) (hx : 0 ≤ x.1)
    (hf : ¬ w.Fits (fact x.1.toNat)) :
    evalTokens (c.view K) [.number x, .unary ['!']] =
      if debug then .panic else .ok (SInt.wrap (fact x.1.toNat)) := by
  refine ((C32_checked K debug docs f _ config c hc [] (.fact (.num x))).trans (factorial_call f debug toF64 fromF64 x)).trans ?_
  have : ¬ x.1 < 0 := by omega
  simp [this, hf]

/-- `13!` over `i32`: the factorial is 6227020800; the release build answers 1932053504. -/
example : fact 13 = 6227020800 ∧
    (∃ c, Context.checked Demo.keys true false Demo.float (Demo.int i32 true) Config.new = .ok c ∧
      evalTokens (c.view Demo.keys) [.number (Demo.i32 13), .unary ['!']] = .panic) ∧
    (∃ c, Context.checked Demo.keys false false Demo.float (Demo.int i32 false) Config.new = .ok c ∧
      evalTokens (c.view Demo.keys) [.number (Demo.i32 13), .unary ['!']] = .ok (Demo.i32 1932053504)) := by
  refine ⟨by decide, ?_, ?_⟩
  · obtain ⟨c, hc⟩ := demo_checked true false
    exact ⟨c, hc, C35_factorial_counterexample Demo.keys true false Demo.float _ _ Config.new c hc _ (by decide) (by decide)⟩
  · obtain ⟨c, hc⟩ := demo_checked false false
    exact ⟨c, hc, (C35_factorial_counterexample Demo.keys false false Demo.float _ _ Config.new c hc _ (by decide) (by decide)).trans
      (by decide)⟩

example : ∃ c, Context.checked Demo.keys true false Demo.float (Demo.int i32 true) Config.new = .ok c ∧
    ∃ v, evalTokens (c.view Demo.keys) [.number (Demo.i32 12), .unary ['!']] = .ok v ∧ v.1 = 479001600 := by
  obtain ⟨c, hc⟩ := demo_checked true false
  obtain ⟨v, h1, h2⟩ := (C35_factorial_partial Demo.keys true false Demo.float _ _ Config.new c hc [] (Demo.i32 12)).2 (by decide) (by decide)
  exact ⟨c, hc, v, h1, h2.trans (by decide)⟩

/-! ## C36: sum and product -/

theorem sum_call (debug : Bool) (toF64 : SInt w → F) (fromF64 : F → Option (SInt w)) (xs : List (SInt w)) (hx : xs ≠ []) :
    (PrefixesFit total xs ∧ ∃ v : SInt w, v.1 = total xs ∧ (Ops.checkedSum (SInt.num w debug toF64 fromF64)).fn xs = .ok v) ∨
    (¬ PrefixesFit total xs ∧ (Ops.checkedSum (SInt.num w debug toF64 fromF64)).fn xs = .err .overflow) := by
  cases xs with
  | nil => exact absurd rfl hx
  | cons x xs =>
    have hs : (fun x y => Ops.orOverflow ((SInt.num w debug toF64 fromF64).checkedAdd x y)) = step (w := w) (· + ·) := rfl
    simp only [Ops.checkedSum, hs]
    rcases foldArgs_cases (g := (· + ·)) (f := total) (fun x xs => runInt_add x.1 xs) x xs with ⟨h1, v, h2, h3⟩ | ⟨h1, h2⟩
    · exact .inl ⟨h1, v, h3, by rw [h2]; rfl⟩
    · exact .inr ⟨h1, by rw [h2]; rfl⟩

theorem product_call (debug : Bool) (toF64 : SInt w → F) (fromF64 : F → Option (SInt w)) (xs : List (SInt w)) (hx : xs ≠ []) :
    (PrefixesFit productOf xs ∧ ∃ v : SInt w, v.1 = productOf xs ∧ (Ops.checkedProd (SInt.num w debug toF64 fromF64)).fn xs = .ok v) ∨
    (¬ PrefixesFit productOf xs ∧ (Ops.checkedProd (SInt.num w debug toF64 fromF64)).fn xs = .err .overflow) := by
  cases xs with
  | nil => exact absurd rfl hx
  | cons x xs =>
    have hs : (fun x y => Ops.orOverflow ((SInt.num w debug toF64 fromF64).checkedMul x y)) = step (w := w) (· * ·) := rfl
    simp only [Ops.checkedProd, hs]
    rcases foldArgs_cases (g := (· * ·)) (f := productOf) (fun x xs => runInt_mul x.1 xs) x xs with ⟨h1, v, h2, h3⟩ | ⟨h1, h2⟩
    · exact .inl ⟨h1, v, h3, by rw [h2]; rfl⟩
    · exact .inr ⟨h1, by rw [h2]; rfl⟩

/-- C36. `sum(...)` is the exact sum if the sums of all beginnings of the argument list fit, otherwise `Overflow`; without arguments it is
`InvalidArgumentCount`. -/
theorem C36_sum (K : Keys) (debug docs : Bool) (f : F64 F) (toF64 : SInt w → F) (fromF64 : F → Option (SInt w))
    (config : Config) (c : Context (SInt w))
    (hc : Context.checked K debug docs f (SInt.num w debug toF64 fromF64) config = .ok c) (os : List (Op (SInt w))) (xs : List (SInt w)) :
    let r := evalTokens ((c.runAll K debug os).view K) (callTokens (str "sum") xs)
    (xs = [] → r = .err .invalidArgumentCount) ∧
    (xs ≠ [] → PrefixesFit total xs → ∃ v, r = .ok v ∧ v.1 = total xs) ∧
    (xs ≠ [] → ¬ PrefixesFit total xs → r = .err .overflow) := by
  intro r
  have hr : r = (Ops.checkedSum (SInt.num w debug toF64 fromF64)).fn xs := checked_call hc os (by rfl) xs
  rw [hr]
  refine ⟨fun h => by subst h; rfl, fun h hp => ?_, fun h hp => ?_⟩
  · rcases sum_call debug toF64 fromF64 xs h with ⟨_, v, h1, h2⟩ | ⟨h1, _⟩
    · exact ⟨v, h2, h1⟩
    · exact absurd hp h1
  · rcases sum_call debug toF64 fromF64 xs h with ⟨h1, _⟩ | ⟨_, h1⟩
    · exact absurd h1 hp
    · exact h1

/-- C36. `product(...)`, likewise. -/
theorem C36_product (K : Keys) (debug docs : Bool) (f : F64 F) (toF64 : SInt w → F) (fromF64 : F → Option (SInt w))
    (config : Config) (c : Context (SInt w))
    (hc : Context.checked K debug docs f (SInt.num w debug toF64 fromF64) config = .ok c) (os : List (Op (SInt w))) (xs : List (SInt w)) :
    let r := evalTokens ((c.runAll K debug os).view K) (callTokens (str "product") xs)
    (xs = [] → r = .err .invalidArgumentCount) ∧
    (xs ≠ [] → PrefixesFit productOf xs → ∃ v, r = .ok v ∧ v.1 = productOf xs) ∧
    (xs ≠ [] → ¬ PrefixesFit productOf xs → r = .err .overflow) := by
  intro r
  have hr : r = (Ops.checkedProd (SInt.num w debug toF64 fromF64)).fn xs := checked_call hc os (by rfl) xs
  rw [hr]
  refine ⟨fun h => by subst h; rfl, fun h hp => ?_, fun h hp => ?_⟩
  · rcases product_call debug toF64 fromF64 xs h with ⟨_, v, h1, h2⟩ | ⟨h1, _⟩
    · exact ⟨v, h2, h1⟩
    · exact absurd hp h1
  · rcases product_call debug toF64 fromF64 xs h with ⟨h1, _⟩ | ⟨_, h1⟩
    · exact absurd h1 hp
    · exact h1

theorem prefixesFit_nonneg {xs : List (SInt w)} (h : ∀ x ∈ xs, 0 ≤ x.1) (hx : xs ≠ []) : PrefixesFit total xs ↔ w.Fits (total xs) := by
  constructor
  · intro hp
    have := hp xs.length (List.length_pos_iff.mpr hx) (Nat.le_refl _)
    rwa [List.take_length] at this
  · intro hf k hk hk'
    have h1 := total_nonneg (l := xs.take k) fun y hy => h y (List.mem_of_mem_take hy)
    have h2 := total_nonneg (l := xs.drop k) fun y hy => h y (List.mem_of_mem_drop hy)
    have h3 := total_append (xs.take k) (xs.drop k)
    rw [List.take_append_drop] at h3
    have := SInt.lo_lt_zero w
    have := hf.2
    exact ⟨by omega, by omega⟩

theorem prefixesFit_pos {xs : List (SInt w)} (h : ∀ x ∈ xs, 0 < x.1) (hx : xs ≠ []) : PrefixesFit productOf xs ↔ w.Fits (productOf xs) := by
  constructor
  · intro hp
    have := hp xs.length (List.length_pos_iff.mpr hx) (Nat.le_refl _)
    rwa [List.take_length] at this
  · intro hf k hk hk'
    have h1 := productOf_pos (l := xs.take k) fun y hy => h y (List.mem_of_mem_take hy)
    have h2 := productOf_pos (l := xs.drop k) fun y hy => h y (List.mem_of_mem_drop hy)
    have h3 := productOf_append (xs.take k) (xs.drop k)
    rw [List.take_append_drop] at h3
    have := SInt.lo_lt_zero w
    refine ⟨by omega, Int.le_trans ?_ hf.2⟩
    rw [h3]
    have := Int.mul_le_mul_of_nonneg_left (show (1 : Int) ≤ productOf (xs.drop k) by omega) (Int.le_of_lt h1)
    simpa using this

/-- C36, order of the arguments, the part that holds: two orders that both give a number give the same number; a sum of arguments that are
not negative, and a product of positive arguments, does not depend on the order at all. Missing: overflow of a beginning, see the
counterexample. -/
theorem C36_order_partial (K : Keys) (debug docs : Bool) (f : F64 F) (toF64 : SInt w → F) (fromF64 : F → Option (SInt w))
    (config : Config) (c : Context (SInt w))
    (hc : Context.checked K debug docs f (SInt.num w debug toF64 fromF64) config = .ok c) (os : List (Op (SInt w)))
    (xs ys : List (SInt w)) (hp : xs.Perm ys) :
    let r := fun name (zs : List (SInt w)) => evalTokens ((c.runAll K debug os).view K) (callTokens (str name) zs)
    (∀ v u, r "sum" xs = .ok v → r "sum" ys = .ok u → v = u) ∧
    (∀ v u, r "product" xs = .ok v → r "product" ys = .ok u → v = u) ∧
    ((∀ x ∈ xs, 0 ≤ x.1) → r "sum" xs = r "sum" ys) ∧
    ((∀ x ∈ xs, 0 < x.1) → r "product" xs = r "product" ys) := by
  intro r
  have hs : ∀ zs, r "sum" zs = (Ops.checkedSum (SInt.num w debug toF64 fromF64)).fn zs := checked_call hc os (by rfl)
  have ht : ∀ zs, r "product" zs = (Ops.checkedProd (SInt.num w debug toF64 fromF64)).fn zs := checked_call hc os (by rfl)
  simp only [hs, ht]
  by_cases hx : xs = []
  · subst hx
    have hy : ys = [] := by simpa using hp
    subst hy
    refine ⟨fun v u h1 h2 => ?_, fun v u h1 h2 => ?_, fun _ => rfl, fun _ => rfl⟩ <;> (rw [h1] at h2; exact Res.ok.inj h2)
  · have hy : ys ≠ [] := by rintro rfl; exact hx (by simpa using hp)
    have tp := total_perm hp
    have pp := productOf_perm hp
    refine ⟨fun v u h1 h2 => ?_, fun v u h1 h2 => ?_, fun h => ?_, fun h => ?_⟩
    · rcases sum_call debug toF64 fromF64 xs hx with ⟨_, v', h3, h4⟩ | ⟨_, h4⟩ <;> rw [h1] at h4 <;> cases h4
      rcases sum_call debug toF64 fromF64 ys hy with ⟨_, u', h5, h6⟩ | ⟨_, h6⟩ <;> rw [h2] at h6 <;> cases h6
      exact Subtype.ext (by rw [h3, h5, tp])
    · rcases product_call debug toF64 fromF64 xs hx with ⟨_, v', h3, h4⟩ | ⟨_, h4⟩ <;> rw [h1] at h4 <;> cases h4
      rcases product_call debug toF64 fromF64 ys hy with ⟨_, u', h5, h6⟩ | ⟨_, h6⟩ <;> rw [h2] at h6 <;> cases h6
      exact Subtype.ext (by rw [h3, h5, pp])
    · have h' : ∀ y ∈ ys, 0 ≤ y.1 := fun y hy => h y (hp.mem_iff.mpr hy)
      have e1 := prefixesFit_nonneg h hx
      have e2 := prefixesFit_nonneg h' hy
      rcases sum_call debug toF64 fromF64 xs hx with ⟨p, v, h3, h4⟩ | ⟨p, h4⟩ <;>
        rcases sum_call debug toF64 fromF64 ys hy with ⟨q, u, h5, h6⟩ | ⟨q, h6⟩
      · rw [h4, h6]; exact congrArg _ (Subtype.ext (by rw [h3, h5, tp]))
      · exact absurd (e2.mpr (tp ▸ e1.mp p)) q
      · exact absurd (e1.mpr (tp ▸ e2.mp q)) p
      · rw [h4, h6]
    · have h' : ∀ y ∈ ys, 0 < y.1 := fun y hy => h y (hp.mem_iff.mpr hy)
      have e1 := prefixesFit_pos h hx
      have e2 := prefixesFit_pos h' hy
      rcases product_call debug toF64 fromF64 xs hx with ⟨p, v, h3, h4⟩ | ⟨p, h4⟩ <;>
        rcases product_call debug toF64 fromF64 ys hy with ⟨q, u, h5, h6⟩ | ⟨q, h6⟩
      · rw [h4, h6]; exact congrArg _ (Subtype.ext (by rw [h3, h5, pp]))
      · exact absurd (e2.mpr (pp ▸ e1.mp p)) q
      · exact absurd (e1.mpr (pp ▸ e2.mp q)) p
      · rw [h4, h6]

/-- The sum depends on the order, in every width: `sum(MAX, 1, -1)` is `Overflow` and `sum(MAX, -1, 1)` is `MAX`. -/
theorem C36_order_counterexample (K : Keys) (debug docs : Bool) (f : F64 F) (toF64 : SInt w → F) (fromF64 : F → Option (SInt w))
    (config : Config) (c : Context (SInt w))
    (hc : Context.checked K debug docs f (SInt.num w debug toF64 fromF64) config = .ok c) (m p q : SInt w) (hm : m.1 = w.hi)
    (h1 : p.1 = 1) (h2 : q.1 = -1) :
    evalTokens (c.view K) (callTokens (str "sum") [m, p, q]) = .err .overflow ∧
    evalTokens (c.view K) (callTokens (str "sum") [m, q, p]) = .ok m := by
  have hi := SInt.hi_pos w
  have lo := SInt.lo_lt_zero w
  constructor
  · refine (C36_sum K debug docs f toF64 fromF64 config c hc [] [m, p, q]).2.2 (by simp) fun h => ?_
    have := h 2 (by omega) (by simp)
    simp only [List.take_succ_cons, List.take_zero, total, hm, h1] at this
    have := this.2
    omega
  · obtain ⟨v, h3, h4⟩ := (C36_sum K debug docs f toF64 fromF64 config c hc [] [m, q, p]).2.1 (by simp) (by
      intro k hk hk'
      simp only [List.length_cons, List.length_nil] at hk'
      have : k = 1 ∨ k = 2 ∨ k = 3 := by omega
      rcases this with rfl | rfl | rfl <;> simp only [List.take_succ_cons, List.take_zero, total, hm, h1, h2] <;>
        exact ⟨by omega, by omega⟩)
    have : v = m := Subtype.ext (by rw [h4]; simp only [total, hm, h1, h2]; omega)
    exact h3.trans (congrArg Res.ok this)

example : ∃ c, Context.checked Demo.keys true false Demo.float (Demo.int i32 true) Config.new = .ok c ∧
    evalTokens (c.view Demo.keys) (callTokens (str "sum") [Demo.i32 2147483647, Demo.i32 1, Demo.i32 (-1)]) = .err .overflow ∧
    evalTokens (c.view Demo.keys) (callTokens (str "product") [Demo.i32 6, Demo.i32 7]) = .ok (Demo.i32 42) := by
  obtain ⟨c, hc⟩ := demo_checked true false
  refine ⟨c, hc, (C36_order_counterexample Demo.keys true false Demo.float _ _ Config.new c hc (Demo.i32 2147483647) (Demo.i32 1)
    (Demo.i32 (-1)) (by decide) rfl rfl).1, ?_⟩
  obtain ⟨v, h3, h4⟩ := (C36_product Demo.keys true false Demo.float _ _ Config.new c hc [] [Demo.i32 6, Demo.i32 7]).2.1 (by simp)
    (by rw [prefixesFit_pos (by intro x hx; rcases List.mem_cons.mp hx with rfl | hx
                                · decide
                                · cases List.mem_singleton.mp hx; decide) (by simp)]; decide)
  have : v = Demo.i32 42 := Subtype.ext (h4.trans (by decide))
  rw [← this]; exact h3

end Prexel
