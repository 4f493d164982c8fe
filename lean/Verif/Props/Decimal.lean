import Verif.Props.Arith
import Verif.Lemmas.Calls
import Verif.Lemmas.Decimal
import Verif.Examples.Decimals
/-!
# The built-in context over decimals (C31, C32, C48 to C50, C64 to C67)

`Dec D F` are the operations of `rust_decimal`, `Dec.Laws` is its documented contract. `100 ≤ d.fuel` says that the model cuts no loop short
before 100 iterations.
-/

set_option linter.unusedVariables false
set_option linter.unusedSimpArgs false

namespace Prexel
variable {D F : Type} {d : Dec D F}

/-! ## C31, C32 -/

/-- The names of the functions of the decimal context. -/
def decimalFunctionNames : List String :=
  ["sum", "avg", "product", "max", "min", "cbrt", "sqrt", "ln", "log", "random", "ceil", "floor", "truncate", "round", "exp", "to_radians",
   "to_degrees", "sin", "cos", "tan", "csc", "sec", "cot", "asin", "acos", "atan", "acsc", "asec", "acot", "sinh", "cosh", "tanh", "csch",
   "sech", "coth", "asinh", "acosh", "atanh", "acsch", "asech", "acoth"]

set_option maxRecDepth 10000 in
theorem decimalFunctions_names (d : Dec D F) (f : F64 F) : (d.functions f).flatMap Named.names = decimalFunctionNames.map str := rfl

theorem decimal_tables (d : Dec D F) (f : F64 F) : Tables [(str "PI", d.pi), (str "E", d.e)] d.binaryOps (d.unaryOps f) (d.functions f) where
  constants := show GoodNames [str "PI", str "E"] by decide
  binary := show GoodNames (["+", "-", "*", "/", "^", "mod"].map str) by decide
  unary := show GoodNames (["+", "-", "!"].map str) by decide
  functions := by
    rw [decimalFunctions_names]
    decide +kernel

theorem decimal_build (K : Keys) (debug : Bool) (d : Dec D F) (f : F64 F) (config : Config) :
    ∃ c, d.context K debug f config = .ok c ∧
      c.view K = tablesCtx config [(str "PI", d.pi), (str "E", d.e)] d.binaryOps (d.unaryOps f) (d.functions f) :=
  build_ok K debug config (decimal_tables d f)

theorem decimal_inv {K : Keys} {debug : Bool} {f : F64 F} {config : Config} {c : Context D} (hc : d.context K debug f config = .ok c) :
    c.view K = tablesCtx config [(str "PI", d.pi), (str "E", d.e)] d.binaryOps (d.unaryOps f) (d.functions f) := by
  obtain ⟨c', hc', hv⟩ := decimal_build K debug d f config
  rw [hc] at hc'
  cases hc'
  exact hv

/-- C31 for the context of decimals. -/
theorem C31_decimal (K : Keys) (debug : Bool) (d : Dec D F) (f : F64 F) (config : Config) :
    ∃ c, d.context K debug f config = .ok c ∧
      Provides (c.view K) config [(str "PI", d.pi), (str "E", d.e)] d.binaryOps (d.unaryOps f) (d.functions f) ∧
      (d.binaryOps).flatMap (fun g => g.name :: g.aliases) = ["+", "-", "*", "/", "^", "mod"].map str ∧
      (d.unaryOps f).flatMap (fun g => g.name :: g.aliases) = ["+", "-", "!"].map str ∧
      (d.functions f).flatMap (fun g => g.name :: g.aliases) = decimalFunctionNames.map str := by
  obtain ⟨c, hc, hv⟩ := decimal_build K debug d f config
  exact ⟨c, hc, by rw [hv]; exact tables_provides config (decimal_tables d f), rfl, rfl, rfl⟩

/-- What the operators of the decimal context do, in terms of the decimals. -/
def decimalArithmetic (d : Dec D F) (f : F64 F) : Arithmetic D where
  op
    | .add => fun x y => Res.ofOption (d.checkedAdd x y) .overflow
    | .sub => fun x y => Res.ofOption (d.checkedSub x y) .overflow
    | .mul => fun x y => Res.ofOption (d.checkedMul x y) .overflow
    | .div => fun x y => Res.ofOption (d.checkedDiv x y) .overflow
    | .mod => fun x y => Res.ofOption (d.checkedRem x y) .overflow
    | .pow => d.powd
  neg x := .ok (d.neg x)
  fact := d.factorial f

theorem decimal_school (config : Config) (cs : List (Str × D)) (fs : List (Named (Fn D))) (d : Dec D F) (f : F64 F) :
    School (tablesCtx config cs d.binaryOps (d.unaryOps f) fs) (decimalArithmetic d f) where
  binary o := by cases o <;> rfl
  neg := rfl
  fact := rfl

/-- C32 for decimals. -/
theorem C32_decimal (K : Keys) (debug : Bool) (d : Dec D F) (f : F64 F) (config : Config) (c : Context D)
    (hc : d.context K debug f config = .ok c) (os : List (Op D)) (e : Arith D) :
    evalTokens ((c.runAll K debug os).view K) e.tokens = e.value (decimalArithmetic d f) := by
  have hs : School (c.view K) (decimalArithmetic d f) := by rw [decimal_inv hc]; exact decimal_school _ _ _ _ _
  have hs' := hs.runAll debug os
  rw [← e.toExpr_render, C01_eval_eq_denote _ _ (e.toExpr_wf hs'), e.toExpr_denote hs']

/-- C32 for decimals, from text. -/
theorem C32_decimal_text (K : Keys) (debug : Bool) (d : Dec D F) (f : F64 F) (config : Config)
    (hcx : config.complexNumber = false) (c : Context D) (hc : d.context K debug f config = .ok c)
    (parse : Str → Option D) (lit : D → Str) (hparse : ∀ w ∈ arithWords, parse w = none) (e : Arith D)
    (hlit : ∀ n, .number n ∈ e.tokens → parse (lit n) = some n ∧ split defaultRules (lit n) = [lit n]) (s : Str)
    (hsp : Spaced (e.tokens.map (wordOf lit)) s) :
    eval parse (split defaultRules) (c.view K) s = e.value (decimalArithmetic d f) := by
  rw [decimal_inv hc]
  refine school_text (decimal_school _ _ _ d f) hcx rfl rfl ⟨_, rfl⟩ ?_ parse lit hparse e hlit s hsp
  intro w hw
  have hk : ∀ w ∈ arithWords, ((decimalFunctionNames.map str).any (fun n => hashSame n w) = false) ∧
      hashSame (str "PI") w = false ∧ hashSame (str "E") w = false := by decide +kernel
  obtain ⟨h1, h2, h3⟩ := hk w hw
  constructor
  · simp [lookupConstant, List.find?_cons, h2, h3]
  · cases hl : lookup hashSame (d.functions f) w with
    | none => rfl
    | some g =>
      have h4 : (lookup hashSame (d.functions f) w).isSome = true := by rw [hl]; rfl
      rw [lookup_isSome, decimalFunctions_names, ← List.any_eq_true, h1] at h4
      cases h4

/-- A built-in function of the decimal context is still there after any operations. -/
theorem decimal_call {K : Keys} {debug : Bool} {f : F64 F} {config : Config} {c : Context D} (hc : d.context K debug f config = .ok c)
    (os : List (Op D)) {name : Str} {g : Fn D} (h : lookup hashSame (d.functions f) name = some g) (xs : List D) :
    evalTokens ((c.runAll K debug os).view K) (callTokens name xs) = g xs := by
  refine eval_call _ ((C26_never_replaced K debug c os _).1 _ ?_) xs
  rw [decimal_inv hc]; exact h

theorem decimal_infix {K : Keys} {debug : Bool} {f : F64 F} {config : Config} {c : Context D} (hc : d.context K debug f config = .ok c)
    (os : List (Op D)) {o : Str} {g : BinFn D} (h : lookup hashSame d.binaryOps o = some g) (x y : D) :
    evalTokens ((c.runAll K debug os).view K) (infixTokens x o y) = g.call x y := by
  refine eval_infix _ ((C26_never_replaced K debug c os _).2.2 _ ?_) x y
  rw [decimal_inv hc]; exact h

theorem decimal_postfix {K : Keys} {debug : Bool} {f : F64 F} {config : Config} {c : Context D} (hc : d.context K debug f config = .ok c)
    (os : List (Op D)) (x : D) : evalTokens ((c.runAll K debug os).view K) [.number x, .unary ['!']] = d.factorial f x := by
  refine eval_postfix (f := (d.factorialOp f).fn) _ ((C26_never_replaced K debug c os _).2.1 _ ?_) rfl x
  rw [decimal_inv hc]; rfl

/-! ## C48: powers -/

theorem powd_int (L : d.Laws) {x y : D} {n : Int} (hy : L.val y = n) :
    d.powd x y = if i64.Fits n then d.powi x n else .panic := by
  have h1 : d.isInteger y = true := by
    unfold Dec.isInteger
    rw [L.isZero, L.fract]
    exact ⟨n, hy⟩
  unfold Dec.powd
  rw [h1, L.toI64 y n hy]
  rw [if_pos rfl]
  by_cases h : i64.Fits n <;> simp [h]

theorem fits_lt {n : Nat} (h : i64.Fits n) : n < 2 ^ 64 := by
  have := h.2
  simp only [Width.hi, i64] at this
  omega

/-- C48 for any decimals: an integral power is exact if the powers up to twice the exponent are representable. Missing: see the
counterexample. -/
theorem C48_power_exact_partial (K : Keys) (debug : Bool) (L : d.Laws) (f : F64 F) (config : Config) (c : Context D)
    (hc : d.context K debug f config = .ok c) (os : List (Op D)) (x y : D) (n : Nat) (hy : L.val y = (n : Int)) (hn : i64.Fits n)
    (hr : ∀ k, k ≤ 2 * n → Representable (L.val x ^ k)) :
    ∃ z, evalTokens ((c.runAll K debug os).view K) (infixTokens x ['^'] y) = .ok z ∧ L.val z = L.val x ^ n := by
  rw [decimal_infix hc os (g := (d.powOp).fn) rfl]
  show ∃ z, d.powd x y = .ok z ∧ _
  rw [powd_int L hy, if_pos hn, Dec.powi, if_neg (by omega), Int.natAbs_natCast]
  unfold Dec.powiNat
  have h1 : L.val d.one = (1 : Int) := L.nat 1 (by decide)
  by_cases h0 : n = 0
  · subst h0
    exact ⟨d.one, rfl, by rw [h1]; simp⟩
  · by_cases hn1 : n = 1
    · subst hn1
      exact ⟨x, rfl, by simp [Rat.pow_succ]⟩
    · rw [if_neg h0, if_neg hn1]
      have := L.powiLoop 64 0 1 n d.one x (q := L.val x) (by rw [h1]; simp) (by simp [Rat.pow_succ]) (by decide)
        (fits_lt hn) (by omega) (fun k hk => hr k (by
          have h2 : 2 ^ Nat.log2 n ≤ n := Nat.log2_self_le h0
          rw [Nat.pow_succ] at hk
          omega))
      rw [Nat.zero_add, Nat.one_mul] at this
      exact this

/-- C48 for whole numbers: for which exponents from 2 on the power is returned, exactly. The code squares once too often: it needs the power
to `2 ^ (log2 n + 1)`, the next power of two beyond the exponent, to fit. -/
theorem C48_power_partial (K : Keys) (debug : Bool) (L : d.Laws) (f : F64 F) (config : Config) (c : Context D)
    (hc : d.context K debug f config = .ok c) (os : List (Op D)) (x y : D) (a : Int) (n : Nat) (hx : L.val x = a) (hy : L.val y = (n : Int))
    (hn : i64.Fits n) (h2 : 2 ≤ n) :
    (a.natAbs ^ 2 ^ (Nat.log2 n + 1) < 2 ^ 96 →
      ∃ z, evalTokens ((c.runAll K debug os).view K) (infixTokens x ['^'] y) = .ok z ∧ L.val z = (a ^ n : Int)) ∧
    (2 ^ 96 ≤ a.natAbs ^ 2 ^ (Nat.log2 n + 1) →
      evalTokens ((c.runAll K debug os).view K) (infixTokens x ['^'] y) = .err .overflow) := by
  rw [decimal_infix hc os (g := (d.powOp).fn) rfl]
  show (_ → ∃ z, d.powd x y = .ok z ∧ _) ∧ (_ → d.powd x y = _)
  rw [powd_int L hy, if_pos hn, Dec.powi, if_neg (by omega), Int.natAbs_natCast]
  unfold Dec.powiNat
  rw [if_neg (by omega), if_neg (by omega)]
  have h1 : L.val d.one = (1 : Int) := L.nat 1 (by decide)
  constructor
  · intro hfit
    have := L.powiLoop 64 0 1 n d.one x (q := (a : Rat)) (by rw [h1]; simp) (by rw [hx]; simp [Rat.pow_succ]) (by decide)
      (fits_lt hn) (by omega) (fun k hk => by
        rw [← Rat.intCast_pow, representable_int, Int.natAbs_pow]
        rw [Nat.one_mul] at hk
        by_cases ha : a.natAbs = 0
        · rw [ha]
          cases k with
          | zero => decide
          | succ k => rw [Nat.zero_pow (by omega)]; decide
        · exact Nat.lt_of_le_of_lt (Nat.pow_le_pow_right (by omega) hk) hfit)
    obtain ⟨z, hz, hv⟩ := this
    exact ⟨z, hz, by rw [hv, Rat.intCast_pow]; congr 1; omega⟩
  · intro hov
    exact L.powiLoop_over 64 0 1 n d.one x (a := a) (by rw [h1]; simp) (by rw [hx]; simp) (fits_lt hn) (by omega) (by rw [Nat.one_mul]; exact hov)

/-- C48 is false: `10 ^ 16` is representable, but evaluates to an overflow. -/
theorem C48_power_counterexample (K : Keys) (debug : Bool) (L : d.Laws) (f : F64 F) (config : Config) (c : Context D)
    (hc : d.context K debug f config = .ok c) (os : List (Op D)) :
    Representable (((10 : Int) ^ 16 : Int) : Rat) ∧
    evalTokens ((c.runAll K debug os).view K) (infixTokens (d.nat 10) ['^'] (d.nat 16)) = .err .overflow := by
  refine ⟨representable_int.mpr (by decide), ?_⟩
  refine (C48_power_partial K debug L f config c hc os _ _ 10 16 (L.nat 10 (by decide)) (L.nat 16 (by decide)) (by decide) (by decide)).2 ?_
  have : Nat.log2 16 = 4 := by decide +kernel
  rw [this]
  decide

/-- `2 ^ 10` in decimals. -/
example : ∃ c z, Demo.dec.context Demo.keys true Demo.float Config.new = .ok c ∧
    evalTokens (c.view Demo.keys) (infixTokens (Demo.decimal 2) ['^'] (Demo.decimal 10)) = .ok z ∧ z.1 = 1024 := by
  obtain ⟨c, hc, -⟩ := decimal_build Demo.keys true Demo.dec Demo.float Config.new
  obtain ⟨z, hz, hv⟩ := (C48_power_partial Demo.keys true Demo.decLaws Demo.float Config.new c hc [] (Demo.decimal 2) (Demo.decimal 10) 2 10
    (by decide +kernel) (by decide +kernel) (by decide) (by decide)).1 (by decide +kernel)
  exact ⟨c, z, hc, hz, by rw [show z.1 = _ from hv]; decide +kernel⟩

/-! ## C49: factorials -/

/-- C49 except for 2: the factorial of a whole number, or an overflow if it does not fit. -/
theorem C49_factorial_partial (K : Keys) (debug : Bool) (L : d.Laws) (hfuel : 100 ≤ d.fuel) (f : F64 F) (config : Config) (c : Context D)
    (hc : d.context K debug f config = .ok c) (os : List (Op D)) (x : D) (n : Nat) (hx : L.val x = (n : Int))
    (hs : d.isSignNegative x = false) (h2 : n ≠ 2) :
    (fact n < 2 ^ 96 → ∃ z, evalTokens ((c.runAll K debug os).view K) [.number x, .unary ['!']] = .ok z ∧ L.val z = (fact n : Int)) ∧
    (2 ^ 96 ≤ fact n → evalTokens ((c.runAll K debug os).view K) [.number x, .unary ['!']] = .err .overflow) := by
  rw [decimal_postfix hc os]
  have v0 : L.val d.zero = ((0 : Nat) : Int) := L.nat 0 (by decide)
  have v1 : L.val d.one = ((1 : Nat) : Int) := L.nat 1 (by decide)
  have v2 : L.val d.two = ((2 : Nat) : Int) := L.nat 2 (by decide)
  have heq : ∀ (k : Nat) (y : D), L.val y = (k : Int) → d.eq x y = decide (n = k) := by
    intro k y hy
    rw [Bool.eq_iff_iff, L.eq, hx, hy, Rat.intCast_inj]; simp only [decide_eq_true_eq]; omega
  have hlt : d.lt x d.one = decide (n < 1) := by
    rw [Bool.eq_iff_iff, L.lt, hx, v1, Rat.intCast_lt_intCast]; simp only [decide_eq_true_eq]; omega
  unfold Dec.factorial
  rw [hs, heq 2 _ v2, heq 1 _ v1, heq 0 _ v0, hlt]
  have hbound : n < 2 ^ 96 := by
    have := L.range x
    rw [hx, representable_int] at this
    simpa using this
  by_cases h : n = 0 ∨ n = 1
  · have : fact n = 1 := by rcases h with h | h <;> subst h <;> rfl
    rw [this]
    have hb : (decide (n = 2) || decide (n = 1) || decide (n = 0)) = true := by rcases h with h | h <;> simp [h]
    rw [if_neg (by simp), if_pos hb]
    exact ⟨fun _ => ⟨d.one, rfl, v1⟩, fun h => by simp at h⟩
  · have hb : (decide (n = 2) || decide (n = 1) || decide (n = 0)) = false := by simp; omega
    have h1 : ¬ n < 1 := by omega
    rw [if_neg (by simp), if_neg (by rw [hb]; simp), if_neg (by simpa using h1)]
    obtain ⟨m, hm, hmv⟩ := L.sub_int hx v1 (by omega)
    have hmv' : L.val m = ((n - 1 : Nat) : Int) := by rw [hmv]; congr 1; omega
    have hloop := L.factorialLoop d.fuel 0 n (n - 1) x m hx hmv' (by omega) hbound (by omega) (by omega)
    have hf : n * fact (n - 1) = fact n := by
      cases n with
      | zero => omega
      | succ n => rfl
    rw [hf] at hloop
    simp only [Res.bind_eq, hm, Res.bind_ok]
    constructor
    · intro hfit
      obtain ⟨z, n', hz, hzv, hn'⟩ := hloop.1 hfit
      rw [hz]
      have : d.isZero n' = true := (L.isZero n').mpr (by rw [hn']; rfl)
      exact ⟨d.roundDp 15 z, by simp [this], L.roundDp 15 z _ hzv⟩
    · intro hov
      rw [hloop.2 hov]; rfl

/-- C49 is false: `2!` is 1. -/
theorem C49_factorial_counterexample (K : Keys) (debug : Bool) (L : d.Laws) (f : F64 F) (config : Config) (c : Context D)
    (hc : d.context K debug f config = .ok c) (os : List (Op D)) :
    ∃ z, evalTokens ((c.runAll K debug os).view K) [.number (d.nat 2), .unary ['!']] = .ok z ∧ L.val z = (1 : Int) ∧ fact 2 = 2 := by
  rw [decimal_postfix hc os]
  have heq : d.eq (d.nat 2) d.two = true := (L.eq _ _).mpr rfl
  exact ⟨d.one, by simp [Dec.factorial, L.natSign, heq], L.nat 1 (by decide), rfl⟩

/-- `27!` is the largest factorial that fits. -/
example : fact 27 < 2 ^ 96 ∧ 2 ^ 96 ≤ fact 28 := by decide +kernel

example : ∃ c z, Demo.dec.context Demo.keys true Demo.float Config.new = .ok c ∧
    evalTokens (c.view Demo.keys) [.number (Demo.decimal 5), .unary ['!']] = .ok z ∧ z.1 = 120 := by
  obtain ⟨c, hc, -⟩ := decimal_build Demo.keys true Demo.dec Demo.float Config.new
  obtain ⟨z, hz, hv⟩ := (C49_factorial_partial Demo.keys true Demo.decLaws (by decide) Demo.float Config.new c hc [] (Demo.decimal 5) 5
    (by decide +kernel) (by decide +kernel) (by decide)).1 (by decide +kernel)
  exact ⟨c, z, hc, hz, by rw [show z.1 = _ from hv]; decide +kernel⟩

end Prexel
