import Verif.Props.Decimal
import Verif.Lemmas.DecimalDegrees
import Verif.Lemmas.DecimalHyp
import Verif.Lemmas.DecimalExpFar
/-!
# Exponentials, hyperbolic functions, powers, rounding and angles of decimals (C50, C96 to C100)

`Real.exp`, `Real.sinh`, `Real.cosh`, `Real.tanh` and the power of real numbers are Mathlib's.
-/

set_option linter.unusedVariables false

namespace Prexel
variable {D F : Type} {d : Dec D F}

/-! ## C50: reciprocal hyperbolic functions -/

/-- The reciprocal of what another function evaluates to. -/
theorem checkedInv_eq (L : d.Laws) (y : D) :
    (L.val y = 0 → d.checkedInv y = .err .overflow) ∧ (L.val y ≠ 0 → d.checkedInv y = d.cdiv d.one y ∧ ∃ z, d.cdiv d.one y = .ok z ∧
      |L.val z - 1 / L.val y| ≤ 2 / 10 ^ 28 * (1 + |1 / L.val y|)) := by
  unfold Dec.checkedInv
  constructor
  · intro h
    rw [if_pos ((L.isZero y).mpr h)]
  · intro h
    have : ¬ d.isZero y = true := by rw [L.isZero]; exact h
    rw [if_neg this]
    have v1 : L.val d.one = 1 := L.nat_val (n := 1) (by decide)
    have hb : |1 / L.val y| ≤ 10 ^ 28 := by
      have hp : 1 / 10 ^ 28 ≤ |L.val y| := by
        rcases lt_or_gt_of_ne h with h | h
        · rw [abs_of_neg h]
          exact representable_pos (representable_neg (L.range y)) (by linarith)
        · rw [abs_of_pos h]
          exact representable_pos (L.range y) h
      rw [abs_div, abs_one, div_le_iff₀ (by positivity)]
      linarith
    obtain ⟨z, ez, nz, -⟩ := L.cdiv_near (x := d.one) (y := y) (a := 1 + |1 / L.val y|) h (by linarith [abs_nonneg (1 / L.val y)])
      (by rw [v1]; linarith) (by linarith)
    rw [v1] at nz
    refine ⟨?_, z, ez, nz⟩
    unfold Dec.inv Dec.div
    rw [ez]
    rfl

/-- C50 for the hyperbolic functions: `csch`, `sech` and `coth` of `x` are what `1 / y` evaluates to, where `y` is what `sinh`, `cosh` and `tanh` of
`x` evaluate to; if that is zero, they are refused. -/
theorem C50_hyperbolic_quotient_partial (K : Keys) (debug : Bool) (L : d.Laws) (f : F64 F) (config : Config) (c : Context D)
    (hc : d.context K debug f config = .ok c) (os : List (Op D)) (x : D) (recip name : Str)
    (hn : (recip, name) ∈ [(str "csch", str "sinh"), (str "sech", str "cosh"), (str "coth", str "tanh")]) (y : D)
    (hy : evalTokens ((c.runAll K debug os).view K) (callTokens name [x]) = .ok y) :
    (L.val y = 0 → evalTokens ((c.runAll K debug os).view K) (callTokens recip [x]) = .err .overflow) ∧
    (L.val y ≠ 0 → ∃ z, evalTokens ((c.runAll K debug os).view K) (callTokens recip [x]) = .ok z ∧
      |L.val z - 1 / L.val y| ≤ 2 / 10 ^ 28 * (1 + |1 / L.val y|)) := by
  have key : evalTokens ((c.runAll K debug os).view K) (callTokens recip [x]) = d.checkedInv y := by
    simp only [List.mem_cons, Prod.mk.injEq, List.not_mem_nil, or_false] at hn
    rcases hn with ⟨rfl, rfl⟩ | ⟨rfl, rfl⟩ | ⟨rfl, rfl⟩ <;> rw [decimal_call hc os (g := _) rfl] at hy ⊢
    · show (d.sinh x).bind d.checkedInv = _
      have hy : d.sinh x = .ok y := hy
      rw [hy]; rfl
    · show (d.cosh x).bind d.checkedInv = _
      have hy : d.cosh x = .ok y := hy
      rw [hy]; rfl
    · show (d.tanh x).bind d.checkedInv = _
      have hy : d.tanh x = .ok y := hy
      rw [hy]; rfl
  obtain ⟨k1, k2⟩ := checkedInv_eq L y
  rw [key]
  refine ⟨k1, fun h => ?_⟩
  obtain ⟨e, z, ez, nz⟩ := k2 h
  exact ⟨z, e.trans ez, nz⟩

/-! ## C96: exponentials -/

/-- C96 from -20 to 20: the exponential is correct to 16 digits. -/
theorem C96_exp_partial (K : Keys) (debug : Bool) (L : d.Laws) (f : F64 F) (config : Config) (c : Context D)
    (hc : d.context K debug f config = .ok c) (os : List (Op D)) (x : D) (hx : |L.val x| ≤ 20) :
    ∃ z, evalTokens ((c.runAll K debug os).view K) (callTokens (str "exp") [x]) = .ok z ∧
      |(L.val z : ℝ) - Real.exp (L.val x)| ≤ 2 / 10 ^ 16 * (1 + Real.exp (L.val x)) := by
  rw [decimal_call hc os (g := _) rfl]
  exact L.exp_near hx

/-- `exp(0)` is 1 and `exp(1)` is the constant `E`. -/
theorem C96_exp_ends (K : Keys) (debug : Bool) (L : d.Laws) (f : F64 F) (config : Config) (c : Context D)
    (hc : d.context K debug f config = .ok c) (os : List (Op D)) (x : D) :
    (L.val x = 0 → ∃ z, evalTokens ((c.runAll K debug os).view K) (callTokens (str "exp") [x]) = .ok z ∧ L.val z = 1) ∧
    (L.val x = 1 → ∃ z, evalTokens ((c.runAll K debug os).view K) (callTokens (str "exp") [x]) = .ok z ∧
      L.val z = 27182818284590452353602874714 / 10 ^ 28) := by
  rw [decimal_call hc os (g := _) rfl]
  show (_ → ∃ z, d.exp x = _ ∧ _) ∧ (_ → ∃ z, d.exp x = _ ∧ _)
  unfold Dec.exp
  constructor
  · intro h
    rw [if_pos ((L.isZero x).mpr h)]
    exact ⟨_, rfl, L.nat_val (n := 1) (by decide)⟩
  · intro h
    have : ¬ d.isZero x = true := by rw [L.isZero, h]; norm_num
    rw [if_neg this, if_pos ((L.isOne x).mpr h)]
    refine ⟨_, rfl, ?_⟩
    have := L.e
    rw [eq_div_iff (by norm_num)]
    push_cast at this
    exact this

/-- C96 is false: `exp(-10000)` is below -1/10, although all exponentials are positive. -/
theorem C96_exp_counterexample (K : Keys) (debug : Bool) (L : d.Laws) (f : F64 F) (config : Config) (c : Context D)
    (hc : d.context K debug f config = .ok c) (os : List (Op D)) (x : D) (hx : L.val x = -10000) :
    ∃ z, evalTokens ((c.runAll K debug os).view K) (callTokens (str "exp") [x]) = .ok z ∧ L.val z ≤ - (1 / 10) ∧ 0 < Real.exp (L.val x) := by
  rw [decimal_call hc os (g := _) rfl]
  obtain ⟨z, hz, h⟩ := L.exp_far hx
  exact ⟨z, hz, h, Real.exp_pos _⟩

/-- `exp(2.5)` is correct, `exp(-10000)` is not. -/
example : ∃ c, Demo.dec.context Demo.keys true Demo.float Config.new = .ok c ∧
    (∃ z, evalTokens (c.view Demo.keys) (callTokens (str "exp") [Demo.decimal 25 1]) = .ok z ∧
      |(z.1 : ℝ) - Real.exp (5 / 2)| ≤ 2 / 10 ^ 16 * (1 + Real.exp (5 / 2))) ∧
    (∃ z, evalTokens (c.view Demo.keys) (callTokens (str "exp") [Demo.decimal (-10000)]) = .ok z ∧ z.1 ≤ -(1 / 10)) := by
  obtain ⟨c, hc, -⟩ := decimal_build Demo.keys true Demo.dec Demo.float Config.new
  have h2 : Demo.decLaws.val (Demo.decimal 25 1) = 5 / 2 := by decide +kernel
  have h4 : Demo.decLaws.val (Demo.decimal (-10000)) = -10000 := by decide +kernel
  refine ⟨c, hc, ?_, ?_⟩
  · obtain ⟨z, hz, hn⟩ := C96_exp_partial Demo.keys true Demo.decLaws Demo.float Config.new c hc [] (Demo.decimal 25 1)
      (by rw [h2, abs_of_pos] <;> norm_num)
    refine ⟨z, hz, ?_⟩
    rw [h2] at hn
    push_cast at hn
    exact hn
  · obtain ⟨z, hz, h, -⟩ := C96_exp_counterexample Demo.keys true Demo.decLaws Demo.float Config.new c hc [] (Demo.decimal (-10000)) h4
    exact ⟨z, hz, h⟩

/-! ## C97: hyperbolic functions -/

/-- C97 from -20 to 20. -/
theorem C97_hyperbolic_partial (K : Keys) (debug : Bool) (L : d.Laws) (f : F64 F) (config : Config) (c : Context D)
    (hc : d.context K debug f config = .ok c) (os : List (Op D)) (x : D) (hx : |L.val x| ≤ 20) :
    (∃ z, evalTokens ((c.runAll K debug os).view K) (callTokens (str "sinh") [x]) = .ok z ∧
      |(L.val z : ℝ) - Real.sinh (L.val x)| ≤ 3 / 10 ^ 16 * (1 + Real.cosh (L.val x))) ∧
    (∃ z, evalTokens ((c.runAll K debug os).view K) (callTokens (str "cosh") [x]) = .ok z ∧
      |(L.val z : ℝ) - Real.cosh (L.val x)| ≤ 3 / 10 ^ 16 * (1 + Real.cosh (L.val x))) ∧
    (∃ z, evalTokens ((c.runAll K debug os).view K) (callTokens (str "tanh") [x]) = .ok z ∧
      |(L.val z : ℝ) - Real.tanh (L.val x)| ≤ 13 / 10 ^ 16) := by
  obtain ⟨s, ch, t, hs, hch, ht, ns, nc, nt⟩ := L.hyp_near hx
  rw [decimal_call hc os (g := _) rfl, decimal_call hc os (g := _) rfl, decimal_call hc os (g := _) rfl]
  exact ⟨⟨s, hs, ns⟩, ⟨ch, hch, nc⟩, ⟨t, ht, nt⟩⟩

/-- `sinh(2)`. -/
example : ∃ c, Demo.dec.context Demo.keys true Demo.float Config.new = .ok c ∧
    ∃ z, evalTokens (c.view Demo.keys) (callTokens (str "sinh") [Demo.decimal 2]) = .ok z ∧
      |(z.1 : ℝ) - Real.sinh 2| ≤ 3 / 10 ^ 16 * (1 + Real.cosh 2) := by
  obtain ⟨c, hc, -⟩ := decimal_build Demo.keys true Demo.dec Demo.float Config.new
  have h2 : Demo.decLaws.val (Demo.decimal 2) = 2 := by decide +kernel
  obtain ⟨⟨z, hz, hn⟩, -⟩ := C97_hyperbolic_partial Demo.keys true Demo.decLaws Demo.float Config.new c hc [] (Demo.decimal 2)
    (by rw [h2, abs_of_pos] <;> norm_num)
  refine ⟨c, hc, z, hz, ?_⟩
  rw [h2] at hn
  push_cast at hn
  exact hn

/-! ## C98: powers with fractional exponents -/

/-- C98 for bases from 1/10 on and powers from `e^-19` to `e^19`: the relative error is at most 10^-15 times the exponent. -/
theorem C98_power_partial (K : Keys) (debug : Bool) (L : d.Laws) (hfuel : 100 ≤ d.fuel) (f : F64 F) (config : Config) (c : Context D)
    (hc : d.context K debug f config = .ok c) (os : List (Op D)) (x y : D) (hx : 1 / 10 ≤ L.val x) (hy : ∀ n : ℤ, L.val y ≠ n)
    (hy10 : |L.val y| ≤ 10 ^ 10) (hr : |(L.val y : ℝ) * Real.log (L.val x)| ≤ 19) :
    ∃ z, evalTokens ((c.runAll K debug os).view K) (infixTokens x ['^'] y) = .ok z ∧
      |(L.val z : ℝ) - (L.val x : ℝ) ^ (L.val y : ℝ)| ≤ 1 / 10 ^ 15 * (1 + |(L.val y : ℝ)|) * (1 + (L.val x : ℝ) ^ (L.val y : ℝ)) := by
  rw [decimal_infix hc os (g := (d.powOp).fn) rfl]
  exact L.powd_near hfuel hx hy hy10 hr

/-- C98 is false for zero: `0 ^ y` is 1 for every `y` that is not a whole number. -/
theorem C98_zero_counterexample (K : Keys) (debug : Bool) (L : d.Laws) (f : F64 F) (config : Config) (c : Context D)
    (hc : d.context K debug f config = .ok c) (os : List (Op D)) (x y : D) (hx : L.val x = 0) (hy : ∀ n : ℤ, L.val y ≠ n) :
    ∃ z, evalTokens ((c.runAll K debug os).view K) (infixTokens x ['^'] y) = .ok z ∧ L.val z = 1 := by
  rw [decimal_infix hc os (g := (d.powOp).fn) rfl]
  show ∃ z, d.powd x y = .ok z ∧ _
  have ni : ¬ d.isInteger y = true := by
    unfold Dec.isInteger
    rw [L.isZero, L.fract]
    rintro ⟨n, hn⟩
    exact hy n hn
  unfold Dec.powd
  rw [if_neg ni, if_pos ((L.isZero x).mpr hx)]
  exact ⟨_, rfl, L.nat_val (n := 1) (by decide)⟩

/-- `2 ^ 0.5` is near the square root of 2, `0 ^ 0.5` is 1. -/
example : ∃ c, Demo.dec.context Demo.keys true Demo.float Config.new = .ok c ∧
    (∃ z, evalTokens (c.view Demo.keys) (infixTokens (Demo.decimal 2) ['^'] (Demo.decimal 5 1)) = .ok z ∧ |(z.1 : ℝ) - Real.sqrt 2| ≤ 5 / 10 ^ 15) ∧
    (∃ z, evalTokens (c.view Demo.keys) (infixTokens (Demo.decimal 0) ['^'] (Demo.decimal 5 1)) = .ok z ∧ z.1 = 1) := by
  obtain ⟨c, hc, -⟩ := decimal_build Demo.keys true Demo.dec Demo.float Config.new
  have h2 : Demo.decLaws.val (Demo.decimal 2) = 2 := by decide +kernel
  have h0 : Demo.decLaws.val (Demo.decimal 0) = 0 := by decide +kernel
  have h5 : Demo.decLaws.val (Demo.decimal 5 1) = 1 / 2 := by decide +kernel
  have hni : ∀ n : ℤ, Demo.decLaws.val (Demo.decimal 5 1) ≠ n := by
    intro n hn
    rw [h5] at hn
    have : (1 : Rat) = ((2 * n : ℤ) : Rat) := by push_cast; linarith
    have : (1 : ℤ) = 2 * n := by exact_mod_cast this
    omega
  refine ⟨c, hc, ?_, C98_zero_counterexample Demo.keys true Demo.decLaws Demo.float Config.new c hc [] _ _ h0 hni⟩
  obtain ⟨z, hz, hn⟩ := C98_power_partial Demo.keys true Demo.decLaws (le_refl 100) Demo.float Config.new c hc [] (Demo.decimal 2) (Demo.decimal 5 1)
    (by rw [h2]; norm_num) hni (by rw [h5, abs_of_pos] <;> norm_num) (by
      rw [h5, h2]
      have h3 := Real.log_le_sub_one_of_pos (show (0 : ℝ) < 2 by norm_num)
      have h4 := Real.log_nonneg (show (1 : ℝ) ≤ 2 by norm_num)
      rw [abs_le]
      push_cast
      constructor <;> linarith)
  refine ⟨z, hz, ?_⟩
  rw [h5, h2] at hn
  push_cast at hn
  rw [← Real.sqrt_eq_rpow] at hn
  have hs : Real.sqrt 2 ≤ 3 / 2 := by rw [Real.sqrt_le_left (by norm_num)]; norm_num
  have h1 : |(1 / 2 : ℝ)| = 1 / 2 := abs_of_pos (by norm_num)
  rw [h1] at hn
  refine hn.trans ?_
  linarith

/-! ## C99: rounding functions -/

/-- C99. -/
theorem C99_rounding (K : Keys) (debug : Bool) (L : d.Laws) (f : F64 F) (config : Config) (c : Context D)
    (hc : d.context K debug f config = .ok c) (os : List (Op D)) (x : D) :
    (∃ z, evalTokens ((c.runAll K debug os).view K) (callTokens (str "floor") [x]) = .ok z ∧ L.val z = ⌊L.val x⌋) ∧
    (∃ z, evalTokens ((c.runAll K debug os).view K) (callTokens (str "ceil") [x]) = .ok z ∧ L.val z = ⌈L.val x⌉) ∧
    (∃ z, evalTokens ((c.runAll K debug os).view K) (callTokens (str "truncate") [x]) = .ok z ∧
      L.val z = if L.val x < 0 then (⌈L.val x⌉ : Rat) else ⌊L.val x⌋) ∧
    (∃ z, evalTokens ((c.runAll K debug os).view K) (callTokens (str "round") [x]) = .ok z ∧ (∃ n : ℤ, L.val z = n) ∧ |L.val x - L.val z| ≤ 1 / 2) := by
  rw [decimal_call hc os (g := _) rfl, decimal_call hc os (g := _) rfl, decimal_call hc os (g := _) rfl, decimal_call hc os (g := _) rfl]
  refine ⟨⟨d.floor x, rfl, ?_⟩, ⟨d.ceil x, rfl, ?_⟩, ⟨d.trunc x, rfl, ?_⟩, ⟨d.round x, rfl, ?_⟩⟩
  · obtain ⟨n, hn, h1, h2⟩ := L.floor x
    rw [hn, Int.floor_eq_iff.mpr ⟨h1, h2⟩]
  · obtain ⟨n, hn, h1, h2⟩ := L.ceil x
    rw [hn, Int.ceil_eq_iff.mpr ⟨h1, h2⟩]
  · rw [L.trunc]
    unfold wholePart
    split
    · rw [(Int.ceil_eq_iff (z := (L.val x).ceil)).mpr ⟨by have := Rat.ceil_lt (x := L.val x); linarith, Rat.le_ceil⟩]
    · rw [(Int.floor_eq_iff (z := (L.val x).floor)).mpr ⟨Rat.floor_le _, by have := Rat.lt_floor (x := L.val x); linarith⟩]
  · obtain ⟨n, hn, h1, h2⟩ := L.round x
    refine ⟨⟨n, hn⟩, ?_⟩
    rw [hn, abs_le]
    exact ⟨h1, h2⟩

/-- `floor(-2.5)` is -3, `truncate(-2.5)` is -2. -/
example : ∃ c, Demo.dec.context Demo.keys true Demo.float Config.new = .ok c ∧
    (∃ z, evalTokens (c.view Demo.keys) (callTokens (str "floor") [Demo.decimal (-25) 1]) = .ok z ∧ z.1 = -3) ∧
    (∃ z, evalTokens (c.view Demo.keys) (callTokens (str "truncate") [Demo.decimal (-25) 1]) = .ok z ∧ z.1 = -2) := by
  obtain ⟨c, hc, -⟩ := decimal_build Demo.keys true Demo.dec Demo.float Config.new
  have h : Demo.decLaws.val (Demo.decimal (-25) 1) = -5 / 2 := by decide +kernel
  obtain ⟨⟨z, hz, e⟩, -, ⟨w, hw, e'⟩, -⟩ := C99_rounding Demo.keys true Demo.decLaws Demo.float Config.new c hc [] (Demo.decimal (-25) 1)
  rw [h] at e e'
  refine ⟨c, hc, ⟨z, hz, e.trans ?_⟩, ⟨w, hw, e'.trans ?_⟩⟩
  · rw [(Int.floor_eq_iff (z := -3)).mpr (by norm_num)]; norm_num
  · rw [if_pos (by norm_num), (Int.ceil_eq_iff (z := -2)).mpr (by norm_num)]; norm_num

/-! ## C100: conversions of angles -/

/-- C100 for angles up to 10^11 degrees. -/
theorem C100_to_radians_partial (K : Keys) (debug : Bool) (L : d.Laws) (f : F64 F) (config : Config) (c : Context D)
    (hc : d.context K debug f config = .ok c) (os : List (Op D)) (x : D) (hx : |L.val x| ≤ 10 ^ 11) :
    ∃ z, evalTokens ((c.runAll K debug os).view K) (callTokens (str "to_radians") [x]) = .ok z ∧
      |(L.val z : ℝ) - L.val x * Real.pi / 180| ≤ 15 / 10 ^ 17 := by
  rw [decimal_call hc os (g := _) rfl]
  obtain ⟨y, hy, h, -⟩ := L.toRadians_near (b := 10 ^ 11) (by norm_num) le_rfl hx
  exact ⟨y, hy, h⟩

/-- C100 for angles up to 10^9 radians. -/
theorem C100_to_degrees_partial (K : Keys) (debug : Bool) (L : d.Laws) (f : F64 F) (config : Config) (c : Context D)
    (hc : d.context K debug f config = .ok c) (os : List (Op D)) (x : D) (hx : |L.val x| ≤ 10 ^ 9) :
    ∃ z, evalTokens ((c.runAll K debug os).view K) (callTokens (str "to_degrees") [x]) = .ok z ∧
      |(L.val z : ℝ) - L.val x * 180 / Real.pi| ≤ 15 / 10 ^ 17 := by
  rw [decimal_call hc os (g := _) rfl]
  have u : unit = 2 / 10 ^ 28 := rfl
  have hpi : L.val d.pi = 31415926535897932384626433833 / 10 ^ 28 := by
    have := L.pi
    rw [eq_div_iff (by norm_num)]
    push_cast at this
    exact this
  have v180 : L.val (d.nat 180) = 180 := L.nat_val (n := 180) (by decide)
  obtain ⟨k, hk, nk, -⟩ := L.div_near (x := d.nat 180) (y := d.pi) (a := 58) (by rw [hpi]; norm_num) (by norm_num)
    (by rw [v180, hpi, abs_of_pos] <;> norm_num) (by norm_num)
  rw [v180, u] at nk
  have kb : |L.val k| ≤ 58 := by
    rw [hpi] at nk
    rw [abs_le] at nk ⊢
    constructor <;> linarith [nk.1, nk.2]
  obtain ⟨y0, hy0, ny0, -⟩ := L.mul_near (x := x) (y := k) (a := 58 * 10 ^ 9) (by norm_num) (by
    rw [abs_mul, mul_comm]
    exact mul_le_mul kb hx (abs_nonneg _) (by norm_num)) (by norm_num)
  obtain ⟨y, hy, ny, -⟩ := L.approx_near y0
  rw [u] at ny0
  have R : ∀ {a b : Rat}, a ≤ b → (a : ℝ) ≤ b := fun h => (Rat.cast_le (K := ℝ)).mpr h
  have nkR := R nk
  have nyR := R ny
  have ny0R := R ny0
  have hxR := R hx
  push_cast at nkR nyR ny0R hxR
  have hp := L.pi_real
  have hps := abs_le.mp hp
  have p3 := Real.pi_gt_d2
  have hkR : |(L.val k : ℝ) - 180 / Real.pi| ≤ 2 / 10 ^ 26 := by
    have hd : (0 : ℝ) < L.val d.pi := by linarith [hps.1]
    have h2 : |180 / (L.val d.pi : ℝ) - 180 / Real.pi| ≤ 2 / 10 ^ 27 := by
      have e : 180 / (L.val d.pi : ℝ) - 180 / Real.pi = -180 * (L.val d.pi - Real.pi) / (L.val d.pi * Real.pi) := by
        have := Real.pi_pos
        field_simp
        ring
      rw [e, abs_div, abs_mul, abs_of_pos (mul_pos hd Real.pi_pos), div_le_iff₀ (mul_pos hd Real.pi_pos)]
      have h9 : (9 : ℝ) ≤ L.val d.pi * Real.pi := by nlinarith [hps.1]
      norm_num
      norm_num at hp
      nlinarith
    rw [abs_le] at h2 nkR ⊢
    constructor <;> linarith [h2.1, h2.2, nkR.1, nkR.2]
  refine ⟨y, ?_, ?_⟩
  · show d.toDegrees x = _
    simp only [Dec.toDegrees, Res.bind_eq, hk, Res.bind_ok, hy0, hy]
  · have h3 : |(L.val x : ℝ) * L.val k - L.val x * 180 / Real.pi| ≤ 10 ^ 9 * (2 / 10 ^ 26) := by
      have e : (L.val x : ℝ) * L.val k - L.val x * 180 / Real.pi = L.val x * (L.val k - 180 / Real.pi) := by ring
      rw [e, abs_mul]
      exact mul_le_mul hxR hkR (abs_nonneg _) (by norm_num)
    rw [abs_le] at *
    constructor <;> linarith [h3.1, h3.2, nyR.1, nyR.2, ny0R.1, ny0R.2]

/-- `to_radians(90)` is near a quarter turn. -/
example : ∃ c, Demo.dec.context Demo.keys true Demo.float Config.new = .ok c ∧
    ∃ z, evalTokens (c.view Demo.keys) (callTokens (str "to_radians") [Demo.decimal 90]) = .ok z ∧ |(z.1 : ℝ) - Real.pi / 2| ≤ 15 / 10 ^ 17 := by
  obtain ⟨c, hc, -⟩ := decimal_build Demo.keys true Demo.dec Demo.float Config.new
  have h : Demo.decLaws.val (Demo.decimal 90) = 90 := by decide +kernel
  obtain ⟨z, hz, hn⟩ := C100_to_radians_partial Demo.keys true Demo.decLaws Demo.float Config.new c hc [] (Demo.decimal 90)
    (by rw [h, abs_of_pos] <;> norm_num)
  refine ⟨c, hc, z, hz, ?_⟩
  rw [h, show ((90 : Rat) : ℝ) * Real.pi / 180 = Real.pi / 2 by push_cast; ring] at hn
  exact hn

end Prexel
