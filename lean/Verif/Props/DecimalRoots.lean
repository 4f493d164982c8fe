import Mathlib.Analysis.SpecialFunctions.Pow.Real
import Verif.Props.Decimal
import Verif.Lemmas.DecimalCbrtNeg
import Verif.Lemmas.DecimalCbrtSmall
import Verif.Examples.Roots
/-!
# Square roots and cube roots of decimals (C90, C91)

The roots are real numbers: `Real.sqrt` is the square root of Mathlib, a cube root is any `c` with `c ^ 3` the number.
-/

set_option linter.unusedVariables false

namespace Prexel
variable {D F : Type} {d : Dec D F}

/-! ## C90: square roots -/

/-- C90: the square root of a number that is not negative is never an error, and is correct to 26 digits. Missing: that the iteration ends,
which depends on how results are rounded: the model stops after `d.fuel` rounds with a panic. -/
theorem C90_sqrt_partial (K : Keys) (debug : Bool) (L : d.Laws) (f : F64 F) (S : L.SqrtStart f) (config : Config) (c : Context D)
    (hc : d.context K debug f config = .ok c) (os : List (Op D)) (x : D) (hx : 0 ≤ L.val x) (hs : d.isSignNegative x = false) :
    evalTokens ((c.runAll K debug os).view K) (callTokens (str "sqrt") [x]) = .panic ∨
    ∃ z, evalTokens ((c.runAll K debug os).view K) (callTokens (str "sqrt") [x]) = .ok z ∧
      |(L.val z : ℝ) - Real.sqrt (L.val x : ℝ)| ≤ 1 / 10 ^ 26 * max 1 (Real.sqrt (L.val x : ℝ)) := by
  rw [decimal_call hc os (g := _) rfl]
  show d.sqrt f x = .panic ∨ ∃ z, d.sqrt f x = .ok z ∧ _
  exact L.sqrt_near S hx hs

/-- The square root of zero is zero, and that of a negative number an overflow. -/
theorem C90_sqrt_ends (K : Keys) (debug : Bool) (L : d.Laws) (f : F64 F) (S : L.SqrtStart f) (config : Config) (c : Context D)
    (hc : d.context K debug f config = .ok c) (os : List (Op D)) (x : D) :
    (L.val x = 0 → d.isSignNegative x = false →
      ∃ z, evalTokens ((c.runAll K debug os).view K) (callTokens (str "sqrt") [x]) = .ok z ∧ L.val z = 0) ∧
    (L.val x < 0 → evalTokens ((c.runAll K debug os).view K) (callTokens (str "sqrt") [x]) = .err .overflow) := by
  rw [decimal_call hc os (g := _) rfl]
  show (_ → _ → ∃ z, d.sqrt f x = .ok z ∧ _) ∧ (_ → d.sqrt f x = _)
  unfold Dec.sqrt
  refine ⟨fun h0 hs => ?_, fun h => by rw [(L.sign x).1 h, if_pos rfl]⟩
  rw [hs, if_neg (by simp)]
  obtain ⟨v, s, e1, e2, h⟩ := S.zero x h0
  have heq : d.eq d.zero s = true := (L.eq _ _).mpr (by rw [h]; exact L.nat 0 (by decide))
  refine ⟨s, ?_, h⟩
  simp only [e1, e2, Ops.orOverflow, Res.ofOption, Res.bind_eq, Res.bind_ok]
  cases d.fuel <;> simp [Dec.sqrtLoop, heq]

/-- The contract holds for an example, and so does the theorem for `sqrt(2)`; `sqrt(0)` is 0 and `sqrt(-1)` an overflow. -/
example : ∃ c, Demo.realDec.context Demo.keys true Demo.real Config.new = .ok c ∧
    (evalTokens (c.view Demo.keys) (callTokens (str "sqrt") [Demo.decimal 2]) = .panic ∨
      ∃ z, evalTokens (c.view Demo.keys) (callTokens (str "sqrt") [Demo.decimal 2]) = .ok z ∧ |(z.1 : ℝ) - Real.sqrt 2| ≤ 1 / 10 ^ 25) ∧
    (∃ z, evalTokens (c.view Demo.keys) (callTokens (str "sqrt") [Demo.decimal 0]) = .ok z ∧ z.1 = 0) ∧
    evalTokens (c.view Demo.keys) (callTokens (str "sqrt") [Demo.decimal (-1)]) = .err .overflow := by
  obtain ⟨c, hc, -⟩ := decimal_build Demo.keys true Demo.realDec Demo.real Config.new
  have h2 : (Demo.decimal 2).1 = 2 := by decide +kernel
  have h0 : (Demo.decimal 0).1 = 0 := by decide +kernel
  have h1 : (Demo.decimal (-1)).1 < 0 := by decide +kernel
  refine ⟨c, hc, ?_, (C90_sqrt_ends Demo.keys true Demo.realDecLaws Demo.real Demo.realStart Config.new c hc [] (Demo.decimal 0)).1 h0
      (by show decide ((Demo.decimal 0).1 < 0) = false; rw [h0]; rfl),
    (C90_sqrt_ends Demo.keys true Demo.realDecLaws Demo.real Demo.realStart Config.new c hc [] (Demo.decimal (-1))).2 h1⟩
  rcases C90_sqrt_partial Demo.keys true Demo.realDecLaws Demo.real Demo.realStart Config.new c hc [] (Demo.decimal 2)
    (by show 0 ≤ (Demo.decimal 2).1; rw [h2]; norm_num) (by show decide ((Demo.decimal 2).1 < 0) = false; rw [h2]; rfl) with h | ⟨z, hz, hn⟩
  · exact .inl h
  · refine .inr ⟨z, hz, ?_⟩
    have hn : |(z.1 : ℝ) - Real.sqrt ((Demo.decimal 2).1 : ℝ)| ≤ 1 / 10 ^ 26 * max 1 (Real.sqrt ((Demo.decimal 2).1 : ℝ)) := hn
    rw [h2] at hn
    push_cast at hn
    have hs : Real.sqrt 2 ≤ 2 := by rw [Real.sqrt_le_left (by norm_num)]; norm_num
    refine hn.trans ?_
    have : max 1 (Real.sqrt 2) ≤ 2 := max_le (by norm_num) hs
    linarith

/-! ## C91: cube roots -/

/-- C91 for numbers from 1 to 8·10^14: the cube root is never an error, and is correct to 25 digits. -/
theorem C91_cbrt_partial (K : Keys) (debug : Bool) (L : d.Laws) (f : F64 F) (config : Config) (c : Context D)
    (hc : d.context K debug f config = .ok c) (os : List (Op D)) (x : D) (h1 : 1 ≤ L.val x) (h2 : L.val x ≤ 8 * 10 ^ 14) :
    ∃ z, evalTokens ((c.runAll K debug os).view K) (callTokens (str "cbrt") [x]) = .ok z ∧
      ∀ r : ℝ, 0 ≤ r → r ^ 3 = L.val x → |(L.val z : ℝ) - r| ≤ 2 / 10 ^ 26 * r := by
  rw [decimal_call hc os (g := _) rfl]
  show ∃ z, d.cbrt x = .ok z ∧ _
  have hX : (1 : ℝ) ≤ L.val x := by exact_mod_cast h1
  have main : ∀ r : ℝ, 0 ≤ r → r ^ 3 = L.val x → ∃ z, d.cbrt x = .ok z ∧ |(L.val z : ℝ) - r| ≤ 2 / 10 ^ 26 * r := by
    intro r hr hr3
    refine L.cbrt_close h1 h2 ?_ hr3
    by_contra h
    push Not at h
    have : r ^ 3 < 1 := pow_lt_one₀ hr h (by norm_num)
    linarith
  have hex : ∃ r : ℝ, 0 ≤ r ∧ r ^ 3 = L.val x := by
    refine ⟨(L.val x : ℝ) ^ ((1 : ℝ) / 3), Real.rpow_nonneg (by linarith) _, ?_⟩
    rw [← Real.rpow_natCast, ← Real.rpow_mul (by linarith)]
    norm_num
  obtain ⟨r, hr, hr3⟩ := hex
  obtain ⟨z, hz, -⟩ := main r hr hr3
  refine ⟨z, hz, fun r hr hr3 => ?_⟩
  obtain ⟨z', hz', h⟩ := main r hr hr3
  rw [hz] at hz'
  cases hz'
  exact h

/-- C91 for numbers between 0 and 1: the cube root is never an error, and its error is at most 36·10^-28 divided by the root. -/
theorem C91_cbrt_small_partial (K : Keys) (debug : Bool) (L : d.Laws) (f : F64 F) (config : Config) (c : Context D)
    (hc : d.context K debug f config = .ok c) (os : List (Op D)) (x : D) (h1 : 0 < L.val x) (h2 : L.val x < 1) :
    ∃ z, evalTokens ((c.runAll K debug os).view K) (callTokens (str "cbrt") [x]) = .ok z ∧
      ∀ r : ℝ, r ^ 3 = L.val x → r * |(L.val z : ℝ) - r| ≤ 36 / 10 ^ 28 := by
  rw [decimal_call hc os (g := _) rfl]
  show ∃ z, d.cbrt x = .ok z ∧ _
  have hX : (0 : ℝ) < L.val x := by exact_mod_cast h1
  have main : ∀ r : ℝ, r ^ 3 = L.val x → ∃ z, d.cbrt x = .ok z ∧ r * |(L.val z : ℝ) - r| ≤ 36 / 10 ^ 28 := by
    intro r hr3
    refine L.cbrt_close_small h1 h2 ?_ hr3
    by_contra h
    push Not at h
    have : r ^ 3 ≤ 0 := Odd.pow_nonpos (by decide) h
    linarith
  obtain ⟨r, hr3⟩ : ∃ r : ℝ, r ^ 3 = L.val x := by
    refine ⟨(L.val x : ℝ) ^ ((1 : ℝ) / 3), ?_⟩
    rw [← Real.rpow_natCast, ← Real.rpow_mul hX.le]
    norm_num
  obtain ⟨z, hz, -⟩ := main r hr3
  refine ⟨z, hz, fun r hr3 => ?_⟩
  obtain ⟨z', hz', h⟩ := main r hr3
  rw [hz] at hz'
  cases hz'
  exact h

/-- C91 for numbers from -8·10^14 to -3: the cube root is never an error, and is correct to 25 digits. -/
theorem C91_cbrt_negative_partial (K : Keys) (debug : Bool) (L : d.Laws) (f : F64 F) (config : Config) (c : Context D)
    (hc : d.context K debug f config = .ok c) (os : List (Op D)) (x : D) (h1 : -(8 * 10 ^ 14) ≤ L.val x) (h2 : L.val x ≤ -3) :
    ∃ z, evalTokens ((c.runAll K debug os).view K) (callTokens (str "cbrt") [x]) = .ok z ∧
      ∀ r : ℝ, r ^ 3 = L.val x → |(L.val z : ℝ) - r| ≤ 2 / 10 ^ 26 * |r| := by
  rw [decimal_call hc os (g := _) rfl]
  show ∃ z, d.cbrt x = .ok z ∧ _
  have hX : (L.val x : ℝ) ≤ -3 := by exact_mod_cast h2
  have main : ∀ r : ℝ, r ^ 3 = L.val x → ∃ z, d.cbrt x = .ok z ∧ |(L.val z : ℝ) - r| ≤ 2 / 10 ^ 26 * |r| := by
    intro r hr3
    have hr : r ≤ -1 := by
      by_contra h
      push Not at h
      have : (-1) ^ 3 < r ^ 3 := (Odd.strictMono_pow (by decide)) h
      norm_num at this
      linarith
    obtain ⟨z, hz, h⟩ := L.cbrt_close_neg h2 h1 (c := -r) (by linarith) (by push_cast; rw [← hr3]; ring)
    refine ⟨z, hz, ?_⟩
    rw [neg_neg] at h
    rw [abs_of_neg (show r < 0 by linarith)]
    exact h
  obtain ⟨r, hr3⟩ : ∃ r : ℝ, r ^ 3 = L.val x := by
    refine ⟨-((-(L.val x : ℝ)) ^ ((1 : ℝ) / 3)), ?_⟩
    rw [Odd.neg_pow (by decide), ← Real.rpow_natCast, ← Real.rpow_mul (by linarith)]
    norm_num
  obtain ⟨z, hz, -⟩ := main r hr3
  refine ⟨z, hz, fun r hr3 => ?_⟩
  obtain ⟨z', hz', h⟩ := main r hr3
  rw [hz] at hz'
  cases hz'
  exact h

/-- C91 is false: the cube root of -2 is an overflow, because the second round divides by zero. -/
theorem C91_cbrt_minus_two_counterexample (K : Keys) (debug : Bool) (L : d.Laws) (f : F64 F) (config : Config) (c : Context D)
    (hc : d.context K debug f config = .ok c) (os : List (Op D)) (x : D) (h : L.val x = -2) :
    evalTokens ((c.runAll K debug os).view K) (callTokens (str "cbrt") [x]) = .err .overflow := by
  rw [decimal_call hc os (g := _) rfl]
  exact L.cbrt_minus_two h

/-- `cbrt(0.001)` is 0.1 to 25 digits, `cbrt(-27)` is -3 to 25 digits, and `cbrt(-2)` is an overflow. -/
example : ∃ c, Demo.dec.context Demo.keys true Demo.float Config.new = .ok c ∧
    (∃ z, evalTokens (c.view Demo.keys) (callTokens (str "cbrt") [Demo.decimal 1 3]) = .ok z ∧ |(z.1 : ℝ) - 1 / 10| ≤ 1 / 10 ^ 25) ∧
    (∃ z, evalTokens (c.view Demo.keys) (callTokens (str "cbrt") [Demo.decimal (-27)]) = .ok z ∧ |(z.1 : ℝ) - -3| ≤ 1 / 10 ^ 25) ∧
    evalTokens (c.view Demo.keys) (callTokens (str "cbrt") [Demo.decimal (-2)]) = .err .overflow := by
  obtain ⟨c, hc, -⟩ := decimal_build Demo.keys true Demo.dec Demo.float Config.new
  have h1 : (Demo.decimal 1 3).1 = 1 / 1000 := by decide +kernel
  have h27 : (Demo.decimal (-27)).1 = -27 := by decide +kernel
  have h2 : (Demo.decimal (-2)).1 = -2 := by decide +kernel
  refine ⟨c, hc, ?_, ?_, C91_cbrt_minus_two_counterexample Demo.keys true Demo.decLaws Demo.float Config.new c hc [] _ h2⟩
  · obtain ⟨z, hz, hn⟩ := C91_cbrt_small_partial Demo.keys true Demo.decLaws Demo.float Config.new c hc [] (Demo.decimal 1 3)
      (by show _ < (Demo.decimal 1 3).1; rw [h1]; norm_num) (by show (Demo.decimal 1 3).1 < _; rw [h1]; norm_num)
    refine ⟨z, hz, ?_⟩
    have hn : (1 / 10 : ℝ) * |(z.1 : ℝ) - 1 / 10| ≤ 36 / 10 ^ 28 := hn (1 / 10) (by show _ = ((Demo.decimal 1 3).1 : ℝ); rw [h1]; norm_num)
    linarith
  · obtain ⟨z, hz, hn⟩ := C91_cbrt_negative_partial Demo.keys true Demo.decLaws Demo.float Config.new c hc [] (Demo.decimal (-27))
      (by show _ ≤ (Demo.decimal (-27)).1; rw [h27]; norm_num) (by show (Demo.decimal (-27)).1 ≤ _; rw [h27]; norm_num)
    refine ⟨z, hz, (hn (-3) (by show _ = ((Demo.decimal (-27)).1 : ℝ); rw [h27]; norm_num)).trans (by norm_num)⟩

/-- C91 is false: from 10^15 on every cube root is an overflow, although it is representable for example for 10^15. -/
theorem C91_cbrt_counterexample (K : Keys) (debug : Bool) (L : d.Laws) (f : F64 F) (config : Config) (c : Context D)
    (hc : d.context K debug f config = .ok c) (os : List (Op D)) (x : D) (h1 : 10 ^ 15 ≤ L.val x) (h2 : L.val x ≤ 10 ^ 28) :
    evalTokens ((c.runAll K debug os).view K) (callTokens (str "cbrt") [x]) = .err .overflow := by
  rw [decimal_call hc os (g := _) rfl]
  exact L.cbrt_large h1 h2

/-- C91 is false: the cube root of zero is an error or a positive number, never zero. -/
theorem C91_cbrt_zero_counterexample (K : Keys) (debug : Bool) (L : d.Laws) (f : F64 F) (config : Config) (c : Context D)
    (hc : d.context K debug f config = .ok c) (os : List (Op D)) (x : D) (h : L.val x = 0) :
    evalTokens ((c.runAll K debug os).view K) (callTokens (str "cbrt") [x]) = .err .overflow ∨
    ∃ z, evalTokens ((c.runAll K debug os).view K) (callTokens (str "cbrt") [x]) = .ok z ∧ 0 < L.val z := by
  rw [decimal_call hc os (g := _) rfl]
  exact L.cbrt_zero h

/-- `cbrt(27)` is 3 to 25 digits, `cbrt(1000000000000000)` is an overflow, and `cbrt(0)` is not 0. -/
example : ∃ c, Demo.dec.context Demo.keys true Demo.float Config.new = .ok c ∧
    (∃ z, evalTokens (c.view Demo.keys) (callTokens (str "cbrt") [Demo.decimal 27]) = .ok z ∧ |(z.1 : ℝ) - 3| ≤ 1 / 10 ^ 25) ∧
    evalTokens (c.view Demo.keys) (callTokens (str "cbrt") [Demo.decimal 1000000000000000]) = .err .overflow ∧
    (∀ z, evalTokens (c.view Demo.keys) (callTokens (str "cbrt") [Demo.decimal 0]) = .ok z → z.1 ≠ 0) := by
  obtain ⟨c, hc, -⟩ := decimal_build Demo.keys true Demo.dec Demo.float Config.new
  have h27 : (Demo.decimal 27).1 = 27 := by decide +kernel
  have hb : (Demo.decimal 1000000000000000).1 = 1000000000000000 := by decide +kernel
  have h0 : (Demo.decimal 0).1 = 0 := by decide +kernel
  refine ⟨c, hc, ?_, C91_cbrt_counterexample Demo.keys true Demo.decLaws Demo.float Config.new c hc [] _
      (by show _ ≤ (Demo.decimal 1000000000000000).1; rw [hb]; norm_num) (by show (Demo.decimal 1000000000000000).1 ≤ _; rw [hb]; norm_num), ?_⟩
  · obtain ⟨z, hz, hn⟩ := C91_cbrt_partial Demo.keys true Demo.decLaws Demo.float Config.new c hc [] (Demo.decimal 27)
      (by show _ ≤ (Demo.decimal 27).1; rw [h27]; norm_num) (by show (Demo.decimal 27).1 ≤ _; rw [h27]; norm_num)
    refine ⟨z, hz, (hn 3 (by norm_num) (by show _ = ((Demo.decimal 27).1 : ℝ); rw [h27]; norm_num)).trans (by norm_num)⟩
  · intro z hz
    rcases C91_cbrt_zero_counterexample Demo.keys true Demo.decLaws Demo.float Config.new c hc [] (Demo.decimal 0) h0 with h | ⟨z', h, hp⟩
    · have h : evalTokens (c.view Demo.keys) _ = _ := h
      rw [hz] at h; cases h
    · have h : evalTokens (c.view Demo.keys) _ = _ := h
      rw [hz] at h; cases h
      exact ne_of_gt hp

end Prexel
