import Verif.Props.DecimalExp
import Verif.Lemmas.DecimalWide
/-!
# Exponentials, hyperbolic functions and powers on a wider range (C96, C97, C98)

The error is not relative to the result: it grows with the square of the result, so that beyond 20 digits are lost one by one.
-/

set_option linter.unusedVariables false

namespace Prexel
variable {D F : Type} {d : Dec D F}

/-- C96 from -100 to 50, with an error that grows like the square of the exponential: three digits are left at 50. -/
theorem C96_wide_partial (K : Keys) (debug : Bool) (L : d.Laws) (f : F64 F) (config : Config) (c : Context D)
    (hc : d.context K debug f config = .ok c) (os : List (Op D)) (x : D) (h0 : -100 ≤ L.val x) (h1 : L.val x ≤ 50) :
    ∃ z, evalTokens ((c.runAll K debug os).view K) (callTokens (str "exp") [x]) = .ok z ∧
      |(L.val z : ℝ) - Real.exp (L.val x)| ≤ 2 / 10 ^ 16 + 2 / 10 ^ 25 * Real.exp (L.val x) * (1 + Real.exp (L.val x)) := by
  rw [decimal_call hc os (g := _) rfl]
  exact L.exp_wide h0 h1

/-- C97 from -50 to 50, with errors that grow like the square of the hyperbolic cosine (its first power for `tanh`). -/
theorem C97_wide_partial (K : Keys) (debug : Bool) (L : d.Laws) (f : F64 F) (config : Config) (c : Context D)
    (hc : d.context K debug f config = .ok c) (os : List (Op D)) (x : D) (hx : |L.val x| ≤ 50) :
    (∃ z, evalTokens ((c.runAll K debug os).view K) (callTokens (str "sinh") [x]) = .ok z ∧
      |(L.val z : ℝ) - Real.sinh (L.val x)| ≤ 3 / 10 ^ 16 + 1 / 10 ^ 24 * Real.cosh (L.val x) ^ 2) ∧
    (∃ z, evalTokens ((c.runAll K debug os).view K) (callTokens (str "cosh") [x]) = .ok z ∧
      |(L.val z : ℝ) - Real.cosh (L.val x)| ≤ 3 / 10 ^ 16 + 1 / 10 ^ 24 * Real.cosh (L.val x) ^ 2) ∧
    (∃ z, evalTokens ((c.runAll K debug os).view K) (callTokens (str "tanh") [x]) = .ok z ∧
      |(L.val z : ℝ) - Real.tanh (L.val x)| ≤ 7 / 10 ^ 16 + 3 / 10 ^ 24 * Real.cosh (L.val x)) := by
  obtain ⟨s, ch, t, hs, hch, ht, ns, nc, nt⟩ := L.hyp_wide hx
  rw [decimal_call hc os (g := _) rfl, decimal_call hc os (g := _) rfl, decimal_call hc os (g := _) rfl]
  exact ⟨⟨s, hs, ns⟩, ⟨ch, hch, nc⟩, ⟨t, ht, nt⟩⟩

/-- C98 for bases from 1/10 on and powers from `e^-99` to `e^49`. -/
theorem C98_wide_partial (K : Keys) (debug : Bool) (L : d.Laws) (hfuel : 100 ≤ d.fuel) (f : F64 F) (config : Config) (c : Context D)
    (hc : d.context K debug f config = .ok c) (os : List (Op D)) (x y : D) (hx : 1 / 10 ≤ L.val x) (hy : ∀ n : ℤ, L.val y ≠ n)
    (hy10 : |L.val y| ≤ 10 ^ 10) (hr0 : -99 ≤ (L.val y : ℝ) * Real.log (L.val x)) (hr1 : (L.val y : ℝ) * Real.log (L.val x) ≤ 49) :
    ∃ z, evalTokens ((c.runAll K debug os).view K) (infixTokens x ['^'] y) = .ok z ∧
      |(L.val z : ℝ) - (L.val x : ℝ) ^ (L.val y : ℝ)| ≤ 1 / 10 ^ 15 * (1 + |(L.val y : ℝ)|) * (1 + (L.val x : ℝ) ^ (L.val y : ℝ)) +
        3 / 10 ^ 25 * ((L.val x : ℝ) ^ (L.val y : ℝ)) ^ 2 := by
  rw [decimal_infix hc os (g := (d.powOp).fn) rfl]
  exact L.powd_wide hfuel hx hy hy10 hr0 hr1

/-- `exp(45)`, `tanh(-40)` and `100 ^ 9.5`. -/
example : ∃ c, Demo.dec.context Demo.keys true Demo.float Config.new = .ok c ∧
    (∃ z, evalTokens (c.view Demo.keys) (callTokens (str "exp") [Demo.decimal 45]) = .ok z ∧
      |(z.1 : ℝ) - Real.exp 45| ≤ 2 / 10 ^ 16 + 2 / 10 ^ 25 * Real.exp 45 * (1 + Real.exp 45)) ∧
    (∃ z, evalTokens (c.view Demo.keys) (callTokens (str "tanh") [Demo.decimal (-40)]) = .ok z ∧
      |(z.1 : ℝ) - Real.tanh (-40)| ≤ 7 / 10 ^ 16 + 3 / 10 ^ 24 * Real.cosh (-40)) ∧
    (∃ z, evalTokens (c.view Demo.keys) (infixTokens (Demo.decimal 100) ['^'] (Demo.decimal 95 1)) = .ok z ∧
      |(z.1 : ℝ) - 10 ^ 19| ≤ 1 / 10 ^ 15 * (1 + 19 / 2) * (1 + 10 ^ 19) + 3 / 10 ^ 25 * (10 ^ 19) ^ 2) := by
  obtain ⟨c, hc, -⟩ := decimal_build Demo.keys true Demo.dec Demo.float Config.new
  have h45 : Demo.decLaws.val (Demo.decimal 45) = 45 := by decide +kernel
  have h40 : Demo.decLaws.val (Demo.decimal (-40)) = -40 := by decide +kernel
  have h100 : Demo.decLaws.val (Demo.decimal 100) = 100 := by decide +kernel
  have h95 : Demo.decLaws.val (Demo.decimal 95 1) = 19 / 2 := by decide +kernel
  have hni : ∀ n : ℤ, Demo.decLaws.val (Demo.decimal 95 1) ≠ n := by
    intro n hn
    rw [h95] at hn
    have : (19 : Rat) = ((2 * n : ℤ) : Rat) := by push_cast; linarith
    have : (19 : ℤ) = 2 * n := by exact_mod_cast this
    omega
  have l10 : Real.log 100 ≤ 98 / 19 ∧ 0 ≤ Real.log 100 := by
    constructor
    · rw [Real.log_le_iff_le_exp (by norm_num)]
      have h1 : (2718 / 1000 : ℝ) ≤ Real.exp 1 := by linarith [Real.exp_one_gt_d9]
      have h2 : Real.exp 5 = Real.exp 1 ^ 5 := by rw [← Real.exp_nat_mul]; norm_num
      have h3 : Real.exp 5 ≤ Real.exp (98 / 19) := Real.exp_le_exp.mpr (by norm_num)
      have h4 := pow_le_pow_left₀ (by norm_num) h1 5
      rw [← h2] at h4
      norm_num at h4
      linarith
    · exact Real.log_nonneg (by norm_num)
  refine ⟨c, hc, ?_, ?_, ?_⟩
  · obtain ⟨z, hz, hn⟩ := C96_wide_partial Demo.keys true Demo.decLaws Demo.float Config.new c hc [] (Demo.decimal 45)
      (by rw [h45]; norm_num) (by rw [h45]; norm_num)
    refine ⟨z, hz, ?_⟩
    rw [h45] at hn
    push_cast at hn
    exact hn
  · obtain ⟨-, -, ⟨z, hz, hn⟩⟩ := C97_wide_partial Demo.keys true Demo.decLaws Demo.float Config.new c hc [] (Demo.decimal (-40))
      (by rw [h40, abs_neg, abs_of_pos] <;> norm_num)
    refine ⟨z, hz, ?_⟩
    rw [h40] at hn
    push_cast at hn
    exact hn
  · obtain ⟨z, hz, hn⟩ := C98_wide_partial Demo.keys true Demo.decLaws (le_refl 100) Demo.float Config.new c hc [] (Demo.decimal 100) (Demo.decimal 95 1)
      (by rw [h100]; norm_num) hni (by rw [h95, abs_of_pos] <;> norm_num)
      (by rw [h95, h100]; push_cast; linarith [l10.2]) (by rw [h95, h100]; push_cast; linarith [l10.1])
    refine ⟨z, hz, ?_⟩
    rw [h95, h100] at hn
    push_cast at hn
    have e : (100 : ℝ) ^ (19 / 2 : ℝ) = 10 ^ 19 := by
      rw [show (100 : ℝ) = 10 ^ (2 : ℝ) by norm_num, ← Real.rpow_mul (by norm_num), show (2 : ℝ) * (19 / 2) = ((19 : ℕ) : ℝ) by norm_num, Real.rpow_natCast]
    rw [e, abs_of_pos (show (0 : ℝ) < 19 / 2 by norm_num)] at hn
    exact hn

end Prexel
