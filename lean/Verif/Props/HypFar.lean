import Verif.Lemmas.DecimalHypFar
import Verif.Props.DecimalExp
/-!
# Large arguments of exponentials and hyperbolic functions (C96, C97)

The continued fraction is cut after 100 terms. For arguments of a few hundred it is no longer near its limit, and nothing notices.
-/

namespace Prexel
variable {D F : Type} {d : Dec D F}

/-- C96 is false: `exp(10000)`, which does not fit a decimal, is not an overflow, but a negative number. -/
theorem C96_large_counterexample (K : Keys) (debug : Bool) (L : d.Laws) (f : F64 F) (config : Config) (c : Context D)
    (hc : d.context K debug f config = .ok c) (os : List (Op D)) (x : D) (hx : L.val x = 10000) :
    ∃ z, evalTokens ((c.runAll K debug os).view K) (callTokens (str "exp") [x]) = .ok z ∧ L.val z ≤ -7 ∧ 0 < Real.exp (L.val x) := by
  rw [decimal_call hc os (g := _) rfl]
  obtain ⟨z, hz, -, h⟩ := L.exp_far_plus hx
  exact ⟨z, hz, by linarith, Real.exp_pos _⟩

/-- C97 is false: `sinh(10000)` and `cosh(10000)` are below -3, although they are positive, and not an overflow; `tanh(10000)` is wrong by more than
1/100. -/
theorem C97_hyperbolic_counterexample (K : Keys) (debug : Bool) (L : d.Laws) (f : F64 F) (config : Config) (c : Context D)
    (hc : d.context K debug f config = .ok c) (os : List (Op D)) (x : D) (hx : L.val x = 10000) :
    (∃ z, evalTokens ((c.runAll K debug os).view K) (callTokens (str "sinh") [x]) = .ok z ∧ L.val z ≤ -3 ∧ 0 < Real.sinh (L.val x)) ∧
    (∃ z, evalTokens ((c.runAll K debug os).view K) (callTokens (str "cosh") [x]) = .ok z ∧ L.val z ≤ -3 ∧ 1 ≤ Real.cosh (L.val x)) ∧
    (∃ z, evalTokens ((c.runAll K debug os).view K) (callTokens (str "tanh") [x]) = .ok z ∧
      1 / 100 ≤ |(L.val z : ℝ) - Real.tanh (L.val x)|) := by
  obtain ⟨s, ch, t, hs, hch, ht, s1, c1, t1⟩ := L.hyp_far hx
  rw [decimal_call hc os (g := _) rfl, decimal_call hc os (g := _) rfl, decimal_call hc os (g := _) rfl]
  have hX : (L.val x : ℝ) = 10000 := by rw [hx]; norm_num
  refine ⟨⟨s, hs, s1, ?_⟩, ⟨ch, hch, c1, ?_⟩, ⟨t, ht, ?_⟩⟩
  · rw [hX, Real.sinh_eq]
    have := Real.exp_lt_exp.mpr (show (-10000 : ℝ) < 10000 by norm_num)
    linarith
  · nlinarith [Real.cosh_pos (L.val x : ℝ), Real.cosh_sq (L.val x : ℝ), sq_nonneg (Real.sinh (L.val x))]
  · have t2 : (L.val t : ℝ) ≤ 98 / 100 := by
      have := (Rat.cast_le (K := ℝ)).mpr t1
      push_cast at this
      exact this
    have h3 : 99 / 100 ≤ Real.tanh (L.val x) := by
      rw [hX, Real.tanh_eq_sinh_div_cosh, le_div_iff₀ (Real.cosh_pos _), Real.sinh_eq, Real.cosh_eq]
      have e1 : (10001 : ℝ) ≤ Real.exp 10000 := by
        have := Real.add_one_le_exp (10000 : ℝ)
        linarith
      have e2 : Real.exp (-10000) ≤ 1 := Real.exp_le_one_iff.mpr (by norm_num)
      generalize Real.exp 10000 = A at *
      generalize Real.exp (-10000) = B at *
      linarith
    rw [abs_sub_comm]
    exact le_trans (by linarith) (le_abs_self _)

/-- The hypotheses are met. -/
example : ∃ c, Demo.dec.context Demo.keys true Demo.float Config.new = .ok c ∧ Demo.decLaws.val (Demo.decimal 10000) = 10000 := by
  obtain ⟨c, hc, -⟩ := decimal_build Demo.keys true Demo.dec Demo.float Config.new
  exact ⟨c, hc, by decide +kernel⟩

end Prexel
