import Verif.Props.DoubleIdentities
/-!
# Tangent as the quotient of sine and cosine over `f64` (C172)
-/

namespace Prexel
open B64

theorem tangent_quotient {s c p q k : ℝ} (hk : 1 / 1000 ≤ k) (hq : k ≤ |q|) (hp : |p| ≤ 1) (hq1 : |q| ≤ 1) (hs : |s - p| ≤ 15 / 10 ^ 11)
    (hc : |c - q| ≤ 15 / 10 ^ 11) : c ≠ 0 ∧ |s / c - p / q| ≤ 31 / 10 ^ 11 * (k ^ 2)⁻¹ ∧ |s / c| ≤ 2 * (k ^ 2)⁻¹ := by
  have k0 : 0 < k := lt_of_lt_of_le (by norm_num) hk
  have k1 : k ≤ 1 := hq.trans hq1
  have q0 : q ≠ 0 := by
    rintro rfl
    rw [abs_zero] at hq
    linarith
  have hcl : (1 - 15 / 10 ^ 8) * k ≤ |c| := by
    have := abs_sub_abs_le_abs_sub q c
    rw [abs_sub_comm] at this
    norm_num at *
    linarith
  have hcp : 0 < |c| := lt_of_lt_of_le (mul_pos (by norm_num) k0) hcl
  have c0 : c ≠ 0 := abs_pos.mp hcp
  have hk2 : 0 < k ^ 2 := by positivity
  refine ⟨c0, ?_, ?_⟩
  · rw [div_sub_div _ _ c0 q0, abs_div, ← div_eq_mul_inv, div_le_div_iff₀ (abs_pos.mpr (mul_ne_zero c0 q0)) hk2, abs_mul]
    have e1 : |s * q - c * p| ≤ 30 / 10 ^ 11 := by
      rw [show s * q - c * p = (s - p) * q - (c - q) * p by ring]
      refine (abs_sub _ _).trans ?_
      rw [abs_mul, abs_mul]
      have h1 := mul_le_mul hs hq1 (abs_nonneg _) (by norm_num)
      have h2 := mul_le_mul hc hp (abs_nonneg _) (by norm_num)
      norm_num at *
      linarith
    have e2 : (1 - 15 / 10 ^ 8) * k * k ≤ |c| * |q| := mul_le_mul hcl hq k0.le (abs_nonneg _)
    have e3 := mul_le_mul_of_nonneg_right e1 hk2.le
    rw [sq] at *
    norm_num at *
    linarith [mul_self_nonneg k]
  · rw [abs_div, ← div_eq_mul_inv, div_le_div_iff₀ hcp hk2]
    have e1 : |s| ≤ 1 + 15 / 10 ^ 11 := by
      have := abs_sub_abs_le_abs_sub s p
      linarith
    have e2 : k ^ 2 ≤ k := by nlinarith
    have e3 := mul_le_mul e1 e2 hk2.le (by norm_num)
    norm_num at *
    linarith

section
variable {K : Keys} {debug docs : Bool} {lib : Libm} {draw : B64} {ctx : Ctx B64}

/-- C172: tangent is sine over cosine, away from the poles. -/
theorem C172_quotient (A : lib.Circular) (h : BuiltIn K debug docs (f64 lib draw) ((f64 lib draw).num B64.num) ctx) (x : B64) (hx : x.isFin)
    (h6 : |x.val| ≤ 10 ^ 6) {k : ℝ} (hk : 1 / 1000 ≤ k) (hcos : k ≤ |Real.cos (degrees x.val)|) :
    ∃ s c t r, evalTokens ctx (callTokens (str "sin") [x]) = .ok s ∧ evalTokens ctx (callTokens (str "cos") [x]) = .ok c ∧
      evalTokens ctx (callTokens (str "tan") [x]) = .ok t ∧ evalTokens ctx (infixTokens s (str "/") c) = .ok r ∧ t.isFin ∧ r.isFin ∧
      |(r.val : ℝ) - t.val| ≤ 5 / 10 ^ 10 / k ^ 2 := by
  obtain ⟨⟨s, s1, s2, s3⟩, ⟨c, c1, c2, c3⟩⟩ := sine_cosine_near A h x hx (h6.trans (by norm_num))
  obtain ⟨t, t1, t2, t3, -⟩ := C162_tangent A h x hx h6 hk hcos
  rw [Real.tan_eq_sin_div_cos] at t3
  obtain ⟨q1, q2, q3⟩ := tangent_quotient hk hcos (Real.abs_sin_le_one _) (Real.abs_cos_le_one _) s3 c3
  have k0 : 0 < k := lt_of_lt_of_le (by norm_num) hk
  have hW : 1 ≤ (k ^ 2)⁻¹ := by
    have := hcos.trans (Real.abs_cos_le_one _)
    exact (one_le_inv₀ (by positivity)).mpr (pow_le_one₀ k0.le this)
  have hW6 : (k ^ 2)⁻¹ ≤ 10 ^ 6 := by
    have := pow_le_pow_left₀ (by norm_num) hk 2
    exact inv_le_of_inv_le₀ (by positivity) (le_trans (by norm_num) this)
  have hv : |(x.val : ℝ)| ≤ 10 ^ 6 := by
    have : ((|x.val| : ℚ) : ℝ) ≤ ((10 ^ 6 : ℚ) : ℝ) := Rat.cast_le.mpr h6
    rw [Rat.cast_abs] at this
    push_cast at this
    exact this
  have c0 : c.val ≠ 0 := fun h => q1 (by rw [h]; exact Rat.cast_zero)
  rw [div_eq_mul_inv _ (k ^ 2)] at t3 ⊢
  generalize (k ^ 2)⁻¹ = W at *
  have ht : |(t.val : ℝ) - Real.sin (degrees x.val) / Real.cos (degrees x.val)| ≤ 12 / 10 ^ 11 * W := by
    have e1 := mul_le_mul_of_nonneg_right hv (by norm_num : (0 : ℝ) ≤ 4 / 10 ^ 18)
    have e2 : (|(x.val : ℝ)| * (4 / 10 ^ 18) + 1 / 10 ^ 15) * W ≤ 5 / 10 ^ 12 * W :=
      mul_le_mul_of_nonneg_right (by norm_num at *; linarith) (by linarith)
    rcases t3 with g | ⟨n, -, g⟩
    · norm_num at *; linarith
    · norm_num at *; linarith
  have hd : evalTokens ctx (infixTokens s (str "/") c) = .ok (B64.div s c) :=
    (double_tree h (.bin .div (.num s) (.num c))).trans (if_neg fun hc => c0 ((isZero_iff c2).mp hc))
  have bigq : |s.val / c.val| ≤ 2 ^ 1000 := by
    have : ((|s.val / c.val| : ℚ) : ℝ) ≤ ((2 ^ 21 : ℚ) : ℝ) := by
      rw [Rat.cast_abs]
      push_cast
      norm_num at *
      linarith
    exact (Rat.cast_le.mp this).trans (pow_le_pow_right₀ (by norm_num) (by norm_num))
  obtain ⟨f1, f2⟩ := of_fin (s.sign ^^ c.sign) (notLarge bigq)
  have hm := cast_near (rnd_moves bigq)
  push_cast at hm
  refine ⟨s, c, t, _, s1, c1, t1, hd, t2, by rw [div_fin s2 c2 c0]; exact f1, ?_⟩
  rw [div_fin s2 c2 c0, f2]
  have tiny : (1 : ℝ) / 2 ^ 1022 ≤ 1 / 2 ^ 100 :=
    one_div_le_one_div_of_le (by positivity) (pow_le_pow_right₀ (by norm_num) (by norm_num))
  generalize (1 : ℝ) / 2 ^ 1022 = w at *
  have e3 := abs_sub_le ((rnd (s.val / c.val) : ℚ) : ℝ) (s.val / c.val) t.val
  have e4 := abs_sub_le ((s.val : ℝ) / c.val) (Real.sin (degrees x.val) / Real.cos (degrees x.val)) t.val
  rw [abs_sub_comm (Real.sin (degrees x.val) / Real.cos (degrees x.val)) (t.val : ℝ)] at e4
  clear bigq f1 f2 hd
  norm_num at *
  linarith

/-- The hypotheses are met: some library meets the contract, and the cosine of 0 degrees is 1. -/
example (lib : Libm) : (withCircle lib).Circular ∧ (lit 0).isFin ∧ |(lit 0).val| ≤ 10 ^ 6 ∧ (1 : ℝ) / 1000 ≤ 1 ∧
    (1 : ℝ) ≤ |Real.cos (degrees (lit 0).val)| := by
  refine ⟨withCircle_contract lib, ⟨by decide +kernel, by decide +kernel⟩, by decide +kernel, by norm_num, ?_⟩
  have : (lit 0).val = 0 := by decide +kernel
  rw [this]
  simp [degrees]

end

end Prexel
