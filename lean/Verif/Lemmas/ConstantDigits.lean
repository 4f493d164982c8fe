import Verif.Lemmas.PiDigits
import Mathlib.Analysis.SpecialFunctions.Log.Deriv
import Mathlib.Analysis.SpecialFunctions.Sqrt
/-!
# Thirty digits of pi, e and the logarithms
-/

namespace Prexel

theorem pi_digits : |Real.pi - 3141592653589793238462643383279 / 10 ^ 30| ≤ 1 / 10 ^ 30 := by
  have h := Real.four_mul_arctan_inv_5_sub_arctan_inv_239
  obtain ⟨a1, a2⟩ := arctan_bounds (x := 5⁻¹) (by norm_num) (by norm_num) 11
  obtain ⟨b1, b2⟩ := arctan_bounds (x := 239⁻¹) (by norm_num) (by norm_num) 3
  rw [abs_le]
  norm_num [Finset.sum_range_succ] at a1 a2 b1 b2 ⊢
  constructor <;> linarith

theorem e_digits : |Real.exp 1 - 27182818284590452353602874713526 / 10 ^ 31| ≤ 1 / 10 ^ 31 := by
  have h := Real.exp_bound (x := 1) (by norm_num) (n := 30) (by norm_num)
  rw [abs_le] at h ⊢
  norm_num [Finset.sum_range_succ, Nat.factorial] at h ⊢
  constructor <;> linarith [h.1, h.2]

theorem log_digits : |Real.log 10 - 2302585092994045684017991454684 / 10 ^ 30| ≤ 1 / 10 ^ 30 ∧
    |Real.log 2 - 693147180559945309417232121458 / 10 ^ 30| ≤ 1 / 10 ^ 30 := by
  have a := Real.abs_log_sub_add_sum_range_le (x := 1 / 10) (by rw [abs_of_pos (by norm_num)]; norm_num) 32
  have b := Real.abs_log_sub_add_sum_range_le (x := 1 / 25) (by rw [abs_of_pos (by norm_num)]; norm_num) 23
  have c := Real.abs_log_sub_add_sum_range_le (x := 1 / 81) (by rw [abs_of_pos (by norm_num)]; norm_num) 17
  have h1 : (1 - 1 / 10 : ℝ) = 3 ^ 2 / (2 * 5) := by norm_num
  have h2 : (1 - 1 / 25 : ℝ) = 2 ^ 3 * 3 / 5 ^ 2 := by norm_num
  have h3 : (1 - 1 / 81 : ℝ) = 2 ^ 4 * 5 / 3 ^ 4 := by norm_num
  have e1 : Real.log (1 - 1 / 10) = 2 * Real.log 3 - (Real.log 2 + Real.log 5) := by
    rw [h1, Real.log_div (by norm_num) (by norm_num), Real.log_mul (by norm_num) (by norm_num), Real.log_pow]; norm_num
  have e2 : Real.log (1 - 1 / 25) = 3 * Real.log 2 + Real.log 3 - 2 * Real.log 5 := by
    rw [h2, Real.log_div (by norm_num) (by norm_num), Real.log_mul (by norm_num) (by norm_num), Real.log_pow, Real.log_pow]; norm_num
  have e3 : Real.log (1 - 1 / 81) = 4 * Real.log 2 + Real.log 5 - 4 * Real.log 3 := by
    rw [h3, Real.log_div (by norm_num) (by norm_num), Real.log_mul (by norm_num) (by norm_num), Real.log_pow, Real.log_pow]; norm_num
  have h4 : Real.log 10 = Real.log 2 + Real.log 5 := by rw [← Real.log_mul (by norm_num) (by norm_num)]; norm_num
  have e : Real.log 10 = -(23 * Real.log (1 - 1 / 10)) + 6 * Real.log (1 - 1 / 25) - 10 * Real.log (1 - 1 / 81) := by
    rw [e1, e2, e3, h4]; ring
  have e' : Real.log 2 = -(7 * Real.log (1 - 1 / 10)) + 2 * Real.log (1 - 1 / 25) - 3 * Real.log (1 - 1 / 81) := by
    rw [e1, e2, e3]; ring
  rw [abs_of_pos (show (0 : ℝ) < 1 / 10 by norm_num)] at a
  rw [abs_of_pos (show (0 : ℝ) < 1 / 25 by norm_num)] at b
  rw [abs_of_pos (show (0 : ℝ) < 1 / 81 by norm_num)] at c
  clear e1 e2 e3 h1 h2 h3 h4
  rw [e, e']
  generalize Real.log (1 - 1 / 10) = A at a ⊢
  generalize Real.log (1 - 1 / 25) = B at b ⊢
  generalize Real.log (1 - 1 / 81) = C at c ⊢
  rw [abs_le] at a b c ⊢
  rw [abs_le]
  norm_num [Finset.sum_range_succ] at a b c ⊢
  refine ⟨⟨?_, ?_⟩, ⟨?_, ?_⟩⟩ <;> linarith [a.1, a.2, b.1, b.2, c.1, c.2]

end Prexel
