import Mathlib.Analysis.SpecialFunctions.Complex.Arctan
import Mathlib.Analysis.SpecificLimits.Normed
import Mathlib.Tactic.Linarith
namespace Prexel

theorem arctan_bounds {x : ℝ} (h0 : 0 ≤ x) (h1 : x < 1) (k : Nat) :
    ∑ i ∈ Finset.range (2 * k), (-1) ^ i * (x ^ (2 * i + 1) / (2 * i + 1)) ≤ Real.arctan x ∧
    Real.arctan x ≤ ∑ i ∈ Finset.range (2 * k + 1), (-1) ^ i * (x ^ (2 * i + 1) / (2 * i + 1)) := by
  have hs : HasSum (fun n : ℕ => (-1 : ℝ) ^ n * (x ^ (2 * n + 1) / (2 * n + 1))) (Real.arctan x) := by
    have := Real.hasSum_arctan (x := x) (by rw [Real.norm_of_nonneg h0]; exact h1)
    convert this using 1
    ext n
    push_cast
    ring
  have ha : Antitone fun n : ℕ => x ^ (2 * n + 1) / (2 * n + 1 : ℝ) := by
    intro a b hab
    have hab' : (a : ℝ) ≤ b := by exact_mod_cast hab
    exact div_le_div₀ (by positivity) (pow_le_pow_of_le_one h0 h1.le (by omega)) (by positivity) (by linarith)
  exact ⟨Antitone.alternating_series_le_tendsto hs.tendsto_sum_nat ha k, Antitone.tendsto_le_alternating_series hs.tendsto_sum_nat ha k⟩

theorem pi_near : |Real.pi - 31415926535897932384626433833 / 10 ^ 28| ≤ 1 / 10 ^ 28 := by
  have h := Real.four_mul_arctan_inv_5_sub_arctan_inv_239
  obtain ⟨a1, a2⟩ := arctan_bounds (x := 5⁻¹) (by norm_num) (by norm_num) 10
  obtain ⟨b1, b2⟩ := arctan_bounds (x := 239⁻¹) (by norm_num) (by norm_num) 3
  rw [abs_le]
  norm_num [Finset.sum_range_succ] at a1 a2 b1 b2 ⊢
  constructor <;> linarith

end Prexel
