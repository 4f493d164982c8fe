import Mathlib.Analysis.SpecialFunctions.Trigonometric.Series
import Mathlib.Data.Nat.Factorial.DoubleFactorial
import Mathlib.Analysis.SpecificLimits.Normed
/-!
# The continued fraction of the exponential function

`e^x = 1 + 2x / (R 0 - x)` where `R n = 4n + 2 + x² / R (n + 1)`.
-/

namespace Prexel

/-- The terms of `i_(n-1)(y) / y^(n-1)`, where `i` are the spherical Bessel functions. -/
noncomputable def besselTerm (y : ℝ) (n k : Nat) : ℝ := y ^ (2 * k) / (2 ^ k * (k.factorial : ℝ) * ((2 * n + 2 * k - 1).doubleFactorial : ℝ))

theorem besselTerm_nonneg (y : ℝ) (n k : Nat) : 0 ≤ besselTerm y n k := by
  unfold besselTerm
  rw [pow_mul]
  positivity

theorem besselTerm_summable (y : ℝ) (n : Nat) : Summable (besselTerm y n) := by
  refine Summable.of_nonneg_of_le (besselTerm_nonneg y n) (fun k => ?_) (Real.summable_pow_div_factorial (y ^ 2))
  unfold besselTerm
  rw [pow_mul]
  refine div_le_div_of_nonneg_left (by positivity) (by positivity) ?_
  have h1 : (1 : ℝ) ≤ 2 ^ k := one_le_pow₀ (by norm_num)
  have h2 : (1 : ℝ) ≤ ((2 * n + 2 * k - 1).doubleFactorial : ℝ) := by exact_mod_cast Nat.doubleFactorial_pos _
  have h3 : (0 : ℝ) ≤ (k.factorial : ℝ) := by positivity
  nlinarith [mul_le_mul h1 h2 (by norm_num) (by positivity), mul_le_mul_of_nonneg_left (mul_le_mul h1 h2 (by norm_num) (by positivity)) h3]

noncomputable def bessel (y : ℝ) (n : Nat) : ℝ := ∑' k, besselTerm y n k

theorem bessel_pos (y : ℝ) (n : Nat) : 0 < bessel y n := by
  refine (besselTerm_summable y n).tsum_pos (besselTerm_nonneg y n) 0 ?_
  unfold besselTerm
  simp only [mul_zero, pow_zero]
  have : 0 < (2 * n + 0 - 1).doubleFactorial := Nat.doubleFactorial_pos _
  positivity

theorem dfac_step (n k : Nat) : ((2 * (n + 1) + 2 * k - 1).doubleFactorial : ℝ) = (2 * n + 2 * k + 1) * ((2 * n + 2 * k - 1).doubleFactorial : ℝ) := by
  cases h : 2 * n + 2 * k with
  | zero =>
    have : 2 * (n + 1) + 2 * k - 1 = 1 := by omega
    have hr : (2 * n + 2 * k : ℝ) = 0 := by exact_mod_cast h
    rw [this, hr]
    norm_num
  | succ m =>
    have : 2 * (n + 1) + 2 * k - 1 = m + 2 := by omega
    have hr : (2 * n + 2 * k : ℝ) = m + 1 := by exact_mod_cast h
    rw [this, hr, Nat.doubleFactorial_add_two]
    push_cast
    ring

theorem besselTerm_step (y : ℝ) (n k : Nat) : besselTerm y n k = (2 * n + 2 * k + 1) * besselTerm y (n + 1) k := by
  unfold besselTerm
  rw [dfac_step]
  have h0 : (0 : ℝ) < ((2 * n + 2 * k - 1).doubleFactorial : ℝ) := by exact_mod_cast Nat.doubleFactorial_pos _
  field_simp

theorem besselTerm_next (y : ℝ) (n k : Nat) : 2 * (k + 1) * besselTerm y (n + 1) (k + 1) = y ^ 2 * besselTerm y (n + 2) k := by
  unfold besselTerm
  have e : 2 * (n + 2) + 2 * k - 1 = 2 * (n + 1) + 2 * (k + 1) - 1 := by omega
  rw [e, Nat.factorial_succ]
  have h0 : (0 : ℝ) < ((2 * (n + 1) + 2 * (k + 1) - 1).doubleFactorial : ℝ) := by exact_mod_cast Nat.doubleFactorial_pos _
  push_cast
  field_simp
  ring

/-- The recurrence of the Bessel functions. -/
theorem bessel_rec (y : ℝ) (n : Nat) : bessel y n = (2 * n + 1) * bessel y (n + 1) + y ^ 2 * bessel y (n + 2) := by
  have h1 : HasSum (fun k => (2 * n + 1 : ℝ) * besselTerm y (n + 1) k) ((2 * n + 1) * bessel y (n + 1)) :=
    (besselTerm_summable y (n + 1)).hasSum.mul_left _
  have h2 : HasSum (fun k => y ^ 2 * besselTerm y (n + 2) k) (y ^ 2 * bessel y (n + 2)) := (besselTerm_summable y (n + 2)).hasSum.mul_left _
  have h3 : HasSum (fun k : ℕ => 2 * (k : ℝ) * besselTerm y (n + 1) k) (y ^ 2 * bessel y (n + 2)) := by
    rw [← hasSum_nat_add_iff' 1]
    simp only [Finset.sum_range_one, Nat.cast_zero, mul_zero, zero_mul, sub_zero]
    have ef : (fun k : ℕ => 2 * ((k + 1 : ℕ) : ℝ) * besselTerm y (n + 1) (k + 1)) = fun k => y ^ 2 * besselTerm y (n + 2) k := by
      funext k
      rw [← besselTerm_next]
      push_cast
      ring
    rw [ef]
    exact h2
  have h4 := h1.add h3
  rw [← h4.tsum_eq]
  unfold bessel
  congr 1
  ext k
  rw [besselTerm_step]
  ring

theorem bessel_zero (y : ℝ) : bessel y 0 = Real.cosh y := by
  rw [← (Real.hasSum_cosh y).tsum_eq]
  unfold bessel
  congr 1
  ext k
  unfold besselTerm
  congr 1
  cases k with
  | zero => simp
  | succ k =>
    have e : 2 * 0 + 2 * (k + 1) - 1 = 2 * k + 1 := by omega
    have e2 : 2 * (k + 1) = (2 * k + 1) + 1 := by omega
    rw [e]
    have e3 : (2 * (k + 1)).factorial = 2 ^ (k + 1) * (k + 1).factorial * (2 * k + 1).doubleFactorial := by
      rw [← Nat.doubleFactorial_two_mul, e2, ← Nat.factorial_eq_mul_doubleFactorial]
    rw [e3]
    push_cast
    ring

theorem bessel_one (y : ℝ) : y * bessel y 1 = Real.sinh y := by
  have h := (Real.hasSum_sinh y).tsum_eq
  rw [← h]
  unfold bessel
  rw [← tsum_mul_left]
  congr 1
  ext k
  unfold besselTerm
  have e : 2 * 1 + 2 * k - 1 = 2 * k + 1 := by omega
  rw [e, Nat.factorial_eq_mul_doubleFactorial, Nat.doubleFactorial_two_mul]
  push_cast
  rw [pow_succ, mul_div_assoc']
  congr 1 <;> ring

/-- The larger of two neighbours. -/
theorem bessel_le (y : ℝ) (n : Nat) : |y| * bessel y (n + 1) ≤ bessel y n := by
  cases n with
  | zero =>
    have hb := bessel_pos y 1
    have e : |y| * bessel y (0 + 1) = |Real.sinh y| := by
      rw [← bessel_one, abs_mul, abs_of_pos hb]
    rw [e, bessel_zero, abs_le]
    have h1 := Real.cosh_add_sinh y
    have h2 := Real.cosh_sub_sinh y
    constructor <;> linarith [Real.exp_pos y, Real.exp_pos (-y)]
  | succ n =>
    have hs := besselTerm_summable y (n + 1)
    have hs1 : Summable fun k => besselTerm y (n + 1) (k + 1) := (summable_nat_add_iff 1).mpr hs
    have h1 : ∑' k, |y| * besselTerm y (n + 1 + 1) k ≤ ∑' k, (besselTerm y (n + 1) k + besselTerm y (n + 1) (k + 1)) / 2 := by
      refine Summable.tsum_le_tsum (fun k => ?_) ((besselTerm_summable y _).mul_left _) ((hs.add hs1).div_const 2)
      have e1 := besselTerm_step y (n + 1) k
      have e2 := besselTerm_next y n k
      have h0 := besselTerm_nonneg y (n + 2) k
      have h4 : 0 ≤ besselTerm y (n + 1) (k + 1) := besselTerm_nonneg y _ _
      have hk : (0 : ℝ) ≤ k := by positivity
      have hn : (0 : ℝ) ≤ n := by positivity
      push_cast at e1
      have ey : y ^ 2 = |y| ^ 2 := (sq_abs y).symm
      rw [ey] at e2
      show |y| * besselTerm y (n + 2) k ≤ _
      rw [e1]
      generalize besselTerm y (n + 2) k = b at *
      generalize besselTerm y (n + 1) (k + 1) = b' at *
      generalize |y| = a at *
      have : b' = a ^ 2 * b / (2 * (k + 1)) := by rw [eq_div_iff (by positivity)]; linarith
      rw [this]
      rw [le_div_iff₀ (by norm_num)]
      have key : a * 2 ≤ (2 * (n + 1) + 2 * k + 1) + a ^ 2 / (2 * (k + 1)) := by
        have : (2 * (k + 1 : ℝ)) + a ^ 2 / (2 * (k + 1)) - a * 2 = (2 * (k + 1) - a) ^ 2 / (2 * (k + 1)) := by field_simp; ring
        have h5 : 0 ≤ (2 * (k + 1) - a) ^ 2 / (2 * (k + 1 : ℝ)) := by positivity
        linarith
      have := mul_le_mul_of_nonneg_right key h0
      have e3 : a ^ 2 * b / (2 * (k + 1)) = a ^ 2 / (2 * (k + 1)) * b := by ring
      rw [e3]
      linarith
    rw [tsum_mul_left, tsum_div_const, hs.tsum_add hs1] at h1
    have h2 : ∑' k, besselTerm y (n + 1) (k + 1) ≤ bessel y (n + 1) := by
      have := hs.sum_add_tsum_nat_add 1
      rw [Finset.sum_range_one] at this
      have h0 := besselTerm_nonneg y (n + 1) 0
      unfold bessel
      linarith
    have h3 : ∑' k, besselTerm y (n + 1) k = bessel y (n + 1) := rfl
    rw [h3] at h1
    show |y| * bessel y (n + 1 + 1) ≤ _
    unfold bessel at h1 h2 ⊢
    linarith

/-- What the continued fraction denotes from its `n`-th denominator on. -/
noncomputable def expFrac (x : ℝ) (n : Nat) : ℝ := 2 * bessel (x / 2) n / bessel (x / 2) (n + 1)

theorem expFrac_pos (x : ℝ) (n : Nat) : 0 < expFrac x n := by
  have := bessel_pos (x / 2) n
  have := bessel_pos (x / 2) (n + 1)
  unfold expFrac
  positivity

theorem expFrac_rec (x : ℝ) (n : Nat) : expFrac x n = 4 * n + 2 + x ^ 2 / expFrac x (n + 1) := by
  unfold expFrac
  have h1 := bessel_pos (x / 2) (n + 1)
  have h2 := bessel_pos (x / 2) (n + 2)
  rw [bessel_rec]
  show _ = 4 * n + 2 + x ^ 2 / (2 * bessel (x / 2) (n + 1) / bessel (x / 2) (n + 2))
  field_simp
  ring

theorem expFrac_ge (x : ℝ) (n : Nat) : 4 * n + 2 ≤ expFrac x n := by
  rw [expFrac_rec]
  have := expFrac_pos x (n + 1)
  have : 0 ≤ x ^ 2 / expFrac x (n + 1) := by positivity
  linarith

theorem expFrac_abs (x : ℝ) (n : Nat) : |x| ≤ expFrac x n := by
  unfold expFrac
  have h1 := bessel_pos (x / 2) (n + 1)
  have h := bessel_le (x / 2) n
  rw [le_div_iff₀ h1]
  rw [abs_div, abs_of_pos (show (0 : ℝ) < 2 by norm_num)] at h
  linarith

theorem expFrac_zero {x : ℝ} (h : x ≠ 0) : (expFrac x 0 - x) * (Real.exp x - 1) = 2 * x := by
  have hs : Real.sinh (x / 2) ≠ 0 := fun h' => h (by
    have h1 := Real.cosh_add_sinh (x / 2)
    have h2 := Real.cosh_sub_sinh (x / 2)
    have h3 : Real.exp (x / 2) = Real.exp (-(x / 2)) := by rw [← h1, ← h2, h']; ring
    have := Real.exp_injective h3
    linarith)
  have e : expFrac x 0 = x * Real.cosh (x / 2) / Real.sinh (x / 2) := by
    unfold expFrac
    rw [bessel_zero, ← bessel_one]
    have h1 := bessel_pos (x / 2) 1
    show 2 * _ / bessel (x / 2) 1 = _
    field_simp
  have hx : Real.exp x = Real.exp (x / 2) * Real.exp (x / 2) := by rw [← Real.exp_add]; ring_nf
  rw [e, hx, ← Real.cosh_add_sinh (x / 2)]
  have hc := Real.cosh_sq (x / 2)
  generalize Real.cosh (x / 2) = C at *
  generalize Real.sinh (x / 2) = S at *
  have e1 : (C + S) * (C + S) - 1 = 2 * S * (C + S) := by linear_combination hc
  have e2 : (x * C / S - x) * (2 * S * (C + S)) = 2 * x * (C ^ 2 - S ^ 2) := by field_simp; ring
  rw [e1, e2, hc]
  ring

end Prexel
