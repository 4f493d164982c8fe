import Mathlib.Analysis.SpecialFunctions.Trigonometric.ArctanDeriv
import Mathlib.Analysis.SpecialFunctions.Integrals.Basic
/-!
# The continued fraction of the arctangent

`arctan x = x / A 0` where `A n = 2n + 1 + ((n + 1) x)² / A (n + 1)`.
-/

namespace Prexel

/-- The denominator in the integrals below. -/
noncomputable def legQ (x t : ℝ) : ℝ := t + √(1 + x ^ 2) * (1 + t ^ 2) / 2

theorem legQ_pos (x : ℝ) {t : ℝ} (h : 0 ≤ t) : 0 < legQ x t := by
  have : 0 < √(1 + x ^ 2) := Real.sqrt_pos.mpr (by positivity)
  unfold legQ
  positivity

theorem legQ_cont (x : ℝ) : Continuous (legQ x) := by
  unfold legQ
  fun_prop

/-- The Legendre function of the second kind on the imaginary axis, up to a factor. -/
noncomputable def leg (x : ℝ) (n : Nat) : ℝ := ∫ t in (0 : ℝ)..1, t ^ n / legQ x t ^ (n + 1)

theorem leg_contOn (x : ℝ) (m n : Nat) : ContinuousOn (fun t => t ^ m / legQ x t ^ n) (Set.uIcc 0 1) := by
  rw [Set.uIcc_of_le zero_le_one]
  refine ContinuousOn.div (by fun_prop) ((legQ_cont x).pow n).continuousOn fun t ht => ?_
  exact (pow_pos (legQ_pos x ht.1) n).ne'

theorem leg_integrable (x : ℝ) (m n : Nat) : IntervalIntegrable (fun t => t ^ m / legQ x t ^ n) MeasureTheory.volume 0 1 :=
  (leg_contOn x m n).intervalIntegrable

theorem leg_pos (x : ℝ) (n : Nat) : 0 < leg x n := by
  unfold leg
  refine intervalIntegral.intervalIntegral_pos_of_pos_on (leg_integrable x n (n + 1)) (fun t ht => ?_) zero_lt_one
  exact div_pos (pow_pos ht.1 _) (pow_pos (legQ_pos x ht.1.le) _)

theorem legQ_deriv (x t : ℝ) : HasDerivAt (legQ x) (1 + √(1 + x ^ 2) * t) t := by
  unfold legQ
  have h := (hasDerivAt_id t).add ((((hasDerivAt_id t).pow 2).const_add 1).const_mul (√(1 + x ^ 2)) |>.div_const 2)
  refine h.congr_deriv ?_
  simp
  ring

/-- The recurrence of the Legendre functions, first step. -/
theorem leg_zero_rec (x : ℝ) : leg x 0 + x ^ 2 * leg x 1 = 1 := by
  set s := √(1 + x ^ 2) with hs
  have hs2 : s ^ 2 = 1 + x ^ 2 := Real.sq_sqrt (by positivity)
  have hs0 : 0 < s := Real.sqrt_pos.mpr (by positivity)
  have hd : ∀ t ∈ Set.uIcc (0 : ℝ) 1, HasDerivAt (fun t => s * (1 - t ^ 2) / (2 * legQ x t))
      (-(t ^ 0 / legQ x t ^ 1) - x ^ 2 * (t ^ 1 / legQ x t ^ 2)) t := by
    intro t ht
    rw [Set.uIcc_of_le zero_le_one] at ht
    have hq := legQ_pos x ht.1
    have h1 : HasDerivAt (fun t : ℝ => s * (1 - t ^ 2)) (s * (-(2 * t))) t := by
      have := (((hasDerivAt_id t).pow 2).const_sub 1).const_mul s
      refine this.congr_deriv ?_
      simp
    have h2 : HasDerivAt (fun t => 2 * legQ x t) (2 * (1 + s * t)) t := (legQ_deriv x t).const_mul 2
    refine (h1.div h2 (by positivity)).congr_deriv ?_
    have hq' : 0 < t + s * (1 + t ^ 2) / 2 := hq
    have e : legQ x t = t + s * (1 + t ^ 2) / 2 := rfl
    rw [e]
    field_simp
    have hx : x ^ 2 = s ^ 2 - 1 := by linarith
    rw [hx]
    ring
  have i1 : IntervalIntegrable (fun t => -(t ^ 0 / legQ x t ^ 1)) MeasureTheory.volume 0 1 := (leg_integrable x 0 1).neg
  have i2 := (leg_integrable x 1 2).const_mul (x ^ 2)
  have h := intervalIntegral.integral_eq_sub_of_hasDerivAt hd (i1.sub i2)
  rw [intervalIntegral.integral_sub i1 i2, intervalIntegral.integral_neg, intervalIntegral.integral_const_mul] at h
  have e0 : legQ x 0 = s / 2 := by unfold legQ; rw [← hs]; ring
  rw [e0] at h
  have e : s * (1 - 0 ^ 2) / (2 * (s / 2)) = 1 := by field_simp; ring
  rw [e] at h
  unfold leg
  norm_num at h ⊢
  linarith

/-- The recurrence of the Legendre functions. -/
theorem leg_rec (x : ℝ) (n : Nat) : (2 * n + 3) * leg x (n + 1) + (n + 2) * x ^ 2 * leg x (n + 2) = (n + 1) * leg x n := by
  set s := √(1 + x ^ 2) with hs
  have hs2 : s ^ 2 = 1 + x ^ 2 := Real.sq_sqrt (by positivity)
  have hd : ∀ t ∈ Set.uIcc (0 : ℝ) 1, HasDerivAt (fun t => s * (1 - t ^ 2) * t ^ (n + 1) / (2 * legQ x t ^ (n + 2)))
      ((n + 1) * (t ^ n / legQ x t ^ (n + 1)) - (2 * n + 3) * (t ^ (n + 1) / legQ x t ^ (n + 2)) -
        (n + 2) * x ^ 2 * (t ^ (n + 2) / legQ x t ^ (n + 3))) t := by
    intro t ht
    rw [Set.uIcc_of_le zero_le_one] at ht
    have hq := legQ_pos x ht.1
    have h1 : HasDerivAt (fun t : ℝ => s * (1 - t ^ 2) * t ^ (n + 1)) (s * (-(2 * t)) * t ^ (n + 1) + s * (1 - t ^ 2) * ((n + 1) * t ^ n)) t := by
      have := ((((hasDerivAt_id t).pow 2).const_sub 1).const_mul s).mul ((hasDerivAt_id t).pow (n + 1))
      refine this.congr_deriv ?_
      simp
    have h2 : HasDerivAt (fun t => 2 * legQ x t ^ (n + 2)) (2 * ((n + 2) * legQ x t ^ (n + 1) * (1 + s * t))) t := by
      have := ((legQ_deriv x t).pow (n + 2)).const_mul 2
      refine this.congr_deriv ?_
      rw [show n + 2 - 1 = n + 1 by omega, ← hs]
      push_cast
      ring
    refine (h1.div h2 (by positivity)).congr_deriv ?_
    have hq' : 0 < t + s * (1 + t ^ 2) / 2 := hq
    have e : legQ x t = t + s * (1 + t ^ 2) / 2 := rfl
    have key : s * (-(2 * t)) * t * legQ x t + s * (1 - t ^ 2) * (n + 1) * legQ x t - s * (1 - t ^ 2) * t * (n + 2) * (1 + s * t) =
        2 * (n + 1) * legQ x t ^ 2 - 2 * (2 * n + 3) * t * legQ x t - 2 * (n + 2) * x ^ 2 * t ^ 2 := by
      have hx : x ^ 2 = s ^ 2 - 1 := by linarith
      rw [hx, e]
      ring
    generalize legQ x t = q at *
    rw [pow_succ t n, pow_add t n 2, show n + 3 = n + 1 + 2 by ring, show n + 2 = n + 1 + 1 by ring, pow_add q (n + 1) 2, pow_add q (n + 1) 1]
    have hQ : 0 < q ^ (n + 1) := pow_pos hq _
    generalize q ^ (n + 1) = Q at *
    generalize t ^ n = T at *
    field_simp
    linear_combination T * key
  have i1 := (leg_integrable x n (n + 1)).const_mul (n + 1 : ℝ)
  have i2 := (leg_integrable x (n + 1) (n + 2)).const_mul (2 * n + 3 : ℝ)
  have i3 := (leg_integrable x (n + 2) (n + 3)).const_mul ((n + 2) * x ^ 2 : ℝ)
  have h := intervalIntegral.integral_eq_sub_of_hasDerivAt hd ((i1.sub i2).sub i3)
  rw [intervalIntegral.integral_sub (i1.sub i2) i3, intervalIntegral.integral_sub i1 i2, intervalIntegral.integral_const_mul,
    intervalIntegral.integral_const_mul, intervalIntegral.integral_const_mul] at h
  unfold leg
  have e0 : s * (1 - 0 ^ 2) * 0 ^ (n + 1) / (2 * legQ x 0 ^ (n + 2)) = 0 := by simp
  have e1 : s * (1 - 1 ^ 2) * 1 ^ (n + 1) / (2 * legQ x 1 ^ (n + 2)) = 0 := by simp
  rw [e0, e1] at h
  linarith

theorem leg_zero_pos {x : ℝ} (hx : 0 < x) : x * leg x 0 = Real.arctan x := by
  set s := √(1 + x ^ 2) with hs
  have hs2 : s ^ 2 = 1 + x ^ 2 := Real.sq_sqrt (by positivity)
  have hs0 : 0 < s := Real.sqrt_pos.mpr (by positivity)
  have hd : ∀ t ∈ Set.uIcc (0 : ℝ) 1, HasDerivAt (fun t => 2 / x * Real.arctan ((s * t + 1) / x)) (t ^ 0 / legQ x t ^ 1) t := by
    intro t ht
    rw [Set.uIcc_of_le zero_le_one] at ht
    have h1 : HasDerivAt (fun t : ℝ => (s * t + 1) / x) (s / x) t := by
      have := (((hasDerivAt_id t).const_mul s).add_const 1).div_const x
      simpa using this
    refine (h1.arctan.const_mul (2 / x)).congr_deriv ?_
    have hq' : 0 < t + s * (1 + t ^ 2) / 2 := legQ_pos x ht.1
    have e : legQ x t = t + s * (1 + t ^ 2) / 2 := rfl
    have e6 : 1 + ((s * t + 1) / x) ^ 2 = 2 * s * legQ x t / x ^ 2 := by
      rw [e]
      field_simp
      linear_combination -hs2
    rw [e6]
    have hq := legQ_pos x ht.1
    field_simp
  have h := intervalIntegral.integral_eq_sub_of_hasDerivAt hd (leg_integrable x 0 1)
  have e1 : Real.arctan ((s * 0 + 1) / x) = Real.pi / 2 - Real.arctan x := by
    rw [← Real.arctan_inv_of_pos hx]
    congr 1
    field_simp
    ring
  have e2 : Real.arctan ((s * 1 + 1) / x) = Real.pi / 2 - Real.arctan (x / (s + 1)) := by
    rw [← Real.arctan_inv_of_pos (by positivity)]
    congr 1
    field_simp
  have hy : x / (s + 1) < 1 := by
    rw [div_lt_one (by positivity)]
    nlinarith
  have e3 : 2 * Real.arctan (x / (s + 1)) = Real.arctan x := by
    rw [Real.two_mul_arctan (lt_trans (by norm_num) (div_pos hx (by positivity))) hy]
    congr 1
    have h1 : 1 - (x / (s + 1)) ^ 2 = 2 / (s + 1) := by
      field_simp
      nlinarith
    rw [h1]
    field_simp
  rw [e1, e2] at h
  have h' : leg x 0 = 2 / x * (Real.pi / 2 - Real.arctan (x / (s + 1))) - 2 / x * (Real.pi / 2 - Real.arctan x) := h
  rw [h']
  field_simp
  linarith

/-- The first one is the arctangent. -/
theorem leg_zero (x : ℝ) : x * leg x 0 = Real.arctan x := by
  rcases lt_trichotomy x 0 with h | h | h
  · have := leg_zero_pos (x := -x) (by linarith)
    have e : leg (-x) 0 = leg x 0 := by unfold leg legQ; simp
    rw [e, Real.arctan_neg] at this
    linarith
  · subst h; simp
  · exact leg_zero_pos h

/-- The denominators of the continued fraction. -/
noncomputable def atanFrac (x : ℝ) : Nat → ℝ
  | 0 => 1 / leg x 0
  | n + 1 => (n + 1) * leg x n / leg x (n + 1)

theorem atanFrac_pos (x : ℝ) (n : Nat) : 0 < atanFrac x n := by
  cases n with
  | zero => exact div_pos one_pos (leg_pos x 0)
  | succ n => exact div_pos (mul_pos (by positivity) (leg_pos x n)) (leg_pos x (n + 1))

/-- The arctangent as a continued fraction: the first step. -/
theorem atanFrac_zero (x : ℝ) : x / atanFrac x 0 = Real.arctan x := by
  rw [← leg_zero, atanFrac]
  simp

/-- The arctangent as a continued fraction: each next step. -/
theorem atanFrac_rec (x : ℝ) (n : Nat) : atanFrac x n = 2 * n + 1 + ((n + 1) * x) ^ 2 / atanFrac x (n + 1) := by
  cases n with
  | zero =>
    have h := leg_zero_rec x
    have h0 := leg_pos x 0
    have h1 := leg_pos x 1
    simp only [atanFrac]
    field_simp
    norm_num
    linarith
  | succ n =>
    have h := leg_rec x n
    have h0 := leg_pos x n
    have h1 := leg_pos x (n + 1)
    have h2 := leg_pos x (n + 2)
    simp only [atanFrac]
    push_cast
    have hn : (0 : ℝ) < (n : ℝ) + 1 + 1 := by positivity
    rw [show n + 1 + 1 = n + 2 by ring]
    field_simp
    linear_combination -h

theorem atanFrac_ge (x : ℝ) (n : Nat) : 2 * n + 1 ≤ atanFrac x n := by
  rw [atanFrac_rec]
  have := atanFrac_pos x (n + 1)
  have : 0 ≤ ((n + 1) * x) ^ 2 / atanFrac x (n + 1) := by positivity
  linarith

end Prexel
