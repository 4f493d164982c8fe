import Verif.Examples.Decimals
import Verif.Lemmas.DecimalSqrt
/-!
# Decimals over real floats, for the examples beside the theorems about roots
-/

namespace Prexel.Demo

/-- Real numbers as floats: what the examples do not use is arbitrary. -/
noncomputable def real : F64 ℝ where
  isNan _ := false
  isInfinite _ := false
  isZero x := by classical exact decide (x = 0)
  isSignNegative x := by classical exact decide (x < 0)
  lt x y := by classical exact decide (x < y)
  add := (· + ·)
  sub := (· - ·)
  mul := (· * ·)
  inv x := x⁻¹
  abs x := |x|
  one := 1
  pi := 3
  e := 2
  error := 0
  gamma x := x
  powf x _ := x
  log10 x := x
  log x _ := x
  atan2 x _ := x
  toDegrees x := x
  toRadians x := x
  floor x := ⌊x⌋
  ceil x := ⌈x⌉
  trunc x := ⌊x⌋
  round x := ⌊x⌋
  signum x := x
  sqrt := Real.sqrt
  exp x := x
  ln x := x
  sin x := x
  cos x := x
  tan x := x
  asin x := x
  acos x := x
  atan x := x
  sinh x := x
  cosh x := x
  tanh x := x
  asinh x := x
  acosh x := x
  atanh x := x
  random := 0

/-- The decimals of the examples with these floats: a float becomes a decimal by cutting it after 14 digits behind the point. -/
noncomputable def realDec : Dec Decimal ℝ :=
  { dec with
    toF64 := fun x => some (x.1 : ℝ)
    fromF64 := fun y => ofRat? ((⌊y * 10 ^ 14⌋ : Rat) / 10 ^ 14) }

/-- They satisfy the contract. -/
noncomputable def realDecLaws : realDec.Laws := { decLaws with }

/-- The square root starts within a factor of two. -/
theorem realStart : realDecLaws.SqrtStart real where
  pos x hx := by
    have hx : 0 < x.1 := hx
    have h1 : (1 : ℝ) / 10 ^ 28 ≤ x.1 := by
      have := (Rat.cast_le (K := ℝ)).mpr (representable_pos x.2 hx)
      push_cast at this
      exact this
    have h2 : (x.1 : ℝ) ≤ 8 * 10 ^ 28 := by
      have h := (representable_bounded x.2).2
      rw [maxDecimal_eq] at h
      have := (Rat.cast_le (K := ℝ)).mpr h
      push_cast at this
      linarith
    obtain ⟨y, hy⟩ : ∃ y, Real.sqrt x.1 = y := ⟨_, rfl⟩
    have hy0 : 0 ≤ y := by rw [← hy]; exact Real.sqrt_nonneg _
    have hyy : y ^ 2 = x.1 := by rw [← hy]; exact Real.sq_sqrt (by exact_mod_cast hx.le)
    have l1 : 1 / 10 ^ 14 ≤ y := by
      by_contra h
      push Not at h
      nlinarith
    have l2 : y ≤ 3 * 10 ^ 14 := by
      by_contra h
      push Not at h
      nlinarith
    have f1 := Int.floor_le (y * 10 ^ 14)
    have f2 := Int.lt_floor_add_one (y * 10 ^ 14)
    have f3 : (1 : Int) ≤ ⌊y * 10 ^ 14⌋ := by
      rw [Int.le_floor]; push_cast; linarith
    have f4 : ⌊y * 10 ^ 14⌋ ≤ (3 * 10 ^ 28 : Int) := by
      have : ((⌊y * 10 ^ 14⌋ : Int) : ℝ) ≤ ((3 * 10 ^ 28 : Int) : ℝ) := by push_cast; linarith
      exact_mod_cast this
    obtain ⟨c, hc⟩ : ∃ c, ⌊y * 10 ^ 14⌋ = c := ⟨_, rfl⟩
    rw [hc] at f1 f2 f3 f4
    have hr : Representable ((c : Rat) / 10 ^ 14) := ⟨14, by omega, c, by omega, by push_cast; norm_num⟩
    refine ⟨(x.1 : ℝ), ⟨_, hr⟩, rfl, ?_, ?_, ?_, ?_⟩
    · show ofRat? _ = _
      rw [show real.sqrt (x.1 : ℝ) = y from hy, hc]
      exact ofRat?_eq _ hr
    · show 0 < (c : Rat) / 10 ^ 14
      have : (0 : Rat) < c := by exact_mod_cast (by omega : (0 : Int) < c)
      positivity
    · show x.1 ≤ 4 * ((c : Rat) / 10 ^ 14) ^ 2
      have hc1 : (1 : ℝ) ≤ c := by exact_mod_cast f3
      have : (x.1 : ℝ) ≤ 4 * ((c : ℝ) / 10 ^ 14) ^ 2 := by
        rw [← hyy]
        have : y ≤ 2 * ((c : ℝ) / 10 ^ 14) := by
          rw [← mul_le_mul_iff_of_pos_right (show (0 : ℝ) < 10 ^ 14 by norm_num)]
          rw [mul_assoc, div_mul_cancel₀ _ (by norm_num)]
          linarith
        nlinarith
      exact_mod_cast this
    · show ((c : Rat) / 10 ^ 14) ^ 2 ≤ 4 * x.1
      have : ((c : ℝ) / 10 ^ 14) ^ 2 ≤ 4 * x.1 := by
        rw [← hyy]
        have hc1 : (1 : ℝ) ≤ c := by exact_mod_cast f3
        have h3 : (c : ℝ) / 10 ^ 14 ≤ y := by rw [div_le_iff₀ (by norm_num)]; exact f1
        have h4 : 0 ≤ (c : ℝ) / 10 ^ 14 := by positivity
        nlinarith
      exact_mod_cast this
  zero x hx := by
    have hx : x.1 = 0 := hx
    refine ⟨(x.1 : ℝ), zero, rfl, ?_, rfl⟩
    show ofRat? _ = _
    have : Real.sqrt (x.1 : ℝ) = 0 := by rw [hx]; simp
    rw [show real.sqrt (x.1 : ℝ) = 0 from this, zero_mul, Int.floor_zero]
    have h0 : ((0 : Int) : Rat) / 10 ^ 14 = 0 := by simp
    rw [h0]
    exact ofRat?_eq _ _

end Prexel.Demo
