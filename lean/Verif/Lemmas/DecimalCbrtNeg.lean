import Verif.Lemmas.DecimalCbrtBad
/-!
# The cube root of negative decimals
-/

set_option linter.unusedVariables false

namespace Prexel
variable {D F : Type} {d : Dec D F}

theorem quot_bound {V y : Rat} (h : 3 ≤ V) (hy : V / 10 ≤ y) : V / y ^ 2 ≤ 34 / 3 * V ∧ V / y ^ 2 ≤ 34 := by
  have h1 : (V / 10) ^ 2 ≤ y ^ 2 := pow_le_pow_left₀ (by linarith) hy 2
  have h3 : 0 < y ^ 2 := by nlinarith
  constructor <;> rw [div_le_iff₀ h3] <;> nlinarith

namespace Dec.Laws
variable (L : d.Laws)
include L

/-- The first round, from 1. -/
theorem cbrt_first {v : D} (h1 : -10 ^ 27 ≤ L.val v) (h2 : L.val v ≤ 10 ^ 27) :
    ∃ xx x2 q s, d.cmul d.one d.one = .ok xx ∧ d.cmul d.two d.one = .ok x2 ∧ d.cdiv v xx = .ok q ∧ d.cadd q x2 = .ok s ∧
      Rounded (L.val s) (L.val v + 2) ∧ |L.val s - (L.val v + 2)| ≤ unit * (3 + |L.val v|) ∧
      ∃ z, d.cmul s d.third = .ok z ∧ |L.val z - L.val s * L.val d.third| ≤ unit * (1 + |L.val s|) ∧ Rounded (L.val z) (L.val s * L.val d.third) := by
  have u : unit = 2 / 10 ^ 28 := rfl
  obtain ⟨xx, e1, -, k1⟩ := L.cmul_near (x := d.one) (y := d.one) (a := 1) le_rfl (by rw [L.one_val]; norm_num) (by norm_num)
  rw [L.one_val, one_mul] at k1
  have k1 := k1.eq (by decide +kernel)
  obtain ⟨x2, e2, -, k2⟩ := L.cmul_near (x := d.two) (y := d.one) (a := 2) (by norm_num) (by rw [L.one_val, L.two_val]; norm_num) (by norm_num)
  rw [L.one_val, L.two_val, mul_one] at k2
  have k2 := k2.eq (by decide +kernel)
  have hv : |L.val v| ≤ 10 ^ 27 := abs_le.mpr ⟨h1, h2⟩
  obtain ⟨q, e3, -, k3⟩ := L.cdiv_near (x := v) (y := xx) (a := 10 ^ 28) (by rw [k1]; norm_num) (by norm_num)
    (by rw [k1, div_one]; linarith) (by norm_num)
  rw [k1, div_one] at k3
  have k3 := k3.eq (L.range v)
  have ha : |L.val v + 2| ≤ |L.val v| + 2 := by
    refine (abs_add_le _ _).trans ?_
    norm_num
  obtain ⟨s, e4, n4, r4⟩ := L.cadd_near (x := q) (y := x2) (a := 3 + |L.val v|) (by linarith [abs_nonneg (L.val v)])
    (by rw [k2, k3]; linarith) (by linarith)
  rw [k2, k3] at n4 r4
  have hs : |L.val s| ≤ 2 * 10 ^ 27 := by
    have : L.val s = (L.val s - (L.val v + 2)) + (L.val v + 2) := by ring
    rw [this]
    refine (abs_add_le _ _).trans ?_
    rw [u] at n4
    linarith
  obtain ⟨t1, t0⟩ := L.third_val
  rw [abs_le, u] at t1
  obtain ⟨z, e5, n5, r5⟩ := L.cmul_near (x := s) (y := d.third) (a := 1 + |L.val s|) (by linarith [abs_nonneg (L.val s)])
    (by
      rw [abs_mul, abs_of_pos t0]
      have := mul_le_mul_of_nonneg_left (show L.val d.third ≤ 1 by linarith) (abs_nonneg (L.val s))
      linarith) (by linarith)
  exact ⟨xx, x2, q, s, e1, e2, e3, e4, r4, n4, z, e5, n5, r5⟩

/-- The cube root of anything between -8·10^14 and -3 is correct to 25 digits. -/
theorem cbrt_close_neg {v : D} (hv1 : L.val v ≤ -3) (hv2 : -(8 * 10 ^ 14) ≤ L.val v) {c : ℝ} (hc : 1 ≤ c) (hcv : c ^ 3 = ((-1 * L.val v : Rat) : ℝ)) :
    ∃ z, d.cbrt v = .ok z ∧ |(L.val z : ℝ) - -c| ≤ 2 / 10 ^ 26 * c := by
  have u : unit = 2 / 10 ^ 28 := rfl
  have ho : ¬ d.isOne v := by
    intro h
    have := (L.isOne v).mp h
    rw [this] at hv1; norm_num at hv1
  unfold Dec.cbrt
  rw [if_neg ho]
  obtain ⟨xx, x2, q, s, e1, e2, e3, e4, -, n4, z, e5, n5, -⟩ := L.cbrt_first (v := v) (by linarith) (by linarith)
  obtain ⟨t1, t0⟩ := L.third_val
  rw [abs_le] at t1
  rw [abs_of_neg (show L.val v < 0 by linarith), abs_le] at n4
  have hs : L.val s < 0 := by rw [u] at n4; linarith
  rw [abs_of_neg hs, abs_le] at n5
  have m1 : -L.val s * (1 / 3 - unit / 2) ≤ -L.val s * L.val d.third := mul_le_mul_of_nonneg_left (by linarith) (by linarith)
  have m2 : -L.val s * L.val d.third ≤ -L.val s * (1 / 3 + unit / 2) := mul_le_mul_of_nonneg_left (by linarith) (by linarith)
  obtain ⟨V, hVe⟩ : ∃ V, -1 * L.val v = V := ⟨_, rfl⟩
  obtain ⟨y, hye⟩ : ∃ y, -1 * L.val z = y := ⟨_, rfl⟩
  have hV : L.val v = -1 * V := by linarith
  have hy : L.val z = -1 * y := by linarith
  rw [hVe] at hcv
  have hy1 : (V - 2) / 3 - V / 10 ^ 20 ≤ y := by rw [u] at *; linarith
  have hy2 : y ≤ (V - 2) / 3 + V / 10 ^ 20 := by rw [u] at *; linarith
  have hc3 : 3 ≤ V := by linarith
  have hV2 : V ≤ 8 * 10 ^ 14 := by linarith
  obtain ⟨w, s2, e6⟩ := L.cbrtLoop_step (.inr rfl) hV hy (by linarith) hV2 (by linarith) (by linarith)
  have hyV : V / 10 ≤ y := by linarith
  have hq : V / y ^ 2 ≤ 34 / 3 * V ∧ V / y ^ 2 ≤ 34 := quot_bound hc3 hyV
  obtain ⟨hq, hq2⟩ := hq
  have hqR := (Rat.cast_le (K := ℝ)).mpr hq
  have hqR2 := (Rat.cast_le (K := ℝ)).mpr hq2
  have hyR1 := (Rat.cast_le (K := ℝ)).mpr hy1
  have hyR2 := (Rat.cast_le (K := ℝ)).mpr hy2
  have hVR := (Rat.cast_le (K := ℝ)).mpr hc3
  have hVR2 := (Rat.cast_le (K := ℝ)).mpr hV2
  push_cast at hqR hqR2 hyR1 hyR2 hVR hVR2
  rw [← hcv] at hqR hqR2 hyR1 hyR2 hVR hVR2 e6
  have yp : 0 < (y : ℝ) := by linarith
  have hn := newton_cube (c := c) yp
  have hg : 0 ≤ ((y : ℝ) - c) ^ 2 * (2 * y + c) / (3 * (y : ℝ) ^ 2) := by positivity
  rw [← hn] at hg
  have hq0 : 0 < c ^ 3 / (y : ℝ) ^ 2 := by positivity
  have e6' := e6
  rw [abs_le] at e6'
  have hcb : c ≤ 93000 := by
    by_contra hgt
    push Not at hgt
    have : (93000 : ℝ) ^ 3 < c ^ 3 := pow_lt_pow_left₀ hgt (by norm_num) (by norm_num)
    linarith
  have hcc : c ≤ c ^ 3 := le_self_pow₀ hc (by norm_num)
  have hy3 : (y : ℝ) ≤ 10 ^ 20 * c := by linarith
  obtain ⟨r, s3, e7⟩ := L.cbrt_rounds (.inr rfl) hV (by linarith) hV2 hc hcv (x := w) (by linarith) (by linarith) (by linarith)
  refine ⟨r, ?_, ?_⟩
  · rw [show iterations = 99 + 1 from rfl, cbrtLoop_next e1 e2 e3 e4 e5, show 99 = 98 + 1 from rfl, s2, show 98 = 98 + 0 from rfl, s3]
    rfl
  · rw [← abs_neg]
    push_cast at e7
    convert e7 using 2
    ring

/-- The cube root of -2 divides by zero. -/
theorem cbrt_minus_two {v : D} (hv : L.val v = -2) : d.cbrt v = .err .overflow := by
  have ho : ¬ d.isOne v := by
    intro h
    have := (L.isOne v).mp h
    rw [this] at hv; norm_num at hv
  obtain ⟨xx, x2, q, s, e1, e2, e3, e4, r4, -, z, e5, -, r5⟩ := L.cbrt_first (v := v) (by rw [hv]; norm_num) (by rw [hv]; norm_num)
  rw [hv] at r4
  have z0 : Representable (0 : Rat) := by decide +kernel
  have hs := r4.eq (by norm_num; exact z0)
  rw [hs] at r5
  have hz := r5.eq (by norm_num; exact z0)
  norm_num at hz
  obtain ⟨zz, e6, -, r6⟩ := L.cmul_near (x := z) (y := z) (a := 1) le_rfl (by rw [hz]; norm_num) (by norm_num)
  rw [hz, mul_zero] at r6
  have hzz := r6.eq z0
  obtain ⟨z2, e7, -, -⟩ := L.cmul_near (x := d.two) (y := z) (a := 1) le_rfl (by rw [hz]; norm_num) (by norm_num)
  have e8 : d.cdiv v zz = .err .overflow := by
    simp [Dec.cdiv, L.divZero v zz hzz, Ops.orOverflow, Res.ofOption]
  unfold Dec.cbrt
  obtain ⟨k, hk⟩ : ∃ k, iterations = k + 1 + 1 := ⟨98, rfl⟩
  rw [if_neg ho, hk, cbrtLoop_next e1 e2 e3 e4 e5]
  simp only [Dec.cbrtLoop, e6, Res.bind_eq, Res.bind_ok, e7, e8]
  rfl

end Dec.Laws
end Prexel
