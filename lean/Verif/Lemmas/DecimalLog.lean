import Mathlib.Analysis.SpecialFunctions.Log.Base
import Verif.Lemmas.DecimalLn
/-!
# Logarithms of decimals: small numbers, base ten and powers of ten
-/

set_option linter.unusedVariables false

namespace Prexel
variable {D F : Type} {d : Dec D F}

theorem log_lt_of_small {X : ℝ} (h0 : 0 < X) (h1 : X ≤ 1 / 10 ^ 4) : Real.log X ≤ -9 := by
  have h := Real.log_le_log h0 h1
  rw [one_div, Real.log_inv, Real.log_pow] at h
  have h2 := (abs_le.mp log_ten_near).1
  push_cast at h
  norm_num at h h2
  linarith

namespace Dec.Laws
variable (L : d.Laws)
include L

theorem ln10_val : L.val d.ln10 = 23025850929940456840179914546 / 10 ^ 28 := by
  have := L.ln10
  push_cast at this
  rw [eq_div_iff (by norm_num)]; exact this

theorem zero_val : L.val d.zero = 0 := by have := L.nat 0 (by decide); exact_mod_cast this

theorem ten_val : L.val d.ten = 10 := L.nat_val (n := 10) (by decide)

/-- Below 1 the result is never less than -8. -/
theorem ln_floor {x : D} (h0 : 0 < L.val x) (h1 : L.val x < 1) : ∃ z, d.ln x = .ok z ∧ -8 ≤ L.val z := by
  obtain ⟨z, e, n⟩ := L.ln_series 2 h0 h1
  refine ⟨z, e, ?_⟩
  have hX0 : (0 : ℝ) < L.val x := by exact_mod_cast h0
  have hX1 : (L.val x : ℝ) < 1 := by exact_mod_cast h1
  have hsum : ∑ i ∈ Finset.range 999, (1 - (L.val x : ℝ)) ^ (i + 1) / (i + 1) ≤ ((harmonic 999 : ℚ) : ℝ) := by
    unfold harmonic
    push_cast
    refine Finset.sum_le_sum fun i _ => ?_
    rw [div_eq_mul_inv]
    exact mul_le_of_le_one_left (by positivity) (pow_le_one₀ (by linarith) (by linarith))
  have hh := harmonic_le_one_add_log 999
  have hl : Real.log (999 : ℕ) ≤ 6.95 := by
    have h1 : Real.log (999 : ℕ) ≤ Real.log (10 ^ 3) := Real.log_le_log (by norm_num) (by norm_num)
    rw [Real.log_pow] at h1
    have h2 := (abs_le.mp log_ten_near).2
    push_cast at h1
    norm_num at h1 h2 ⊢
    linarith
  have : (-8 : ℝ) ≤ L.val z := by
    rw [abs_le] at n
    have n1 := n.1
    have hall := hsum.trans (hh.trans (add_le_add_right hl 1))
    generalize ∑ i ∈ Finset.range 999, (1 - (L.val x : ℝ)) ^ (i + 1) / (i + 1) = S at hall n1
    norm_num at hall n1 ⊢
    linarith
  exact_mod_cast this

/-- The logarithm to base ten. -/
theorem log_near (hfuel : 100 ≤ d.fuel) {x : D} (h0 : 1 / 10 ≤ L.val x) : ∃ z, d.log x d.ten = .ok z ∧
    |(L.val z : ℝ) - Real.logb 10 (L.val x)| ≤ 1 / 10 ^ 16 := by
  obtain ⟨a, e1, n1⟩ := L.ln_near hfuel h0
  have t := log_ten_near
  have hX : (1 : ℝ) / 10 ≤ L.val x := by
    have := (Rat.cast_le (K := ℝ)).mpr h0
    push_cast at this
    exact this
  have hXu : (L.val x : ℝ) ≤ 10 ^ 29 := by
    have := (Rat.cast_le (K := ℝ)).mpr (representable_le (L.range x))
    push_cast at this
    exact this
  obtain ⟨T, hT⟩ : ∃ T, Real.log 10 = T := ⟨_, rfl⟩
  obtain ⟨G, hG⟩ : ∃ G, Real.log (L.val x : ℝ) = G := ⟨_, rfl⟩
  rw [hT, abs_le] at t
  rw [hG] at n1
  have g1 : G ≤ 70 := by
    have h := Real.log_le_log (by linarith) hXu
    rw [hG, Real.log_pow, hT] at h
    push_cast at h
    norm_num at t h
    linarith
  have g2 : -3 ≤ G := by
    have h := Real.log_le_log (by norm_num) hX
    rw [hG, one_div, Real.log_inv, hT] at h
    norm_num at t h
    linarith
  have ha : |L.val a| ≤ 71 := by
    rw [abs_le] at n1
    have : |(L.val a : ℝ)| ≤ 71 := by rw [abs_le]; constructor <;> linarith
    exact_mod_cast this
  obtain ⟨z, e2, n2, -⟩ := L.cdiv_near (x := a) (y := d.ln10) (a := 100) (by rw [L.ln10_val]; norm_num) (by norm_num)
    (by rw [L.ln10_val, abs_div, abs_of_pos (show (0 : Rat) < 23025850929940456840179914546 / 10 ^ 28 by norm_num), div_le_iff₀ (by norm_num)]; linarith) (by norm_num)
  refine ⟨z, ?_, ?_⟩
  · unfold Dec.log
    have : d.eq d.ten d.ten = true := (L.eq _ _).mpr rfl
    simp only [Res.bind_eq, e1, Res.bind_ok, this, if_true]
    exact e2
  · have n2R := (Rat.cast_le (K := ℝ)).mpr n2
    unfold unit at n2R
    rw [L.ln10_val] at n2R
    push_cast at n2R
    unfold Real.logb
    rw [hG, hT]
    have hT0 : 2.3 ≤ T := by norm_num at t ⊢; linarith
    obtain ⟨κ, hκ⟩ : ∃ κ : ℝ, (23025850929940456840179914546 / 10 ^ 28 : ℝ) = κ := ⟨_, rfl⟩
    rw [hκ] at n2R t
    have k0 : 2.3 ≤ κ := by rw [← hκ]; norm_num
    have d1 : |(L.val a : ℝ) / κ - G / T| ≤ 95 / 10 ^ 18 := by
      have e : (L.val a : ℝ) / κ - G / T = ((L.val a - G) + G / T * (T - κ)) / κ := by
        have : T ≠ 0 := by intro h; rw [h] at hT0; norm_num at hT0
        have : κ ≠ 0 := by intro h; rw [h] at k0; norm_num at k0
        field_simp
        ring
      rw [e, abs_div, abs_of_pos (show (0 : ℝ) < κ by linarith), div_le_iff₀ (by linarith)]
      have h1 : |G / T * (T - κ)| ≤ 70 * (1 / 10 ^ 19) := by
        rw [abs_mul]
        refine mul_le_mul ?_ (by rw [abs_le]; exact t) (abs_nonneg _) (by norm_num)
        rw [abs_div, abs_of_pos (show (0 : ℝ) < T by linarith), div_le_iff₀ (by linarith), abs_le]
        constructor <;> linarith
      refine (abs_add_le _ _).trans ((add_le_add n1 h1).trans ?_)
      have : (95 / 10 ^ 18 : ℝ) * 2.3 ≤ 95 / 10 ^ 18 * κ := mul_le_mul_of_nonneg_left k0 (by norm_num)
      refine le_trans ?_ this
      norm_num
    have e : (L.val z : ℝ) - G / T = ((L.val z : ℝ) - L.val a / κ) + (L.val a / κ - G / T) := by ring
    rw [e]
    refine (abs_add_le _ _).trans ((add_le_add n2R d1).trans ?_)
    norm_num

/-- Dividing a power of ten by ten is exact. -/
theorem lnScale_ten (fuel : Nat) : ∀ (j : Nat) (a : D) (n : Nat), j ≤ fuel → j ≤ 28 → L.val a = 10 ^ j →
    ∃ r, d.lnScale fuel a n = .ok (r, n + j) ∧ L.val r = 1 := by
  induction fuel with
  | zero =>
    intro j a n hj _ ha
    have : j = 0 := by omega
    subst this
    rw [pow_zero] at ha
    have hl : ¬ d.lt d.one a = true := by rw [L.lt, L.one_val, ha]; exact lt_irrefl _
    exact ⟨a, by simp [Dec.lnScale, hl], ha⟩
  | succ fuel ih =>
    intro j a n hj hj' ha
    unfold Dec.lnScale
    cases j with
    | zero =>
      rw [pow_zero] at ha
      have hl : ¬ d.lt d.one a = true := by rw [L.lt, L.one_val, ha]; exact lt_irrefl _
      exact ⟨a, by simp [hl], ha⟩
    | succ j =>
      have hl : d.lt d.one a = true := by
        rw [L.lt, L.one_val, ha]; exact one_lt_pow₀ (by norm_num) (by omega)
      rw [if_pos hl]
      have hq : L.val a / L.val d.ten = ((10 ^ j : Nat) : Rat) := by
        rw [ha, L.ten_val, pow_succ]; push_cast; field_simp
      have hrep : Representable ((10 ^ j : Nat) : Rat) := by
        have : (10 : Nat) ^ j ≤ 10 ^ 28 := Nat.pow_le_pow_right (by decide) (by omega)
        exact representable_nat (by omega)
      have hj28 : ((10 ^ j : Nat) : Rat) ≤ 10 ^ 28 := by
        have : (10 : Nat) ^ j ≤ 10 ^ 28 := Nat.pow_le_pow_right (by decide) (by omega)
        exact_mod_cast this
      obtain ⟨z, e1, -, k1⟩ := L.cdiv_near (x := a) (y := d.ten) (a := 10 ^ 28) (by rw [L.ten_val]; norm_num) (by norm_num)
        (by rw [hq, abs_of_nonneg (by positivity)]; exact hj28) (by norm_num)
      rw [hq] at k1
      have z1 := k1.eq hrep
      obtain ⟨r, e2, hr⟩ := ih j z (n + 1) (by omega) (by omega) (by rw [z1]; push_cast; rfl)
      refine ⟨r, ?_, hr⟩
      simp only [Res.bind_eq, e1, Res.bind_ok]
      rw [e2]; congr 2; omega

/-- The logarithm of a power of ten is the rounded multiple of the constant, divided by it. -/
theorem log_ten_pow (hfuel : 100 ≤ d.fuel) {x : D} {n : Nat} (hn : n ≤ 28) (hx : L.val x = 10 ^ n) :
    ∃ b z, d.log x d.ten = .ok z ∧ Rounded (L.val b) (L.val d.ln10 * n) ∧ |L.val b - L.val d.ln10 * n| ≤ unit * 100 ∧
      Rounded (L.val z) (L.val b / L.val d.ln10) ∧ |L.val z - L.val b / L.val d.ln10| ≤ unit * 100 := by
  have u : unit = 2 / 10 ^ 28 := rfl
  have heq : d.eq d.ten d.ten = true := (L.eq _ _).mpr rfl
  have hn28 : (n : Rat) ≤ 28 := by exact_mod_cast hn
  have hmain : ∃ b, d.ln x = .ok b ∧ Rounded (L.val b) (L.val d.ln10 * n) ∧ |L.val b - L.val d.ln10 * n| ≤ unit * 100 := by
    by_cases h0 : n = 0
    · subst h0
      rw [pow_zero] at hx
      refine ⟨d.zero, ?_, by rw [L.zero_val]; intro r hr; simp, by rw [L.zero_val, u]; norm_num⟩
      unfold Dec.ln Dec.lnDepth
      have l0 : d.lt d.zero x = true := by rw [L.lt, L.zero_val, hx]; norm_num
      rw [l0, if_neg (by simp), if_pos ((L.isOne x).mpr hx)]
    · have h1 : 1 < L.val x := by rw [hx]; exact one_lt_pow₀ (by norm_num) h0
      obtain ⟨r, e1, hr⟩ := L.lnScale_ten d.fuel n x 0 (by omega) hn hx
      have e2 : d.lnDepth 2 r = .ok d.zero := by
        unfold Dec.lnDepth
        have l0 : d.lt d.zero r = true := by rw [L.lt, L.zero_val, hr]; norm_num
        rw [l0, if_neg (by simp), if_pos ((L.isOne r).mpr hr)]
      have hnv : L.val (d.nat (0 + n)) = (n : Rat) := by rw [Nat.zero_add]; exact L.nat_val (by omega)
      obtain ⟨b, e3, n3, k3⟩ := L.cmul_near (x := d.ln10) (y := d.nat (0 + n)) (a := 100) (by norm_num)
        (by rw [hnv, L.ln10_val, abs_of_nonneg (by positivity)]; linarith) (by norm_num)
      rw [hnv] at n3 k3
      have hbb := abs_le.mp n3
      have hl28 : L.val d.ln10 * n ≤ 70 := by rw [L.ln10_val]; linarith
      have hl0 : 0 ≤ L.val d.ln10 * n := by rw [L.ln10_val]; positivity
      rw [u] at hbb
      obtain ⟨z, e4, -, k4⟩ := L.cadd_near (x := d.zero) (y := b) (a := 200) (by norm_num)
        (by rw [L.zero_val, zero_add, abs_le]; constructor <;> linarith) (by norm_num)
      rw [L.zero_val, zero_add] at k4
      have z4 := k4.eq (L.range b)
      refine ⟨z, ?_, by rw [z4]; exact k3, by rw [z4]; exact n3⟩
      unfold Dec.ln
      unfold Dec.lnDepth
      have l0 : d.lt d.zero x = true := by rw [L.lt, L.zero_val]; linarith
      have l1 : d.lt x d.one = false := by
        rw [Bool.eq_false_iff]; intro h; rw [L.lt, L.one_val] at h; linarith
      have l2 : ¬ d.isOne x = true := by rw [L.isOne]; exact h1.ne'
      rw [l0, l1, if_neg (by simp), if_neg l2, if_pos (by simp)]
      simp only [Res.bind_eq, e1, Res.bind_ok, e2, e3, e4]
  obtain ⟨b, e1, k1, n1⟩ := hmain
  have hbb := abs_le.mp n1
  have hl28 : L.val d.ln10 * n ≤ 70 := by rw [L.ln10_val]; linarith
  have hl0 : 0 ≤ L.val d.ln10 * n := by rw [L.ln10_val]; positivity
  rw [u] at hbb
  obtain ⟨z, e2, n2, k2⟩ := L.cdiv_near (x := b) (y := d.ln10) (a := 100) (by rw [L.ln10_val]; norm_num) (by norm_num)
    (by
      rw [L.ln10_val, abs_div, abs_of_pos (show (0 : Rat) < 23025850929940456840179914546 / 10 ^ 28 by norm_num), div_le_iff₀ (by norm_num), abs_le]
      constructor <;> linarith) (by norm_num)
  refine ⟨b, z, ?_, k1, n1, k2, n2⟩
  unfold Dec.log
  simp only [Res.bind_eq, e1, Res.bind_ok, heq, if_true]
  exact e2

end Dec.Laws
end Prexel
