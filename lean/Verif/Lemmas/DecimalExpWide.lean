import Verif.Lemmas.DecimalExp
/-!
# The exponential function of decimals from -100 to 50
-/

set_option linter.unusedVariables false

namespace Prexel
variable {D F : Type} {d : Dec D F}

/-- A better bound for neighbours. -/
theorem bessel_ge (y : ℝ) (n : Nat) : (|y| + n + 1 / 2) * bessel y (n + 2) ≤ bessel y (n + 1) := by
  have hs := besselTerm_summable y (n + 2)
  -- a telescoping sum
  have hk : Summable fun k : ℕ => (k : ℝ) * besselTerm y (n + 2) k := by
    have h1 : Summable fun k : ℕ => ((2 * (n + 1 : ℕ) + 1 : ℝ)) * besselTerm y (n + 2) k := hs.mul_left _
    have h2 := ((besselTerm_summable y (n + 1)).sub h1).div_const 2
    refine h2.congr fun k => ?_
    have := besselTerm_step y (n + 1) k
    push_cast at this ⊢
    rw [this]
    ring
  have hk1 : Summable fun k : ℕ => ((k + 1 : ℕ) : ℝ) * besselTerm y (n + 2) (k + 1) := (summable_nat_add_iff 1).mpr hk
  have hshift : ∑' k : ℕ, ((k + 1 : ℕ) : ℝ) * besselTerm y (n + 2) (k + 1) = ∑' k : ℕ, (k : ℝ) * besselTerm y (n + 2) k := by
    have := hk.sum_add_tsum_nat_add 1
    rw [Finset.sum_range_one] at this
    simpa using this
  have h1 : ∑' k, |y| * besselTerm y (n + 2) k ≤
      ∑' k : ℕ, ((2 * n + 2 * k + 5 : ℝ) / 2 * besselTerm y (n + 2) k + ((k + 1 : ℕ) : ℝ) * besselTerm y (n + 2) (k + 1)) := by
    have hsum : Summable fun k : ℕ => (2 * n + 2 * k + 5 : ℝ) / 2 * besselTerm y (n + 2) k := by
      refine ((hs.mul_left ((2 * n + 5 : ℝ) / 2)).add hk).congr fun k => ?_
      ring
    refine Summable.tsum_le_tsum (fun k => ?_) (hs.mul_left _) (hsum.add hk1)
    have e2 := besselTerm_next y (n + 1) k
    have e3 := besselTerm_step y (n + 2) k
    have h0 := besselTerm_nonneg y (n + 3) k
    have e2' : 2 * (k + 1 : ℝ) * besselTerm y (n + 2) (k + 1) = |y| ^ 2 * besselTerm y (n + 3) k := by rw [sq_abs]; exact e2
    push_cast at e3 ⊢
    rw [e3]
    have e4 : (k + 1 : ℝ) * besselTerm y (n + 2) (k + 1) = |y| ^ 2 * besselTerm y (n + 3) k / 2 := by linarith
    rw [e4]
    generalize besselTerm y (n + 2 + 1) k = b at *
    show _ ≤ _ + |y| ^ 2 * b / 2
    have : 0 ≤ (|y| - (2 * n + 2 * k + 5)) ^ 2 * b := by positivity
    nlinarith
  have hsum : Summable fun k : ℕ => (2 * n + 2 * k + 5 : ℝ) / 2 * besselTerm y (n + 2) k := by
    refine ((hs.mul_left ((2 * n + 5 : ℝ) / 2)).add hk).congr fun k => ?_
    ring
  rw [hsum.tsum_add hk1, hshift, tsum_mul_left] at h1
  have e5 : ∑' k : ℕ, (2 * n + 2 * k + 5 : ℝ) / 2 * besselTerm y (n + 2) k = (2 * n + 5 : ℝ) / 2 * bessel y (n + 2) + ∑' k : ℕ, (k : ℝ) * besselTerm y (n + 2) k := by
    unfold bessel
    rw [← tsum_mul_left, ← (hs.mul_left _).tsum_add hk]
    congr 1
    ext k
    ring
  have e6 : bessel y (n + 1) = (2 * n + 3 : ℝ) * bessel y (n + 2) + 2 * ∑' k : ℕ, (k : ℝ) * besselTerm y (n + 2) k := by
    unfold bessel
    rw [← tsum_mul_left, ← tsum_mul_left, ← (hs.mul_left _).tsum_add (hk.mul_left _)]
    congr 1
    ext k
    have := besselTerm_step y (n + 1) k
    push_cast at this
    rw [this]
    ring
  have e7 : ∑' k, besselTerm y (n + 2) k = bessel y (n + 2) := rfl
  rw [e7, e5] at h1
  rw [e6]
  linarith

theorem expFrac_ge' (x : ℝ) (n : Nat) : |x| + 2 * n + 1 ≤ expFrac x (n + 1) := by
  unfold expFrac
  have h1 := bessel_pos (x / 2) (n + 1 + 1)
  have h := bessel_ge (x / 2) n
  rw [le_div_iff₀ h1]
  rw [abs_div, abs_of_pos (show (0 : ℝ) < 2 by norm_num)] at h
  show _ * bessel (x / 2) (n + 2) ≤ _
  linarith

/-- A sequence of bounds for the errors of the denominators, for numbers up to `B`. -/
structure WideErr (B : Rat) (e : Nat → ℝ) : Prop where
  one : 1 ≤ B
  hundred : B ≤ 100
  nonneg : ∀ n, 0 ≤ e n
  small : ∀ n, n ≤ 50 → e n ≤ 1 / 100
  far : ∀ n : ℕ, 50 ≤ n → n < 100 → (B : ℝ) ^ 2 / ((4 * n + 5) * (4 * n + 6)) * e (n + 1) + 2 / 10 ^ 28 * (4 * n + 3 * B + 6) ≤ e n
  close : ∀ n : ℕ, n < 50 → ((B : ℝ) / (B + 2 * n + 99 / 100)) ^ 2 * e (n + 1) + 2 / 10 ^ 28 * (4 * n + 3 * B + 6) ≤ e n

/-- How much of an error is left. -/
theorem wide_ratio {B : Rat} {e : Nat → ℝ} (W : WideErr B e) {x r : ℝ} {n : Nat} (hn : n < 100) (hx : |x| ≤ B) (hr1 : 4 * (n : ℝ) + 5 ≤ r)
    (hr : |r - expFrac x (n + 1)| ≤ e (n + 1)) :
    |x| ≤ r ∧ x ^ 2 / (r * expFrac x (n + 1)) * e (n + 1) + 2 / 10 ^ 28 * (4 * n + 3 * B + 6) ≤ e n := by
  have h100 : (B : ℝ) ≤ 100 := by exact_mod_cast W.hundred
  have h1 : (1 : ℝ) ≤ B := by exact_mod_cast W.one
  have h0 := abs_nonneg x
  have hn0 : (0 : ℝ) ≤ n := by positivity
  have hge := expFrac_ge x (n + 1)
  have hge' := expFrac_ge' x n
  push_cast at hge
  rw [← sq_abs]
  rw [abs_le] at hr
  generalize expFrac x (n + 1) = R at *
  generalize |x| = a at *
  have hR : 0 < R := by linarith
  have hr0 : 0 < r := by linarith
  by_cases h50 : 50 ≤ n
  · have h50R : (50 : ℝ) ≤ n := by exact_mod_cast h50
    refine ⟨by linarith, le_trans ?_ (W.far n h50 hn)⟩
    have : a ^ 2 / (r * R) ≤ (B : ℝ) ^ 2 / ((4 * n + 5) * (4 * n + 6)) := by
      refine div_le_div₀ (by positivity) (pow_le_pow_left₀ h0 hx 2) (by positivity) ?_
      exact mul_le_mul hr1 (by linarith) (by positivity) hr0.le
    linarith [mul_le_mul_of_nonneg_right this (W.nonneg (n + 1))]
  · have hs := W.small (n + 1) (by omega)
    have hra : a + 2 * n + 99 / 100 ≤ r := by linarith [hr.1]
    refine ⟨by linarith, le_trans ?_ (W.close n (by omega))⟩
    have : a ^ 2 / (r * R) ≤ ((B : ℝ) / (B + 2 * n + 99 / 100)) ^ 2 := by
      have h2 : a ^ 2 / (r * R) ≤ (a / (a + 2 * n + 99 / 100)) ^ 2 := by
        rw [div_pow]
        refine div_le_div_of_nonneg_left (by positivity) (by positivity) ?_
        rw [sq]
        exact mul_le_mul hra (by linarith) (by positivity) hr0.le
      refine h2.trans (pow_le_pow_left₀ (by positivity) ?_ 2)
      rw [div_le_div_iff₀ (by positivity) (by positivity)]
      nlinarith
    linarith [mul_le_mul_of_nonneg_right this (W.nonneg (n + 1))]

namespace Dec.Laws
variable (L : d.Laws)
include L

theorem wideStep {B : Rat} {e : Nat → ℝ} (W : WideErr B e) {a0 r : D} {x : ℝ} {n : Nat} (hn : n < 100) (hx : |x| ≤ B)
    (ha : |(L.val a0 : ℝ) - x ^ 2| ≤ 2 / 10 ^ 28 * (1 + x ^ 2)) (hr1 : 4 * (n : ℝ) + 5 ≤ L.val r)
    (hr : |(L.val r : ℝ) - expFrac x (n + 1)| ≤ e (n + 1)) :
    ∃ q, d.cdiv a0 r = .ok q ∧ -(1 / 10) ≤ (L.val q : ℝ) ∧ (L.val q : ℝ) ≤ B + 2 ∧
      |(L.val q : ℝ) - x ^ 2 / expFrac x (n + 1)| ≤ x ^ 2 / (L.val r * expFrac x (n + 1)) * e (n + 1) + 2 / 10 ^ 28 * (2 * B + 2) := by
  obtain ⟨hxr, -⟩ := wide_ratio W hn hx hr1 hr
  have h100 : (B : ℝ) ≤ 100 := by exact_mod_cast W.hundred
  have h1 : (1 : ℝ) ≤ B := by exact_mod_cast W.one
  have h0 := abs_nonneg x
  have hn0 : (0 : ℝ) ≤ n := by positivity
  have hr0 : (0 : ℝ) < L.val r := by linarith
  have hR := expFrac_pos x (n + 1)
  have hx2 : x ^ 2 / L.val r ≤ B := by
    rw [div_le_iff₀ hr0, ← sq_abs, sq]
    exact mul_le_mul hx hxr h0 (by linarith)
  have hx2' : 0 ≤ x ^ 2 / L.val r := by positivity
  have hae : |((L.val a0 : ℝ) - x ^ 2) / L.val r| ≤ 2 / 10 ^ 28 * (B + 1) := by
    rw [abs_div, abs_of_pos hr0, div_le_iff₀ hr0]
    refine ha.trans ?_
    have h5 : x ^ 2 ≤ B * L.val r := by rw [← div_le_iff₀ hr0]; exact hx2
    nlinarith
  have esplit : (L.val a0 : ℝ) / L.val r = x ^ 2 / L.val r + (L.val a0 - x ^ 2) / L.val r := by rw [← add_div]; ring_nf
  have haes := abs_le.mp hae
  obtain ⟨q, eq, nq⟩ := L.cdiv_real (x := a0) (y := r) (a := B + 1) hr0.ne' (by linarith [W.one]) (by
    push_cast
    rw [esplit, abs_le]
    constructor <;> linarith [haes.1, haes.2]) (by linarith [W.hundred])
  push_cast at nq
  have nqs := abs_le.mp nq
  refine ⟨q, eq, by linarith [nqs.1, haes.1], by linarith [nqs.2, haes.2], ?_⟩
  have h3 : |x ^ 2 / (L.val r * expFrac x (n + 1)) * (expFrac x (n + 1) - L.val r)| ≤ x ^ 2 / (L.val r * expFrac x (n + 1)) * e (n + 1) := by
    rw [abs_mul, abs_sub_comm, abs_of_nonneg (show (0 : ℝ) ≤ x ^ 2 / (L.val r * expFrac x (n + 1)) by positivity)]
    exact mul_le_mul_of_nonneg_left hr (by positivity)
  have e1 : (L.val q : ℝ) - x ^ 2 / expFrac x (n + 1) = (L.val q - L.val a0 / L.val r) + (L.val a0 - x ^ 2) / L.val r +
      x ^ 2 / (L.val r * expFrac x (n + 1)) * (expFrac x (n + 1) - L.val r) := by
    field_simp
    ring
  rw [e1]
  refine (abs_add_le _ _).trans ?_
  have := abs_add_le ((L.val q : ℝ) - L.val a0 / L.val r) ((L.val a0 - x ^ 2) / L.val r)
  linarith

theorem wideLoop {B : Rat} {e : Nat → ℝ} (W : WideErr B e) {a0 : D} {x : ℝ} (hx : |x| ≤ B)
    (ha : |(L.val a0 : ℝ) - x ^ 2| ≤ 2 / 10 ^ 28 * (1 + x ^ 2)) : ∀ (k : Nat) (r : D), k < 100 → 4 * (k : ℝ) + 5 ≤ L.val r →
    |(L.val r : ℝ) - expFrac x (k + 1)| ≤ e (k + 1) →
    ∃ z, d.expLoop a0 k (4 * k + 2) r = .ok z ∧ 5 ≤ (L.val z : ℝ) ∧ |(L.val z : ℝ) - expFrac x 1| ≤ e 1 := by
  intro k
  induction k with
  | zero => exact fun r _ h5 h => ⟨r, rfl, by simpa using h5, h⟩
  | succ k ih =>
    intro r hk hr5 hr
    have h100 : (B : ℝ) ≤ 100 := by exact_mod_cast W.hundred
    have h1 : (1 : ℝ) ≤ B := by exact_mod_cast W.one
    obtain ⟨q, e1, b1, b2, n1⟩ := L.wideStep W hk hx ha hr5 hr
    have hs := (wide_ratio W hk hx hr5 hr).2
    have v : (L.val (d.nat (4 * (k + 1) + 2)) : ℝ) = 4 * (k + 1 : ℕ) + 2 := by
      rw [L.nat_val (lt_of_le_of_lt (show 4 * (k + 1) + 2 ≤ 500 by omega) (by decide))]
      push_cast
      ring
    have hk' : ((k + 1 : ℕ) : ℝ) ≤ 99 := by exact_mod_cast (show k + 1 ≤ 99 by omega)
    have hk0 : (1 : ℝ) ≤ ((k + 1 : ℕ) : ℝ) := by exact_mod_cast (show 1 ≤ k + 1 by omega)
    obtain ⟨z, e2, n2⟩ := L.cadd_real (x := d.nat (4 * (k + 1) + 2)) (y := q) (a := 4 * (k + 1 : ℕ) + B + 4) (by
        have : (0 : Rat) ≤ ((k + 1 : ℕ) : Rat) := by positivity
        linarith [W.one]) (by
      rw [v, abs_le]
      push_cast at hk' hk0 ⊢
      constructor <;> linarith) (by
        have : ((k + 1 : ℕ) : Rat) ≤ 99 := by exact_mod_cast (show k + 1 ≤ 99 by omega)
        linarith [W.hundred])
    have n2' := n2
    rw [v] at n2 n2'
    push_cast at n2 n2' hk' hk0
    have n2s := abs_le.mp n2
    have hz5 : 4 * (k : ℝ) + 5 ≤ L.val z := by linarith [n2s.1]
    have n3 : |(L.val z : ℝ) - expFrac x (k + 1)| ≤ e (k + 1) := by
      rw [expFrac_rec x (k + 1)]
      refine le_trans ?_ hs
      have e3 : (L.val z : ℝ) - (4 * (k + 1 : ℕ) + 2 + x ^ 2 / expFrac x (k + 1 + 1)) =
          (L.val z - (4 * (k + 1 : ℝ) + 2 + L.val q)) + (L.val q - x ^ 2 / expFrac x (k + 1 + 1)) := by push_cast; ring
      rw [e3]
      refine (abs_add_le _ _).trans ?_
      push_cast at n1 ⊢
      linarith
    obtain ⟨w, e4, n4⟩ := ih z (by omega) hz5 n3
    refine ⟨w, ?_, n4⟩
    rw [← e4]
    simp only [Dec.expLoop, Res.bind_eq, e1, e2, Res.bind_ok]
    rfl

end Dec.Laws

/-- Errors for numbers up to 50. -/
noncomputable def err50 (n : Nat) : ℝ :=
  if 50 ≤ n then 10 / 4 ^ (100 - n) + 17 / 10 ^ 26 else if 10 ≤ n then 20 / 10 ^ 26 else if 4 ≤ n then 16 / 10 ^ 26 else (25 - 5 / 2 * n) / 10 ^ 26

/-- Errors for numbers up to 100. -/
noncomputable def err100 (n : Nat) : ℝ := if 50 ≤ n then 25 / 4 ^ (100 - n) + 3 / 10 ^ 25 else (52 - n) * (2 / 10 ^ 25)

theorem four_pow_le {n : Nat} (h : n ≤ 50) : (1 : ℝ) / 4 ^ (100 - n) ≤ 1 / 10 ^ 30 := by
  rw [div_le_div_iff₀ (by positivity) (by positivity)]
  have : (4 : ℝ) ^ 50 ≤ 4 ^ (100 - n) := pow_le_pow_right₀ (by norm_num) (by omega)
  linarith [show (10 : ℝ) ^ 30 ≤ 4 ^ 50 by norm_num]


theorem four_pow_step {n : Nat} (h : n < 100) : (1 : ℝ) / 4 ^ (100 - n) = 1 / 4 * (1 / 4 ^ (100 - (n + 1))) := by
  rw [show 100 - n = (100 - (n + 1)) + 1 by omega, pow_succ]
  field_simp

theorem err50_far {n : Nat} (h : 50 ≤ n) : err50 n = 10 * (1 / 4 ^ (100 - n)) + 17 / 10 ^ 26 := by unfold err50; rw [if_pos h]; ring

theorem err100_far {n : Nat} (h : 50 ≤ n) : err100 n = 25 * (1 / 4 ^ (100 - n)) + 3 / 10 ^ 25 := by unfold err100; rw [if_pos h]; ring

theorem wide50 : WideErr 50 err50 where
  one := by norm_num
  hundred := by norm_num
  nonneg n := by
    unfold err50
    split
    · positivity
    · split
      · positivity
      · split
        · positivity
        · have : (n : ℝ) ≤ 3 := by exact_mod_cast (show n ≤ 3 by omega)
          have : (0 : ℝ) ≤ 25 - 5 / 2 * n := by linarith
          positivity
  small n h := by
    by_cases h50 : 50 ≤ n
    · rw [err50_far h50]
      have := four_pow_le h
      linarith
    · unfold err50
      rw [if_neg h50]
      split
      · norm_num
      · split
        · norm_num
        · have : (0 : ℝ) ≤ n := by positivity
          rw [div_le_iff₀ (by positivity)]
          linarith
  far n h1 h2 := by
    rw [err50_far h1, err50_far (by omega : 50 ≤ n + 1), four_pow_step h2]
    have hp : (0 : ℝ) ≤ 1 / 4 ^ (100 - (n + 1)) := by positivity
    generalize (1 : ℝ) / 4 ^ (100 - (n + 1)) = p at *
    have hR : (50 : ℝ) ≤ n := by exact_mod_cast h1
    have hR' : (n : ℝ) ≤ 99 := by exact_mod_cast (show n ≤ 99 by omega)
    have hth : ((50 : Rat) : ℝ) ^ 2 / ((4 * n + 5) * (4 * n + 6)) ≤ 1 / 4 := by
      rw [div_le_div_iff₀ (by positivity) (by norm_num)]
      push_cast
      nlinarith
    have := mul_le_mul_of_nonneg_right hth (show 0 ≤ 10 * p + 17 / 10 ^ 26 by positivity)
    push_cast at this ⊢
    linarith
  close n h := by
    have hR' : (n : ℝ) ≤ 49 := by exact_mod_cast (show n ≤ 49 by omega)
    have hn0 : (0 : ℝ) ≤ n := by positivity
    have th : ∀ {m : ℝ} {t : ℝ}, 0 ≤ m → m ≤ n → (50 / (50 + 2 * m + 99 / 100)) ^ 2 ≤ t →
        (((50 : Rat) : ℝ) / ((50 : Rat) + 2 * n + 99 / 100)) ^ 2 ≤ t := by
      intro m t hm0 hm ht
      refine le_trans ?_ ht
      push_cast
      refine pow_le_pow_left₀ (by positivity) ?_ 2
      exact div_le_div_of_nonneg_left (by norm_num) (by positivity) (by linarith)
    by_cases h49 : n = 49
    · subst h49
      rw [err50_far (le_refl 50)]
      have := four_pow_le (le_refl 50)
      have hth := th (m := 49) (t := 1 / 8) (by norm_num) (by norm_num) (by norm_num)
      have := mul_le_mul_of_nonneg_right hth (show 0 ≤ 10 * ((1 : ℝ) / 4 ^ (100 - 50)) + 17 / 10 ^ 26 by positivity)
      unfold err50
      norm_num at this ⊢
    · by_cases h10 : 10 ≤ n
      · have e1 : err50 n = 20 / 10 ^ 26 := by unfold err50; rw [if_neg (by omega), if_pos h10]
        have e2 : err50 (n + 1) = 20 / 10 ^ 26 := by unfold err50; rw [if_neg (by omega), if_pos (by omega)]
        have hth := th (m := 10) (t := 1 / 2) (by norm_num) (by exact_mod_cast h10) (by norm_num)
        have := mul_le_mul_of_nonneg_right hth (show (0 : ℝ) ≤ 20 / 10 ^ 26 by positivity)
        rw [e1, e2]
        push_cast at this ⊢
        linarith
      · have hR9 : (n : ℝ) ≤ 9 := by exact_mod_cast (show n ≤ 9 by omega)
        by_cases h9 : n = 9
        · subst h9
          have hth := th (m := 9) (t := 53 / 100) (by norm_num) (by norm_num) (by norm_num)
          have := mul_le_mul_of_nonneg_right hth (show (0 : ℝ) ≤ 20 / 10 ^ 26 by positivity)
          unfold err50
          norm_num at this ⊢
        · by_cases h4 : 4 ≤ n
          · have e1 : err50 n = 16 / 10 ^ 26 := by unfold err50; rw [if_neg (by omega), if_neg (by omega), if_pos h4]
            have e2 : err50 (n + 1) = 16 / 10 ^ 26 := by unfold err50; rw [if_neg (by omega), if_neg (by omega), if_pos (by omega)]
            have hth := th (m := 4) (t := 72 / 100) (by norm_num) (by exact_mod_cast h4) (by norm_num)
            have := mul_le_mul_of_nonneg_right hth (show (0 : ℝ) ≤ 16 / 10 ^ 26 by positivity)
            rw [e1, e2]
            push_cast at this ⊢
            linarith
          · have : n = 0 ∨ n = 1 ∨ n = 2 ∨ n = 3 := by omega
            rcases this with rfl | rfl | rfl | rfl <;> (unfold err50; norm_num)

theorem wide100 : WideErr 100 err100 where
  one := by norm_num
  hundred := by norm_num
  nonneg n := by
    unfold err100
    split
    · positivity
    · have : (n : ℝ) ≤ 49 := by exact_mod_cast (show n ≤ 49 by omega)
      have : (0 : ℝ) ≤ 52 - n := by linarith
      positivity
  small n h := by
    by_cases h50 : 50 ≤ n
    · rw [err100_far h50]
      have := four_pow_le h
      linarith
    · unfold err100
      rw [if_neg h50]
      have : (0 : ℝ) ≤ n := by positivity
      linarith
  far n h1 h2 := by
    rw [err100_far h1, err100_far (by omega : 50 ≤ n + 1), four_pow_step h2]
    have hp : (0 : ℝ) ≤ 1 / 4 ^ (100 - (n + 1)) := by positivity
    generalize (1 : ℝ) / 4 ^ (100 - (n + 1)) = p at *
    have hR : (50 : ℝ) ≤ n := by exact_mod_cast h1
    have hR' : (n : ℝ) ≤ 99 := by exact_mod_cast (show n ≤ 99 by omega)
    have hth : ((100 : Rat) : ℝ) ^ 2 / ((4 * n + 5) * (4 * n + 6)) ≤ 1 / 4 := by
      rw [div_le_div_iff₀ (by positivity) (by norm_num)]
      push_cast
      nlinarith
    have := mul_le_mul_of_nonneg_right hth (show 0 ≤ 25 * p + 3 / 10 ^ 25 by positivity)
    push_cast at this ⊢
    linarith
  close n h := by
    have hR' : (n : ℝ) ≤ 49 := by exact_mod_cast (show n ≤ 49 by omega)
    have hn0 : (0 : ℝ) ≤ n := by positivity
    have hth : (((100 : Rat) : ℝ) / ((100 : Rat) + 2 * n + 99 / 100)) ^ 2 ≤ 1 := by
      push_cast
      refine pow_le_one₀ (by positivity) ?_
      rw [div_le_one (by positivity)]
      linarith
    have e1 : err100 n = (52 - n) * (2 / 10 ^ 25) := by unfold err100; rw [if_neg (by omega)]
    have e2 : 0 ≤ err100 (n + 1) ∧ err100 (n + 1) ≤ (51 - n) * (2 / 10 ^ 25) := by
      by_cases h49 : n = 49
      · subst h49
        rw [err100_far (le_refl 50)]
        have := four_pow_le (le_refl 50)
        refine ⟨by positivity, ?_⟩
        norm_num at this ⊢
      · unfold err100
        rw [if_neg (by omega)]
        push_cast
        refine ⟨?_, by linarith⟩
        have : (0 : ℝ) ≤ 52 - (n + 1) := by linarith
        positivity
    have := mul_le_mul_of_nonneg_right hth e2.1
    rw [e1]
    push_cast at this ⊢
    linarith [e2.2]


/-- The last division. -/
theorem wide_quot {X E V0 V T : ℝ} (hid : V0 * (E - 1) = 2 * X) (hX0 : X ≠ 0) (hE : 0 < E) (hEs : E - 1 ≤ X * E) (hE1 : X + 1 ≤ E)
    (hneg : X < 0 → 2 ≤ V0) (hE50 : E ≤ 6 * 10 ^ 21) (hX : |X| ≤ 100) (hT : |T - 2 * X| ≤ 2 / 10 ^ 28 * (1 + 2 * |X|))
    (hV : 0 < X → |X| ≤ 50 ∧ |V - V0| ≤ 3 / 10 ^ 25) (hV' : X < 0 → |V - V0| ≤ 2 / 10 ^ 23) :
    0 < V ∧ |T / V - (E - 1)| ≤ 2 / 10 ^ 23 + 17 / 10 ^ 26 * E ^ 2 + 2 / 10 ^ 26 * E := by
  have split : ∀ {V : ℝ}, 0 < V → |T / V - (E - 1)| ≤ |T - 2 * X| / V + |E - 1| * |V - V0| / V := by
    intro V hVp
    have e : T / V - (E - 1) = (T - 2 * X) / V + (E - 1) * (V0 - V) / V := by
      rw [← hid]; field_simp; ring
    rw [e]
    refine (abs_add_le _ _).trans ?_
    rw [abs_div, abs_div, abs_of_pos hVp, abs_mul, abs_sub_comm V0]
  rcases lt_or_gt_of_ne hX0 with h | h
  · have h2 := hneg h
    have hb := hV' h
    have hbs := abs_le.mp hb
    have hVp : 1 ≤ V := by linarith [hbs.1]
    have hE' : E ≤ 1 := by
      by_contra hn
      have : 0 < V0 * (E - 1) := mul_pos (by linarith) (by linarith)
      linarith
    refine ⟨by linarith, (split (by linarith)).trans ?_⟩
    have h3 : |T - 2 * X| / V ≤ 5 / 10 ^ 26 := by
      rw [div_le_iff₀ (by linarith)]
      linarith
    have h4 : |E - 1| * |V - V0| / V ≤ 1 * (2 / 10 ^ 23) / (199 / 100) := by
      refine div_le_div₀ (by norm_num) (mul_le_mul ?_ hb (abs_nonneg _) (by norm_num)) (by norm_num) (by linarith [hbs.1])
      rw [abs_le]; constructor <;> linarith
    have : 0 ≤ 17 / 10 ^ 26 * E ^ 2 := by positivity
    have : 0 ≤ 2 / 10 ^ 26 * E := by positivity
    linarith
  · obtain ⟨h50, hb⟩ := hV h
    have hbs := abs_le.mp hb
    have hE' : 0 < E - 1 := by linarith
    have hV0 : 0 < V0 := by
      by_contra hn
      nlinarith
    have hVE : 2 ≤ V0 * E := by
      have : V0 * (E - 1) ≤ V0 * (X * E) := mul_le_mul_of_nonneg_left hEs hV0.le
      rw [hid] at this
      have h2 : 2 * X ≤ (V0 * E) * X := by linarith
      exact le_of_mul_le_mul_right h2 h
    have hV0b : 3 / 10 ^ 22 ≤ V0 := by
      have : V0 * E ≤ V0 * (6 * 10 ^ 21) := mul_le_mul_of_nonneg_left hE50 hV0.le
      linarith
    have hVlow : 99 / 100 * V0 ≤ V := by linarith [hbs.1]
    have hVp : 0 < V := by linarith
    have hVE' : 198 / 100 ≤ V * E := by
      have := mul_le_mul_of_nonneg_right hVlow hE.le
      linarith
    refine ⟨hVp, (split hVp).trans ?_⟩
    have h3 : |T - 2 * X| / V ≤ 2 / 10 ^ 26 * E := by
      rw [div_le_iff₀ hVp]
      linarith
    have h4 : |E - 1| * |V - V0| / V ≤ 17 / 10 ^ 26 * E ^ 2 := by
      rw [div_le_iff₀ hVp, abs_of_pos hE']
      have h5 : (E - 1) * |V - V0| ≤ E * (3 / 10 ^ 25) := mul_le_mul (by linarith) hb (abs_nonneg _) hE.le
      have h6 : 17 / 10 ^ 26 * E ^ 2 * V = 17 / 10 ^ 26 * E * (V * E) := by ring
      have h7 : 17 / 10 ^ 26 * E * (198 / 100) ≤ 17 / 10 ^ 26 * E * (V * E) := mul_le_mul_of_nonneg_left hVE' (by positivity)
      rw [h6]
      linarith
    linarith [show (0 : ℝ) ≤ 2 / 10 ^ 23 by norm_num]

theorem exp_le_50 {X : ℝ} (h : X ≤ 50) : Real.exp X ≤ 6 * 10 ^ 21 := by
  have h : Real.exp X ≤ Real.exp 50 := Real.exp_le_exp.mpr h
  have e20 : Real.exp 50 = Real.exp 1 ^ 50 := by rw [← Real.exp_nat_mul]; norm_num
  have h1 := Real.exp_one_lt_d9
  have : Real.exp 1 ^ 50 ≤ 2.7182818286 ^ 50 := pow_le_pow_left₀ (Real.exp_pos 1).le h1.le 50
  rw [e20] at h
  exact h.trans (this.trans (by norm_num))

namespace Dec.Laws
variable (L : d.Laws)
include L

/-- The denominator of the last division. -/
theorem wideDenominator {B : Rat} {e : Nat → ℝ} (W : WideErr B e) {x : D} (hx : |(L.val x : ℝ)| ≤ B) (h0 : L.val x ≠ 0)
    (hstart : (L.val x : ℝ) ^ 2 ≤ 406 * e 100) :
    ∃ a0 w s q V, d.cmul x x = .ok a0 ∧ d.expLoop a0 99 398 (d.nat 402) = .ok w ∧ d.csub d.two x = .ok s ∧ d.cdiv a0 w = .ok q ∧
      d.cadd s q = .ok V ∧ |(L.val V : ℝ) - (expFrac (L.val x) 0 - L.val x)| ≤ e 0 + 2 / 10 ^ 28 * (2 * B + 3) := by
  have h100 : (B : ℝ) ≤ 100 := by exact_mod_cast W.hundred
  have h1 : (1 : ℝ) ≤ B := by exact_mod_cast W.one
  have hxs := abs_le.mp hx
  have v2 : (L.val d.two : ℝ) = 2 := by rw [show L.val d.two = 2 from L.nat_val (n := 2) (by decide)]; norm_num
  have hq0 : |L.val x * L.val x| ≤ 10000 := by
    have : |(L.val x : ℝ) * L.val x| ≤ 100 * 100 := by
      rw [abs_mul]
      exact mul_le_mul (by linarith) (by linarith) (abs_nonneg _) (by norm_num)
    have h2 : ((|L.val x * L.val x| : Rat) : ℝ) ≤ ((10000 : Rat) : ℝ) := by push_cast; linarith
    exact (Rat.cast_le (K := ℝ)).mp h2
  obtain ⟨a0, ea, na, -⟩ := L.cmul_real (x := x) (y := x) (a := 1 + L.val x * L.val x) (by nlinarith [mul_self_nonneg (L.val x)]) (by
    push_cast
    rw [abs_of_nonneg (mul_self_nonneg _)]
    linarith) (by linarith [(abs_le.mp hq0).2])
  push_cast at na
  rw [← sq] at na
  obtain ⟨w, ew, h5, nw⟩ := L.wideLoop W hx na 99 (d.nat 402) (by omega) (by
    have v : (L.val (d.nat 402) : ℝ) = 402 := by rw [L.nat_val (n := 402) (by decide)]; norm_num
    rw [v]; norm_num) (by
    have v : (L.val (d.nat 402) : ℝ) = 402 := by rw [L.nat_val (n := 402) (by decide)]; norm_num
    rw [v, expFrac_rec]
    have hge := expFrac_ge (L.val x : ℝ) (99 + 1 + 1)
    have hp := expFrac_pos (L.val x : ℝ) (99 + 1 + 1)
    have hq : (L.val x : ℝ) ^ 2 / expFrac (L.val x) (99 + 1 + 1) ≤ e (99 + 1) := by
      rw [div_le_iff₀ hp]
      push_cast at hge
      have := mul_le_mul_of_nonneg_left hge (W.nonneg 100)
      linarith
    have hq0 : 0 ≤ (L.val x : ℝ) ^ 2 / expFrac (L.val x) (99 + 1 + 1) := by positivity
    rw [abs_le]
    push_cast
    constructor <;> linarith)
  obtain ⟨q, eq, b1, b2, nq⟩ := L.wideStep W (n := 0) (by omega) hx na (by push_cast; linarith) nw
  have hs := (wide_ratio W (n := 0) (by omega) hx (by push_cast; linarith) nw).2
  obtain ⟨s, es, ns⟩ := L.csub_real (x := d.two) (y := x) (a := B + 2) (by linarith [W.one]) (by
    rw [v2, abs_le]
    push_cast
    constructor <;> linarith [hxs.1, hxs.2]) (by linarith [W.hundred])
  rw [v2] at ns
  push_cast at ns
  have nss := abs_le.mp ns
  obtain ⟨V, eV, nV⟩ := L.cadd_real (x := s) (y := q) (a := 2 * B + 5) (by linarith [W.one]) (by
    rw [abs_le]
    push_cast
    constructor <;> linarith [hxs.1, hxs.2, nss.1, nss.2]) (by linarith [W.hundred])
  push_cast at nV
  refine ⟨a0, w, s, q, V, ea, ew, es, eq, eV, ?_⟩
  have hrec := expFrac_rec (L.val x : ℝ) 0
  rw [hrec]
  push_cast at hs
  rw [abs_le] at nq nV ⊢
  push_cast
  constructor <;> linarith [nss.1, nss.2, nq.1, nq.2, nV.1, nV.2]

/-- The exponential function from -100 to 50. -/
theorem exp_wide {x : D} (hx0 : -100 ≤ L.val x) (hx1 : L.val x ≤ 50) : ∃ z, d.exp x = .ok z ∧
    |(L.val z : ℝ) - Real.exp (L.val x)| ≤ 2 / 10 ^ 16 + 2 / 10 ^ 25 * Real.exp (L.val x) * (1 + Real.exp (L.val x)) := by
  have hEpos := Real.exp_pos (L.val x : ℝ)
  have r0 : (-100 : ℝ) ≤ L.val x := by exact_mod_cast hx0
  have r1 : (L.val x : ℝ) ≤ 50 := by exact_mod_cast hx1
  by_cases h0 : L.val x = 0
  · refine ⟨d.one, ?_, ?_⟩
    · unfold Dec.exp
      rw [if_pos ((L.isZero x).mpr h0)]
    · rw [h0, show L.val d.one = 1 from L.nat_val (n := 1) (by decide)]
      norm_num
  by_cases h1 : L.val x = 1
  · obtain ⟨z, hz, hn⟩ := L.exp_near (x := x) (by rw [h1]; norm_num)
    refine ⟨d.e, ?_, ?_⟩
    · unfold Dec.exp
      have : ¬ d.isZero x = true := by rw [L.isZero]; exact h0
      rw [if_neg this, if_pos ((L.isOne x).mpr h1)]
    · have he : L.val d.e = 27182818284590452353602874714 / 10 ^ 28 := by
        have := L.e
        rw [eq_div_iff (by norm_num)]
        push_cast at this
        exact this
      have h2 := Real.exp_one_near_20
      have h3 := Real.exp_one_gt_d9
      have hm : 0 ≤ 2 / 10 ^ 25 * Real.exp (L.val x) * (1 + Real.exp (L.val x)) := by positivity
      rw [h1] at hm ⊢
      rw [he]
      push_cast at hm ⊢
      rw [abs_le] at h2 ⊢
      constructor <;> linarith [h2.1, h2.2]
  have hX0 : (L.val x : ℝ) ≠ 0 := by exact_mod_cast h0
  have hX100 : |(L.val x : ℝ)| ≤ 100 := by rw [abs_le]; constructor <;> linarith
  have v2 : (L.val d.two : ℝ) = 2 := by rw [show L.val d.two = 2 from L.nat_val (n := 2) (by decide)]; norm_num
  have v1 : (L.val d.one : ℝ) = 1 := by rw [show L.val d.one = 1 from L.nat_val (n := 1) (by decide)]; norm_num
  -- the denominator
  have hden : ∃ a0 w s q V, d.cmul x x = .ok a0 ∧ d.expLoop a0 99 398 (d.nat 402) = .ok w ∧ d.csub d.two x = .ok s ∧ d.cdiv a0 w = .ok q ∧
      d.cadd s q = .ok V ∧ (0 < (L.val x : ℝ) → |(L.val x : ℝ)| ≤ 50 ∧ |(L.val V : ℝ) - (expFrac (L.val x) 0 - L.val x)| ≤ 3 / 10 ^ 25) ∧
      ((L.val x : ℝ) < 0 → |(L.val V : ℝ) - (expFrac (L.val x) 0 - L.val x)| ≤ 2 / 10 ^ 23) := by
    rcases lt_or_gt_of_ne hX0 with h | h
    · obtain ⟨a0, w, s, q, V, e1, e2, e3, e4, e5, n⟩ := L.wideDenominator wide100 (x := x) (by push_cast; exact hX100) h0 (by
        rw [err100_far (by norm_num)]
        rw [← sq_abs]
        nlinarith [abs_nonneg (L.val x : ℝ)])
      refine ⟨a0, w, s, q, V, e1, e2, e3, e4, e5, fun h' => by linarith, fun _ => n.trans ?_⟩
      unfold err100
      norm_num
    · have h50 : |(L.val x : ℝ)| ≤ 50 := by rw [abs_of_pos h]; exact r1
      obtain ⟨a0, w, s, q, V, e1, e2, e3, e4, e5, n⟩ := L.wideDenominator wide50 (x := x) (by push_cast; exact h50) h0 (by
        rw [err50_far (by norm_num)]
        rw [← sq_abs]
        nlinarith [abs_nonneg (L.val x : ℝ)])
      refine ⟨a0, w, s, q, V, e1, e2, e3, e4, e5, fun _ => ⟨h50, n.trans ?_⟩, fun h' => by linarith⟩
      unfold err50
      norm_num
  obtain ⟨a0, w, s, q, V, ea, ew, es, eq, eV, n1, n2⟩ := hden
  have hid := expFrac_zero hX0
  have hge0 := expFrac_ge (L.val x : ℝ) 0
  have hE1 : (L.val x : ℝ) + 1 ≤ Real.exp (L.val x) := Real.add_one_le_exp _
  have hneg : -(L.val x : ℝ) + 1 ≤ Real.exp (-(L.val x : ℝ)) := Real.add_one_le_exp _
  rw [Real.exp_neg] at hneg
  have hEs : Real.exp (L.val x) - 1 ≤ L.val x * Real.exp (L.val x) := by
    have := mul_le_mul_of_nonneg_left hneg hEpos.le
    rw [mul_inv_cancel₀ hEpos.ne'] at this
    linarith
  have hE50 := exp_le_50 r1
  have hT2 : |(2 : ℝ) * L.val x| ≤ ((1 + 2 * |L.val x| : Rat) : ℝ) := by
    rw [abs_mul, abs_of_pos (show (0 : ℝ) < 2 by norm_num)]
    push_cast
    linarith
  obtain ⟨t, et, nt, -⟩ := L.cmul_real (x := d.two) (y := x) (a := 1 + 2 * |L.val x|) (by linarith [abs_nonneg (L.val x)]) (by
    rw [v2]; exact hT2) (by
      have : |L.val x| ≤ 100 := by rw [abs_le]; constructor <;> linarith
      linarith)
  rw [v2] at nt
  push_cast at nt
  obtain ⟨hVp, nQ⟩ := wide_quot hid hX0 hEpos hEs hE1 (fun h => by push_cast at hge0; linarith) hE50 hX100 nt n1 n2
  generalize Real.exp (L.val x) = E at *
  have nQs := abs_le.mp nQ
  have hEE : E ^ 2 ≤ 6 * 10 ^ 21 * E := by rw [sq]; exact mul_le_mul_of_nonneg_right hE50 hEpos.le
  have hqb : |(L.val t : ℝ) / L.val V| ≤ 2 * E + 2 := by
    rw [abs_le]
    constructor <;> linarith [nQs.1, nQs.2]
  have hqr : |L.val t / L.val V| ≤ 2 * (6 * 10 ^ 21) + 2 := by
    have h2 : ((|L.val t / L.val V| : Rat) : ℝ) ≤ ((2 * (6 * 10 ^ 21) + 2 : Rat) : ℝ) := by push_cast; linarith
    exact (Rat.cast_le (K := ℝ)).mp h2
  obtain ⟨p, ep, np⟩ := L.cdiv_real (x := t) (y := V) (a := 1 + |L.val t / L.val V|) hVp.ne' (by linarith [abs_nonneg (L.val t / L.val V)]) (by
    push_cast
    linarith) (by linarith)
  push_cast at np
  have nps := abs_le.mp np
  have hpb : |1 + (L.val p : ℝ)| ≤ 3 * E + 5 := by
    have := abs_le.mp hqb
    rw [abs_le]
    constructor <;> linarith [nps.1, nps.2]
  have hpr : |1 + L.val p| ≤ 3 * (6 * 10 ^ 21) + 5 := by
    have h2 : ((|1 + L.val p| : Rat) : ℝ) ≤ ((3 * (6 * 10 ^ 21) + 5 : Rat) : ℝ) := by push_cast; linarith
    exact (Rat.cast_le (K := ℝ)).mp h2
  obtain ⟨y, ey, ny⟩ := L.cadd_real (x := d.one) (y := p) (a := 1 + |1 + L.val p|) (by linarith [abs_nonneg (1 + L.val p)]) (by
    push_cast
    rw [v1]
    linarith) (by linarith)
  push_cast at ny
  rw [v1] at ny
  have nys := abs_le.mp ny
  obtain ⟨z, ez, nz, -⟩ := L.approx_near y
  have nzR := (Rat.cast_le (K := ℝ)).mpr nz
  push_cast at nzR
  have nzs := abs_le.mp nzR
  refine ⟨z, ?_, ?_⟩
  · have c0 : ¬ d.isZero x = true := by rw [L.isZero]; exact h0
    have c1 : ¬ d.isOne x = true := by rw [L.isOne]; exact h1
    have ew' : d.expLoop a0 (Dec.iterations - 1) (4 * Dec.iterations - 2) (d.nat (4 * Dec.iterations + 2)) = .ok w := ew
    unfold Dec.exp
    rw [if_neg c0, if_neg c1]
    simp only [Res.bind_eq, ea, ew', es, eq, eV, et, ep, ey, ez, Res.bind_ok]
  · have hE2 := sq_nonneg E
    rw [abs_le]
    constructor <;> nlinarith [nQs.1, nQs.2, nps.1, nps.2, nys.1, nys.2, nzs.1, nzs.2]

end Dec.Laws
end Prexel
