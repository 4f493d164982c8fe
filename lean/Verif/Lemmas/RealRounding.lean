import Mathlib.Analysis.SpecialFunctions.Pow.Real
import Mathlib.Analysis.Real.Sqrt
import Verif.Lemmas.DoubleOps
/-!
# Rounding real numbers to doubles
-/

namespace Prexel.B64

theorem perOne_real : (0 : ℝ) < perOne := by exact_mod_cast (by unfold perOne; positivity : 0 < perOne)

theorem perOne_split : (perOne : ℝ) = 2 ^ 52 * 2 ^ 1022 := by
  unfold perOne
  rw [← pow_add, Nat.cast_pow, Nat.cast_ofNat]

/-- The largest units that are not too large. -/
theorem real_units_small {x : ℝ} (hx : x ≤ 2 ^ 1023) : x * perOne < (2 ^ 54 - 1) * half := by
  have hu := perOne_real
  have h1 : x * perOne ≤ 2 ^ 1023 * perOne := mul_le_mul_of_nonneg_right hx hu.le
  refine lt_of_le_of_lt h1 ?_
  have h2 : (2 : ℝ) ^ 1023 * perOne = 2 ^ 53 * half := by
    unfold perOne half
    rw [Nat.cast_pow, Nat.cast_pow, Nat.cast_ofNat, ← pow_add, ← pow_add]
  rw [h2]
  have h3 : (0 : ℝ) < half := by exact_mod_cast half_pos
  have h4 : (2 : ℝ) ^ 53 < 2 ^ 54 - 1 := by norm_num
  exact mul_lt_mul_of_pos_right h4 h3

/-- What `of` gives for real numbers that are not negative. -/
theorem of_real {x : ℝ} (h0 : 0 ≤ x) (hx : x ≤ 2 ^ 1023) (a : Bool) :
    (of a x).isFin ∧ (of a x).val = (units (x * perOne) : ℚ) / perOne := by
  have hu := perOne_real
  rcases h0.eq_or_lt with rfl | h0
  · unfold of
    rw [if_neg (lt_irrefl _), if_neg (lt_irrefl _), zero_mul, units_zero]
    exact ⟨⟨rfl, rfl⟩, by cases a <;> simp [zero, val]⟩
  · have hf : Fits (units (x * perOne)) := ⟨(units_lt_limit (by positivity)).mpr (real_units_small hx), units_wide (by positivity)⟩
    unfold of
    rw [if_neg (by linarith), if_pos h0]
    unfold round
    rw [dif_pos hf]
    refine ⟨⟨rfl, rfl⟩, ?_⟩
    show (if false = true then _ else _) / _ = _
    rw [if_neg (by simp)]

theorem of_real_nonneg {x : ℝ} (h0 : 0 ≤ x) (hx : x ≤ 2 ^ 1023) (a : Bool) : 0 ≤ (of a x).val := by
  rw [(of_real h0 hx a).2]
  exact div_nonneg (Nat.cast_nonneg _) (Nat.cast_nonneg _)

/-- The nearest double. -/
theorem of_real_nearest {x : ℝ} (h0 : 0 ≤ x) (hx : x ≤ 2 ^ 1023) (a : Bool) (s : ℚ) (hs : IsDouble s) : |x - (of a x).val| ≤ |x - s| := by
  have hu := perOne_real
  obtain ⟨k, hk, hks⟩ := isDouble_units.mp hs
  rw [(of_real h0 hx a).2]
  have h1 := units_near (t := x * perOne) (by positivity) hk.2
  have e1 : ∀ n : ℝ, |x - n / perOne| = |x * perOne - n| / perOne := by
    intro n
    rw [show x - n / perOne = (x * perOne - n) / perOne by field_simp, abs_div, abs_of_pos hu]
  have h2 : |x - (units (x * perOne) : ℝ) / perOne| ≤ |x - (k : ℝ) / perOne| := by
    rw [e1, e1]; exact div_le_div_of_nonneg_right h1 hu.le
  rcases hks with rfl | rfl
  · push_cast; exact h2
  · push_cast
    refine h2.trans ?_
    have h3 : (0 : ℝ) ≤ (k : ℝ) / perOne := by positivity
    rw [sub_neg_eq_add, abs_of_nonneg (by linarith : 0 ≤ x + (k : ℝ) / perOne), abs_le]
    constructor <;> linarith

/-- The relative error. -/
theorem of_real_error {x : ℝ} (h1 : 1 / 2 ^ 1022 ≤ x) (hx : x ≤ 2 ^ 1023) (a : Bool) : |x - (of a x).val| ≤ x / 2 ^ 53 := by
  have hu := perOne_real
  have h0 : 0 ≤ x := le_trans (by positivity) h1
  rw [(of_real h0 hx a).2]
  have e1 : |x - (units (x * perOne) : ℝ) / perOne| = |x * perOne - (units (x * perOne) : ℝ)| / perOne := by
    rw [show x - (units (x * perOne) : ℝ) / perOne = (x * perOne - (units (x * perOne) : ℝ)) / perOne by field_simp, abs_div, abs_of_pos hu]
  push_cast
  rw [e1, div_le_iff₀ hu, div_mul_eq_mul_div]
  rcases units_error (t := x * perOne) (by positivity) with h | h
  · refine h.trans ?_
    have h2 : (2 : ℝ) ^ 52 ≤ x * perOne := by
      have h4 := mul_le_mul_of_nonneg_right h1 hu.le
      rw [perOne_split] at h4 ⊢
      have h5 : (1 : ℝ) / 2 ^ 1022 * (2 ^ 52 * 2 ^ 1022) = 2 ^ 52 := by
        have : (0 : ℝ) < 2 ^ 1022 := by positivity
        generalize (2 : ℝ) ^ 1022 = z at *
        field_simp
      rwa [h5] at h4
    rw [le_div_iff₀ (by positivity)]
    linarith [show (1 / 2 : ℝ) * 2 ^ 53 = 2 ^ 52 by norm_num]
  · exact h

/-- Rounding leaves doubles alone. -/
theorem of_real_double {q : ℚ} (hq : IsDouble q) {x : ℝ} (hxq : x = q) (h0 : 0 ≤ x) (hx : x ≤ 2 ^ 1023) (a : Bool) : (of a x).val = q := by
  have h := of_real_nearest h0 hx a q hq
  rw [hxq, sub_self, abs_zero] at h
  have := abs_nonpos_iff.mp h
  have : (q : ℝ) = ((of a (q : ℝ)).val : ℝ) := by linarith
  rw [hxq]
  exact_mod_cast this.symm

/-- Positive doubles that are not very small have 53 binary digits. -/
theorem isDouble_normal {a : ℚ} (h : IsDouble a) (h0 : 0 < a) : ∃ m e : ℤ, 2 ^ 52 ≤ m ∧ m < 2 ^ 53 ∧ a = m * 2 ^ e := by
  obtain ⟨m, e, hm, -, -, rfl⟩ := h
  have hp : (0 : ℚ) < 2 ^ e := zpow_pos (by norm_num) e
  have hm0 : 0 < m := by
    by_contra hc
    have : (m : ℚ) ≤ 0 := by exact_mod_cast (by omega : m ≤ 0)
    nlinarith
  obtain ⟨n, rfl⟩ := Int.eq_ofNat_of_zero_le hm0.le
  have hn : n ≠ 0 := by rintro rfl; simp at hm0
  have hn53 : n < 2 ^ 53 := by
    rw [abs_of_nonneg hm0.le] at hm
    exact_mod_cast hm
  have l1 := Nat.log2_self_le hn
  have l2 := Nat.lt_log2_self (n := n)
  have l3 : n.log2 < 53 := (Nat.log2_lt hn).mpr hn53
  refine ⟨((n * 2 ^ (52 - n.log2) : ℕ) : ℤ), e - ((52 - n.log2 : ℕ) : ℤ), ?_, ?_, ?_⟩
  · have : 2 ^ 52 ≤ n * 2 ^ (52 - n.log2) := by
      calc 2 ^ 52 = 2 ^ n.log2 * 2 ^ (52 - n.log2) := by rw [← pow_add]; congr 1; omega
        _ ≤ _ := Nat.mul_le_mul_right _ l1
    exact_mod_cast this
  · have : n * 2 ^ (52 - n.log2) < 2 ^ 53 := by
      calc n * 2 ^ (52 - n.log2) < 2 ^ (n.log2 + 1) * 2 ^ (52 - n.log2) := Nat.mul_lt_mul_of_pos_right l2 (by positivity)
        _ = 2 ^ 53 := by rw [← pow_add]; congr 1; omega
    exact_mod_cast this
  · rw [zpow_sub₀ (by norm_num), zpow_natCast]
    push_cast
    field_simp

/-- Different doubles keep their distance. -/
theorem double_distance {m e : ℤ} (h1 : 2 ^ 52 < m) (h2 : m < 2 ^ 53) {d : ℚ} (hd : IsDouble d) (hne : d ≠ m * 2 ^ e) :
    (2 : ℚ) ^ e ≤ |m * 2 ^ e - d| := by
  obtain ⟨n, j, hn, -, -, rfl⟩ := hd
  have hp : (0 : ℚ) < 2 ^ e := zpow_pos (by norm_num) e
  rcases le_or_gt e j with h | h
  · obtain ⟨k, hk⟩ : ∃ k : ℕ, j = e + k := ⟨(j - e).toNat, by omega⟩
    have e1 : (n : ℚ) * 2 ^ j = ((n * 2 ^ k : ℤ) : ℚ) * 2 ^ e := by
      rw [hk, zpow_add₀ (by norm_num), zpow_natCast]; push_cast; ring
    rw [e1] at hne ⊢
    rw [← sub_mul, abs_mul, abs_of_pos hp]
    have h3 : m - n * 2 ^ k ≠ 0 := by
      intro hc
      apply hne
      congr 1
      exact_mod_cast (by omega : n * 2 ^ k = m)
    have h4 : (1 : ℚ) ≤ |(m : ℚ) - ((n * 2 ^ k : ℤ) : ℚ)| := by
      have h5 : (1 : ℤ) ≤ |m - n * 2 ^ k| := Int.one_le_abs h3
      have h6 : ((1 : ℤ) : ℚ) ≤ ((|m - n * 2 ^ k| : ℤ) : ℚ) := by exact_mod_cast h5
      rw [Int.cast_abs, Int.cast_sub] at h6
      simpa using h6
    nlinarith
  · have h3 : (2 : ℚ) ^ j ≤ 2 ^ (e - 1) := zpow_le_zpow_right₀ (by norm_num) (by omega)
    have h4 : (2 : ℚ) ^ (e - 1) = 2 ^ e / 2 := by rw [zpow_sub_one₀ (by norm_num)]; ring
    have hpj : (0 : ℚ) < 2 ^ j := zpow_pos (by norm_num) j
    have h5 : (n : ℚ) < 2 ^ 53 := by exact_mod_cast (abs_lt.mp hn).2
    have h6 : (n : ℚ) * 2 ^ j ≤ 2 ^ 52 * 2 ^ e := by
      calc (n : ℚ) * 2 ^ j ≤ 2 ^ 53 * 2 ^ j := mul_le_mul_of_nonneg_right h5.le hpj.le
        _ ≤ 2 ^ 53 * (2 ^ e / 2) := by rw [← h4]; exact mul_le_mul_of_nonneg_left h3 (by positivity)
        _ = 2 ^ 52 * 2 ^ e := by ring
    have h7 : ((2 : ℚ) ^ 52 + 1) ≤ m := by exact_mod_cast (by omega : 2 ^ 52 + 1 ≤ m)
    refine le_trans ?_ (le_abs_self _)
    nlinarith

/-- The root of the rounded square is nearest to the number itself. -/
theorem root_of_square {a : ℚ} (ha : IsDouble a) (h0 : 0 < a) {p : ℚ} (hp0 : 0 ≤ p) (hp : |p - a ^ 2| ≤ a ^ 2 / 2 ^ 53) (hpow : IsDouble (a ^ 2) → p = a ^ 2)
    (hsq : ∀ e : ℤ, a = 2 ^ e → IsDouble (a ^ 2)) {d : ℚ} (hd : IsDouble d) (hne : d ≠ a) : |√(p : ℝ) - a| < |√(p : ℝ) - d| := by
  obtain ⟨m, e, hm1, hm2, rfl⟩ := isDouble_normal ha h0
  by_cases hm : m = 2 ^ 52
  · have h1 : ((m : ℤ) : ℚ) * 2 ^ e = 2 ^ (52 + e) := by
      rw [hm, zpow_add₀ (by norm_num)]; norm_num
    have h2 := hpow (hsq _ h1)
    have h3 : √(p : ℝ) = ((m * 2 ^ e : ℚ) : ℝ) := by
      rw [h2, Rat.cast_pow]
      exact Real.sqrt_sq (by exact_mod_cast h0.le)
    rw [h3, sub_self, abs_zero, abs_pos, sub_ne_zero]
    exact fun h => hne (by exact_mod_cast h.symm)
  · have hm3 : 2 ^ 52 < m := by omega
    have hdist := double_distance hm3 hm2 hd hne
    have hE : (0 : ℚ) < 2 ^ e := zpow_pos (by norm_num) e
    have hEr : (0 : ℝ) < ((2 ^ e : ℚ) : ℝ) := by exact_mod_cast hE
    have hmr : (m : ℝ) ≤ 2 ^ 53 - 1 := by exact_mod_cast (by omega : m ≤ 2 ^ 53 - 1)
    have hmr0 : (2 : ℝ) ^ 52 ≤ m := by exact_mod_cast hm1
    have hdr : ((2 ^ e : ℚ) : ℝ) ≤ |((m * 2 ^ e : ℚ) : ℝ) - (d : ℝ)| := by exact_mod_cast hdist
    have hpr : |(p : ℝ) - ((m * 2 ^ e : ℚ) : ℝ) ^ 2| ≤ ((m * 2 ^ e : ℚ) : ℝ) ^ 2 / 2 ^ 53 := by exact_mod_cast hp
    have hpr0 : (0 : ℝ) ≤ p := by exact_mod_cast hp0
    have hs0 := Real.sqrt_nonneg (p : ℝ)
    have hs := Real.sq_sqrt hpr0
    have hA : ((m * 2 ^ e : ℚ) : ℝ) = m * ((2 ^ e : ℚ) : ℝ) := by push_cast; ring
    rw [hA] at hdr hpr ⊢
    generalize ((2 ^ e : ℚ) : ℝ) = E at *
    generalize √(p : ℝ) = s at *
    rw [← hs] at hpr
    have hAp : 0 < (m : ℝ) * E := mul_pos (by linarith [show (0 : ℝ) < 2 ^ 52 by positivity]) hEr
    -- `s` is close to `m E`
    have hlow : (m : ℝ) * E * (1 - 1 / 2 ^ 53) ≤ s := by
      rw [abs_le] at hpr
      by_contra hc
      push Not at hc
      have : s ^ 2 < ((m : ℝ) * E * (1 - 1 / 2 ^ 53)) ^ 2 := by
        apply pow_lt_pow_left₀ hc hs0 (by norm_num)
      have h9 : ((m : ℝ) * E * (1 - 1 / 2 ^ 53)) ^ 2 ≤ ((m : ℝ) * E) ^ 2 * (1 - 1 / 2 ^ 53) := by
        rw [mul_pow]
        apply mul_le_mul_of_nonneg_left _ (by positivity)
        norm_num
      linarith [hpr.1, show ((m : ℝ) * E) ^ 2 * (1 - 1 / 2 ^ 53) = ((m : ℝ) * E) ^ 2 - ((m : ℝ) * E) ^ 2 / 2 ^ 53 by ring]
    have hclose : |s - (m : ℝ) * E| < E / 2 := by
      have h1 : |s - (m : ℝ) * E| * (s + m * E) ≤ ((m : ℝ) * E) ^ 2 / 2 ^ 53 := by
        rw [← abs_of_nonneg (by linarith : 0 ≤ s + m * E), ← abs_mul]
        rwa [show (s - m * E) * (s + m * E) = s ^ 2 - (m * E) ^ 2 by ring]
      have h2 : (m : ℝ) * E * (2 - 1 / 2 ^ 53) ≤ s + m * E := by
        rw [show (m : ℝ) * E * (2 - 1 / 2 ^ 53) = m * E * (1 - 1 / 2 ^ 53) + m * E by ring]; linarith
      by_contra hc
      push Not at hc
      have h3 : E / 2 * (m * E * (2 - 1 / 2 ^ 53)) ≤ ((m : ℝ) * E) ^ 2 / 2 ^ 53 :=
        le_trans (mul_le_mul hc h2 (by
          apply mul_nonneg hAp.le; norm_num) (abs_nonneg _)) h1
      have h4 : (m : ℝ) * E * E * (1 - 1 / 2 ^ 54) ≤ m * E * E * (m / 2 ^ 53) := by
        calc (m : ℝ) * E * E * (1 - 1 / 2 ^ 54) = E / 2 * (m * E * (2 - 1 / 2 ^ 53)) := by ring
          _ ≤ _ := h3
          _ = _ := by ring
      have h5 := le_of_mul_le_mul_left h4 (mul_pos hAp hEr)
      have h6 : (m : ℝ) / 2 ^ 53 ≤ 1 - 1 / 2 ^ 53 := by
        rw [div_le_iff₀ (by positivity)]; norm_num at hmr ⊢; linarith
      norm_num at h5 h6
      linarith
    have h7 : |(m : ℝ) * E - d| ≤ |s - m * E| + |s - d| := by
      calc |(m : ℝ) * E - d| = |(s - d) - (s - m * E)| := by ring_nf
        _ ≤ |s - d| + |s - m * E| := abs_sub _ _
        _ = _ := by ring
    linarith

end Prexel.B64
