import Mathlib.Tactic.Linarith
import Mathlib.Tactic.FieldSimp
import Mathlib.Tactic.NormNum
import Mathlib.Tactic.Positivity
import Mathlib.Tactic.Ring
import Mathlib.Algebra.Order.Floor.Ring
import Verif.Model.Binary64
/-!
# Rounding to doubles
-/

set_option linter.unusedVariables false
set_option linter.unusedSectionVars false

namespace Prexel

section
variable {α : Type} [Field α] [LinearOrder α] [IsStrictOrderedRing α] [FloorRing α]

theorem toNearestEven_cases (x : α) : (toNearestEven x = ⌊x⌋ ∧ x - ⌊x⌋ ≤ 1 / 2) ∨ (toNearestEven x = ⌊x⌋ + 1 ∧ 1 / 2 ≤ x - ⌊x⌋) := by
  unfold toNearestEven
  simp only
  split
  · exact .inl ⟨rfl, le_of_lt ‹_›⟩
  · split
    · exact .inr ⟨rfl, le_of_lt ‹_›⟩
    · split
      · exact .inl ⟨rfl, by linarith⟩
      · exact .inr ⟨rfl, by linarith⟩

/-- No whole number is nearer. -/
theorem toNearestEven_nearest (x : α) (m : ℤ) : |x - toNearestEven x| ≤ |x - m| := by
  have h1 := Int.floor_le x
  have h2 := Int.lt_floor_add_one x
  have key : ∀ n : ℤ, |x - n| ≤ 1 / 2 → |x - n| ≤ |x - m| := by
    intro n hn
    by_cases h : n = m
    · rw [h]
    · have h3 : (1 : α) ≤ |(n : α) - m| := by
        rw [← Int.cast_sub, ← Int.cast_abs]
        exact_mod_cast Int.one_le_abs (sub_ne_zero.mpr h)
      have h4 : |(n : α) - m| ≤ |x - n| + |x - m| := by
        rw [show (n : α) - m = -(x - n) + (x - m) by ring]
        exact (abs_add_le _ _).trans (by rw [abs_neg])
      linarith
  apply key
  rcases toNearestEven_cases x with ⟨h, h3⟩ | ⟨h, h3⟩ <;> rw [h]
  · rw [abs_le]; constructor <;> linarith
  · push_cast; rw [abs_le]; constructor <;> linarith

theorem toNearestEven_half (x : α) : |x - toNearestEven x| ≤ 1 / 2 := by
  have h1 := Int.floor_le x
  have h2 := Int.lt_floor_add_one x
  rcases toNearestEven_cases x with ⟨h, h3⟩ | ⟨h, h3⟩ <;> rw [h]
  · rw [abs_le]; constructor <;> linarith
  · push_cast; rw [abs_le]; constructor <;> linarith

theorem toNearestEven_tie (x : α) (h : |x - toNearestEven x| = 1 / 2) : toNearestEven x % 2 = 0 := by
  have h1 := Int.floor_le x
  have h2 := Int.lt_floor_add_one x
  revert h
  unfold toNearestEven
  simp only
  split
  · intro h; rw [abs_of_nonneg (by linarith)] at h; linarith
  · split
    · intro h; push_cast at h; rw [abs_of_nonpos (by linarith)] at h; linarith
    · split
      · intro _; assumption
      · intro _; omega

theorem toNearestEven_int (n : ℤ) : toNearestEven (n : α) = n := by
  have := toNearestEven_nearest (n : α) n
  rw [sub_self, abs_zero] at this
  have := abs_nonpos_iff.mp this
  have : (n : α) = toNearestEven (n : α) := by linarith
  exact_mod_cast this.symm

end

namespace B64

/-- At most 53 binary digits before trailing zeros. -/
def Wide (k : ℕ) : Prop := 2 ^ spacing k ∣ k

theorem spacing_le {k e : ℕ} (h : k < 2 ^ (e + 53)) : spacing k ≤ e := by
  unfold spacing
  rcases Nat.eq_zero_or_pos k with rfl | hk
  · simp
  · have := (Nat.log2_lt (by omega)).mpr h
    omega

theorem le_spacing {k : ℕ} (h : spacing k ≠ 0) : 2 ^ (spacing k + 52) ≤ k := by
  unfold spacing at *
  have : Nat.log2 k - 52 + 52 = Nat.log2 k := by omega
  rw [this]
  exact Nat.log2_self_le (by rintro rfl; simp at h)

theorem lt_spacing (k : ℕ) : k < 2 ^ (spacing k + 53) := by
  unfold spacing
  have : k < 2 ^ (Nat.log2 k + 1) := Nat.lt_log2_self
  exact this.trans_le (Nat.pow_le_pow_right (by norm_num) (by omega))

theorem wide_mul {m e : ℕ} (h : m ≤ 2 ^ 53) : Wide (m * 2 ^ e) := by
  unfold Wide
  rcases Nat.lt_or_ge m (2 ^ 53) with h1 | h1
  · have : spacing (m * 2 ^ e) ≤ e := spacing_le (by
      rw [Nat.pow_add, Nat.mul_comm (2 ^ e)]; exact Nat.mul_lt_mul_of_pos_right h1 (by positivity))
    exact Dvd.dvd.mul_left (pow_dvd_pow 2 this) m
  · have hm : m = 2 ^ 53 := by omega
    have : spacing (m * 2 ^ e) ≤ e + 1 := spacing_le (by
      rw [hm, ← Nat.pow_add]; exact Nat.pow_lt_pow_right (by norm_num) (by omega))
    rw [hm, ← Nat.pow_add] at *
    exact pow_dvd_pow 2 (by omega)

theorem wide_exists {k : ℕ} (h : Wide k) : ∃ m e, m < 2 ^ 53 ∧ k = m * 2 ^ e := by
  obtain ⟨m, hm⟩ := h
  refine ⟨m, spacing k, ?_, by rw [Nat.mul_comm]; exact hm⟩
  have := lt_spacing k
  rw [Nat.pow_add] at this
  by_contra h1
  have : 2 ^ spacing k * 2 ^ 53 ≤ 2 ^ spacing k * m := Nat.mul_le_mul_left _ (by omega)
  omega

section
variable {α : Type} [Field α] [LinearOrder α] [IsStrictOrderedRing α] [FloorRing α]

theorem spacing_floor {t : α} (h : 0 ≤ t) : t < 2 ^ (spacing ⌊t⌋.toNat + 53) ∧ (spacing ⌊t⌋.toNat ≠ 0 → 2 ^ (spacing ⌊t⌋.toNat + 52) ≤ t) := by
  have h0 : 0 ≤ ⌊t⌋ := Int.floor_nonneg.mpr h
  obtain ⟨n, hn⟩ := Int.eq_ofNat_of_zero_le h0
  have h1 := Int.floor_le t
  have h2 := Int.lt_floor_add_one t
  rw [hn] at h1 h2 ⊢
  simp only [Int.toNat_natCast, Int.cast_natCast] at *
  constructor
  · have := lt_spacing n
    have : ((n + 1 : ℕ) : α) ≤ ((2 ^ (spacing n + 53) : ℕ) : α) := by exact_mod_cast this
    push_cast at this
    linarith
  · intro h
    have := le_spacing h
    have : ((2 ^ (spacing n + 52) : ℕ) : α) ≤ n := by exact_mod_cast this
    push_cast at this
    linarith

/-- What `units` gives. -/
theorem units_eq {t : α} (h : 0 ≤ t) : ∃ (n e : ℕ), units t = n * 2 ^ e ∧ n ≤ 2 ^ 53 ∧ (n : ℤ) = toNearestEven (t / 2 ^ e) ∧
    t < 2 ^ (e + 53) ∧ (e ≠ 0 → 2 ^ (e + 52) ≤ t) := by
  obtain ⟨h1, h2⟩ := spacing_floor h
  unfold units
  generalize spacing ⌊t⌋.toNat = e at *
  have hp : (0 : α) < 2 ^ e := by positivity
  have h3 : 0 ≤ t / 2 ^ e := by positivity
  have h4 : t / 2 ^ e < 2 ^ 53 := by rw [div_lt_iff₀ hp, ← pow_add, Nat.add_comm]; exact h1
  have h5 : 0 ≤ ⌊t / 2 ^ e⌋ := Int.floor_nonneg.mpr h3
  have h6 : ⌊t / 2 ^ e⌋ < 2 ^ 53 := by rw [Int.floor_lt]; push_cast; norm_num at h4 ⊢; exact h4
  have h7 : 0 ≤ toNearestEven (t / 2 ^ e) ∧ toNearestEven (t / 2 ^ e) ≤ 2 ^ 53 := by
    rcases toNearestEven_cases (t / 2 ^ e) with ⟨h, -⟩ | ⟨h, -⟩ <;> omega
  refine ⟨(toNearestEven (t / 2 ^ e)).toNat, e, rfl, by omega, by omega, h1, h2⟩

theorem units_wide {t : α} (h : 0 ≤ t) : Wide (units t) := by
  obtain ⟨n, e, h1, h2, -⟩ := units_eq h
  rw [h1]
  exact wide_mul h2

/-- No number with 53 binary digits is nearer. -/
theorem units_nearest {t : α} (h : 0 ≤ t) (s : α) (hs : ∃ (m : ℤ) (k : ℕ), |m| ≤ 2 ^ 53 ∧ s = m * 2 ^ k) : |t - units t| ≤ |t - s| := by
  obtain ⟨n, e, h1, h2, h3, h4, h5⟩ := units_eq h
  obtain ⟨m, k, hm, rfl⟩ := hs
  have hp : (0 : α) < 2 ^ e := by positivity
  have key : ∀ i : ℤ, |t - units t| ≤ |t - i * 2 ^ e| := by
    intro i
    rw [h1]
    push_cast
    have := toNearestEven_nearest (t / 2 ^ e) i
    rw [← h3] at this
    have h6 : ∀ c : α, |t - c * 2 ^ e| = |t / 2 ^ e - c| * 2 ^ e := by
      intro c
      rw [← abs_of_pos hp, ← abs_mul, abs_of_pos hp, sub_mul, div_mul_cancel₀ _ hp.ne']
    rw [h6, h6]
    push_cast at this
    exact mul_le_mul_of_nonneg_right this hp.le
  rcases Nat.lt_or_ge k e with hk | hk
  · have h6 := h5 (by omega)
    have h7 := key (2 ^ 52)
    have h8 : (m : α) * 2 ^ k ≤ 2 ^ (e + 52) := by
      have h9 : (m : α) ≤ 2 ^ 53 := by
        have : m ≤ 2 ^ 53 := (le_abs_self m).trans hm
        exact_mod_cast this
      calc (m : α) * 2 ^ k ≤ 2 ^ 53 * 2 ^ k := mul_le_mul_of_nonneg_right h9 (by positivity)
        _ = 2 ^ (k + 53) := by rw [← pow_add, Nat.add_comm]
        _ ≤ 2 ^ (e + 52) := pow_le_pow_right₀ (by norm_num) (by omega)
    refine h7.trans ?_
    have h10 : (((2 ^ 52 : ℤ)) : α) * 2 ^ e = 2 ^ (e + 52) := by rw [pow_add]; push_cast; ring
    rw [h10, abs_of_nonneg (by linarith), abs_of_nonneg (by linarith)]
    linarith
  · have := key (m * 2 ^ (k - e))
    push_cast at this
    rwa [mul_assoc, ← pow_add, Nat.sub_add_cancel hk] at this

theorem units_near {t : α} (h : 0 ≤ t) {k : ℕ} (hk : Wide k) : |t - units t| ≤ |t - k| := by
  obtain ⟨m, e, h1, h2⟩ := wide_exists hk
  refine units_nearest h k ⟨m, e, ?_, ?_⟩
  · rw [abs_of_nonneg (by omega)]; exact_mod_cast h1.le
  · rw [h2]; push_cast; ring

theorem units_keep {k : ℕ} (hk : Wide k) : units (k : α) = k := by
  have := units_near (α := α) (Nat.cast_nonneg k) hk
  rw [sub_self, abs_zero] at this
  have := abs_nonpos_iff.mp this
  have : (k : α) = units (k : α) := by linarith
  exact_mod_cast this.symm

theorem units_mono {s t : α} (h : 0 ≤ s) (hst : s ≤ t) : units s ≤ units t := by
  by_contra hlt
  push Not at hlt
  have h1 := units_near h (units_wide (h.trans hst))
  have h2 := units_near (h.trans hst) (units_wide h)
  have h3 : ((units t : ℕ) : α) < units s := by exact_mod_cast hlt
  have h4 : s = t := by
    have e1 : (units s : α) + units t ≤ 2 * s := by
      by_contra hc
      push Not at hc
      have : |s - units t| < |s - units s| := by
        rw [abs_of_neg (show s - units s < 0 by linarith)]
        rw [abs_lt]; constructor <;> linarith
      linarith
    have e2 : 2 * t ≤ (units s : α) + units t := by
      by_contra hc
      push Not at hc
      have : |t - units s| < |t - units t| := by
        rw [abs_of_pos (show 0 < t - units t by linarith)]
        rw [abs_lt]; constructor <;> linarith
      linarith
    linarith
  rw [h4] at hlt
  omega

theorem units_zero : units (0 : α) = 0 := by
  have := units_keep (α := α) (k := 0) (Nat.dvd_zero _)
  simpa using this

/-- The relative error is at most 2^-53, or the absolute error half a unit. -/
theorem units_error {t : α} (h : 0 ≤ t) : |t - units t| ≤ 1 / 2 ∨ |t - units t| ≤ t / 2 ^ 53 := by
  obtain ⟨n, e, h1, h2, h3, h4, h5⟩ := units_eq h
  have hp : (0 : α) < 2 ^ e := by positivity
  have h6 : |t - units t| ≤ 2 ^ e / 2 := by
    have := toNearestEven_half (t / 2 ^ e)
    rw [← h3] at this
    rw [h1]; push_cast
    have h7 : |t - n * 2 ^ e| = |t / 2 ^ e - n| * 2 ^ e := by
      rw [← abs_of_pos hp, ← abs_mul, abs_of_pos hp, sub_mul, div_mul_cancel₀ _ hp.ne']
    rw [h7]
    push_cast at this
    have := mul_le_mul_of_nonneg_right this hp.le
    linarith
  rcases Nat.eq_zero_or_pos e with rfl | he
  · left; simpa using h6
  · right
    have h7 := h5 (by omega)
    rw [le_div_iff₀ (by positivity)]
    calc |t - units t| * 2 ^ 53 ≤ 2 ^ e / 2 * 2 ^ 53 := mul_le_mul_of_nonneg_right h6 (by positivity)
      _ = 2 ^ (e + 52) := by rw [pow_add]; ring
      _ ≤ t := h7

/-- If another number with 53 binary digits is as near, the result is an even multiple of the distance between the two. -/
theorem units_tie {t : α} (h : 0 ≤ t) {s : ℕ} (hs : Wide s) (hne : s ≠ units t) (htie : |t - units t| = |t - s|) :
    ∃ k e : ℕ, units t = 2 * k * 2 ^ e ∧ |(units t : ℤ) - s| = 2 ^ e := by
  obtain ⟨n, e, h1, h2, h3, h4, h5⟩ := units_eq h
  have hp : (0 : α) < 2 ^ e := by positivity
  have hhalf := toNearestEven_half (t / 2 ^ e)
  have hnear := toNearestEven_tie (t / 2 ^ e)
  rw [← h3] at hhalf hnear
  push_cast at hhalf hnear
  have h6 : ∀ c : α, |t - c * 2 ^ e| = |t / 2 ^ e - c| * 2 ^ e := by
    intro c
    rw [← abs_of_pos hp, ← abs_mul, abs_of_pos hp, sub_mul, div_mul_cancel₀ _ hp.ne']
  -- the other number is a multiple of the spacing too
  have hdvd : ∃ i : ℕ, s = i * 2 ^ e := by
    obtain ⟨m, k, hm, rfl⟩ := wide_exists hs
    rcases Nat.lt_or_ge k e with hk | hk
    · exfalso
      have h7 := h5 (by omega)
      have h8 : m * 2 ^ k < 2 ^ (e + 52) := by
        calc m * 2 ^ k < 2 ^ 53 * 2 ^ k := Nat.mul_lt_mul_of_pos_right hm (by positivity)
          _ = 2 ^ (k + 53) := by rw [← pow_add, Nat.add_comm]
          _ ≤ 2 ^ (e + 52) := Nat.pow_le_pow_right (by norm_num) (by omega)
      have h9 : ((m * 2 ^ k : ℕ) : α) < 2 ^ (e + 52) := by exact_mod_cast h8
      have h10 := units_nearest h (2 ^ (e + 52)) ⟨2 ^ 52, e, by norm_num, by rw [pow_add]; push_cast; ring⟩
      rw [htie, abs_of_nonneg (by linarith), abs_of_nonneg (by linarith)] at h10
      linarith
    · exact ⟨m * 2 ^ (k - e), by rw [Nat.mul_assoc, ← pow_add, Nat.sub_add_cancel hk]⟩
  obtain ⟨i, rfl⟩ := hdvd
  rw [h1] at htie hne ⊢
  push_cast at htie
  rw [h6, h6] at htie
  have h7 := mul_right_cancel₀ hp.ne' htie
  have hin : (i : ℤ) ≠ n := fun h => hne (by have : i = n := by exact_mod_cast h
                                             rw [this])
  have h8 : (1 : α) ≤ |(n : α) - i| := by
    have : (1 : ℤ) ≤ |(n : ℤ) - i| := Int.one_le_abs (sub_ne_zero.mpr (Ne.symm hin))
    have : ((1 : ℤ) : α) ≤ ((|(n : ℤ) - i| : ℤ) : α) := by exact_mod_cast this
    push_cast at this
    exact this
  have h9 : |(n : α) - i| ≤ |t / 2 ^ e - n| + |t / 2 ^ e - i| := by
    rw [show (n : α) - i = -(t / 2 ^ e - n) + (t / 2 ^ e - i) by ring]
    exact (abs_add_le _ _).trans (by rw [abs_neg])
  have h10 : |t / 2 ^ e - n| = 1 / 2 := by rw [← h7] at h9; linarith
  have h11 : |(n : α) - i| = 1 := by rw [← h7, h10] at h9; linarith
  have h12 : |(n : ℤ) - i| = 1 := by
    have : ((|(n : ℤ) - i| : ℤ) : α) = ((1 : ℤ) : α) := by push_cast; exact h11
    exact_mod_cast this
  have h13 := hnear h10
  refine ⟨n / 2, e, ?_, ?_⟩
  · rw [Nat.mul_div_cancel' (by omega)]
  · push_cast
    rw [← sub_mul, abs_mul, h12, one_mul, abs_of_pos (by positivity)]

end

end B64

end Prexel
