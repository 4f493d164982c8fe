import Verif.Lemmas.Binary64
import Verif.Spec.Binary64
/-!
# Doubles and rounding to doubles
-/

set_option linter.unusedVariables false
set_option linter.unusedSectionVars false

namespace Prexel.B64

/-- Half the distance between the largest double and 2^1024, in units. -/
@[irreducible] def half : ℕ := 2 ^ 2044

theorem half_pos : 0 < half := by decide +kernel
theorem limit_eq : limit = 2 ^ 54 * half := by unfold limit half; rw [← Nat.pow_add]
theorem limit_eq' : limit = 2 ^ (2045 + 53) := by unfold limit; rfl
theorem perOne_pos : (0 : ℚ) < perOne := by unfold perOne; positivity

theorem max_eq : (2 ^ 54 - 2) * half = (2 ^ 53 - 1) * 2 ^ 2045 := by unfold half; decide +kernel

/-- Numbers with 53 digits below the limit are at most the largest double. -/
theorem wide_le {k : ℕ} (hk : Wide k) (h : k < limit) : k ≤ (2 ^ 54 - 2) * half := by
  obtain ⟨m, hm⟩ := hk
  have hs : spacing k ≤ 2045 := spacing_le (by rw [← limit_eq']; exact h)
  obtain ⟨m, e, h1, h2⟩ : ∃ m e, k = m * 2 ^ e ∧ m < 2 ^ 53 ∧ e ≤ 2045 := by
    refine ⟨m, spacing k, by rw [Nat.mul_comm]; exact hm, ?_, hs⟩
    have := lt_spacing k
    rw [Nat.pow_add] at this
    by_contra h1
    have : 2 ^ spacing k * 2 ^ 53 ≤ 2 ^ spacing k * m := Nat.mul_le_mul_left _ (by omega)
    omega
  rw [max_eq, h1]
  exact Nat.mul_le_mul (by omega) (Nat.pow_le_pow_right (by norm_num) h2.2)

theorem wide_max : Wide ((2 ^ 54 - 2) * half) := by
  rw [max_eq]
  exact wide_mul (by norm_num)

theorem wide_limit : Wide limit := by
  have := wide_mul (m := 1) (e := 2098) (by norm_num)
  rw [Nat.one_mul] at this
  unfold limit; exact this

section
variable {α : Type} [Field α] [LinearOrder α] [IsStrictOrderedRing α] [FloorRing α]

/-- Which numbers are rounded to finite ones. -/
theorem units_lt_limit {t : α} (h : 0 ≤ t) : units t < limit ↔ t < (2 ^ 54 - 1) * half := by
  have hmax := wide_max
  have hlim := wide_limit
  have hle := fun h => wide_le (units_wide (t := t) ‹_›) h
  rw [limit_eq] at *
  have hD : (0 : α) < half := by exact_mod_cast half_pos
  constructor
  · intro hlt
    have hle := hle hlt
    have h1 : ((units t : ℕ) : α) ≤ (2 ^ 54 - 2) * half := by
      have : ((units t : ℕ) : α) ≤ (((2 ^ 54 - 2) * half : ℕ) : α) := by exact_mod_cast hle
      refine this.trans (le_of_eq ?_)
      rw [Nat.cast_mul, Nat.cast_sub (by norm_num)]; push_cast; ring
    by_contra hge
    push Not at hge
    have h2 := units_near h hlim
    have hl : ((2 ^ 54 * half : ℕ) : α) = 2 ^ 54 * half := by push_cast; ring
    have h3 : t ≤ 2 ^ 54 * half := by
      by_contra hc
      push Not at hc
      have := units_mono (s := ((2 ^ 54 * half : ℕ) : α)) (t := t) (Nat.cast_nonneg _) (by rw [hl]; exact hc.le)
      rw [units_keep hlim] at this
      omega
    rw [hl, abs_of_nonneg (by nlinarith), abs_of_nonpos (by linarith)] at h2
    obtain ⟨k, e, hk1, hk2⟩ := units_tie h hlim (by omega) (by
      rw [hl, abs_of_nonneg (by nlinarith), abs_of_nonpos (by linarith)]; nlinarith)
    have h5 : ((units t : ℕ) : α) = (2 ^ 54 - 2) * half := by nlinarith
    have h6 : units t = (2 ^ 54 - 2) * half := by
      have : ((units t : ℕ) : α) = (((2 ^ 54 - 2) * half : ℕ) : α) := by
        rw [h5, Nat.cast_mul, Nat.cast_sub (by norm_num)]; push_cast; ring
      exact_mod_cast this
    rw [h6] at hk1 hk2
    have h7 : (2 : ℤ) ^ e = 2 * half := by
      rw [← hk2, abs_of_nonpos]
      · rw [Nat.cast_mul, Nat.cast_mul, Nat.cast_sub (by norm_num)]; push_cast; ring
      · rw [Nat.cast_mul, Nat.cast_mul, Nat.cast_sub (by norm_num)]; push_cast
        have : (0 : ℤ) < half := by exact_mod_cast half_pos
        linarith
    have h8 : (2 : ℕ) ^ e = 2 * half := by exact_mod_cast h7
    rw [h8] at hk1
    have hD' : (0 : ℕ) < half := half_pos
    have h9 : (2 ^ 54 - 2) = 2 * k * 2 := Nat.eq_of_mul_eq_mul_right hD' (by rw [hk1]; ring)
    omega
  · intro hlt
    by_contra hge
    push Not at hge
    have h1 : (2 : α) ^ 54 * half ≤ units t := by
      have : (((2 ^ 54 * half : ℕ)) : α) ≤ units t := by exact_mod_cast hge
      push_cast at this
      refine le_trans (le_of_eq ?_) this
      ring
    have h2 := units_near h hmax
    have h3 : (((2 ^ 54 - 2) * half : ℕ) : α) = (2 ^ 54 - 2) * half := by
      rw [Nat.cast_mul, Nat.cast_sub (by norm_num)]; push_cast; ring
    rw [h3, abs_of_nonpos (by nlinarith)] at h2
    rcases le_total t ((2 ^ 54 - 2) * half) with h4 | h4
    · rw [abs_of_nonpos (by linarith)] at h2; nlinarith
    · rw [abs_of_nonneg (by linarith)] at h2; nlinarith

end

theorem fits_iff {k : ℕ} : Fits k ↔ k < limit ∧ Wide k := Iff.rfl

/-- The numbers of the type are the numbers of the standard. -/
theorem isDouble_units {q : ℚ} : IsDouble q ↔ ∃ k : ℕ, Fits k ∧ (q = k / perOne ∨ q = -(k / perOne)) := by
  have hu := perOne_pos
  constructor
  · rintro ⟨m, e, hm, he1, he2, rfl⟩
    obtain ⟨j, hj⟩ : ∃ j : ℕ, e = j - 1074 := ⟨(e + 1074).toNat, by omega⟩
    have hj2 : j ≤ 2045 := by omega
    have hm : m.natAbs < 2 ^ 53 := by rw [Int.abs_eq_natAbs] at hm; exact_mod_cast hm
    refine ⟨m.natAbs * 2 ^ j, ⟨?_, wide_mul (by omega)⟩, ?_⟩
    · refine (Nat.mul_lt_mul_of_pos_right hm (by positivity)).trans_le ?_
      rw [limit_eq', ← Nat.pow_add]
      exact Nat.pow_le_pow_right (by norm_num) (by omega)
    · have h1 : (2 : ℚ) ^ e = 2 ^ j / perOne := by
        rw [hj, zpow_sub₀ (by norm_num)]; unfold perOne; push_cast; norm_cast
      rw [h1]
      rcases Int.natAbs_eq m with h | h
      · left; rw [Nat.cast_mul, ← Int.cast_natCast m.natAbs, ← h]; push_cast; ring
      · right
        have : (m : ℚ) = -(m.natAbs : ℚ) := by rw [← Int.cast_natCast, ← Int.cast_neg, ← h]
        rw [this]; push_cast; ring
  · rintro ⟨k, ⟨hk1, hk2⟩, h⟩
    obtain ⟨m, hm⟩ := hk2
    have hs : spacing k ≤ 2045 := spacing_le (by rw [← limit_eq']; exact hk1)
    have hm53 : m < 2 ^ 53 := by
      have := lt_spacing k
      rw [Nat.pow_add] at this
      by_contra h1
      have : 2 ^ spacing k * 2 ^ 53 ≤ 2 ^ spacing k * m := Nat.mul_le_mul_left _ (by omega)
      omega
    have h1 : (2 : ℚ) ^ ((spacing k : ℤ) - 1074) = 2 ^ spacing k / perOne := by
      rw [zpow_sub₀ (by norm_num)]; unfold perOne; push_cast; norm_cast
    have h2 : (k : ℚ) = m * 2 ^ spacing k := by
      have : (k : ℚ) = ((2 ^ spacing k * m : ℕ) : ℚ) := by rw [← hm]
      rw [this]; push_cast; ring
    rcases h with h | h
    · exact ⟨m, spacing k - 1074, by rw [abs_of_nonneg (by omega)]; omega, by omega, by omega, by rw [h1, h, h2]; push_cast; ring⟩
    · exact ⟨-m, spacing k - 1074, by rw [abs_neg, abs_of_nonneg (by omega)]; omega, by omega, by omega, by rw [h1, h, h2]; push_cast; ring⟩

theorem isFin_fin {x : B64} (h : x.isFin) : ∃ a k hk, x = .fin a k hk := by
  cases x with
  | nan => exact absurd h.1 (by simp [isNan])
  | inf a => exact absurd h.2 (by simp [isInf])
  | fin a k hk => exact ⟨a, k, hk, rfl⟩

theorem val_fin (a : Bool) (k : ℕ) (h : Fits k) : (B64.fin a k h).val = k / perOne ∨ (B64.fin a k h).val = -(k / perOne) := by
  cases a
  · left; simp [val]
  · right; simp [val, neg_div]

theorem isDouble_val {x : B64} (h : x.isFin) : IsDouble x.val := by
  obtain ⟨a, k, hk, rfl⟩ := isFin_fin h
  exact isDouble_units.mpr ⟨k, hk, val_fin a k hk⟩

/-- `TooLarge` in units. -/
theorem tooLarge_iff (q : ℚ) : TooLarge q ↔ ¬ |q| * perOne < (2 ^ 54 - 1) * half := by
  have hu := perOne_pos
  rw [not_lt, ← div_le_iff₀ hu]
  unfold TooLarge
  have : ((2 : ℚ) ^ 54 - 1) * half / perOne = 2 ^ 1024 - 2 ^ 970 := by
    rw [div_eq_iff hu.ne']
    unfold perOne half
    rw [Nat.cast_pow, Nat.cast_pow, Nat.cast_ofNat, sub_mul, sub_mul, ← pow_add, ← pow_add, ← pow_add, one_mul]
  rw [this]

end Prexel.B64

namespace Prexel.B64

/-- Rounding without a bound. -/
def rnd (q : ℚ) : ℚ := if q < 0 then -(units (-q * perOne) / perOne) else units (q * perOne) / perOne

theorem rnd_neg (q : ℚ) : rnd (-q) = -rnd q := by
  unfold rnd
  rcases lt_trichotomy q 0 with h | h | h
  · rw [if_neg (by linarith), if_pos h, neg_neg]
  · subst h; simp [units_zero]
  · rw [if_pos (by linarith), if_neg (by linarith), neg_neg]

theorem rnd_nonneg {q : ℚ} (h : 0 ≤ q) : rnd q = units (q * perOne) / perOne := by unfold rnd; rw [if_neg (not_lt.mpr h)]

theorem rnd_zero : rnd 0 = 0 := by rw [rnd_nonneg le_rfl, zero_mul, units_zero]; simp

theorem rnd_pos {q : ℚ} (h : 0 ≤ q) : 0 ≤ rnd q := by
  have := perOne_pos
  rw [rnd_nonneg h]; positivity

theorem rnd_mono {a b : ℚ} (h : a ≤ b) : rnd a ≤ rnd b := by
  have hu := perOne_pos
  have key : ∀ a b : ℚ, 0 ≤ a → a ≤ b → rnd a ≤ rnd b := by
    intro a b ha hab
    rw [rnd_nonneg ha, rnd_nonneg (ha.trans hab), div_le_div_iff_of_pos_right hu]
    exact_mod_cast units_mono (by positivity) (mul_le_mul_of_nonneg_right hab hu.le)
  rcases le_total 0 a with ha | ha
  · exact key a b ha h
  · rcases le_total 0 b with hb | hb
    · have h1 := rnd_pos (neg_nonneg.mpr ha)
      rw [rnd_neg] at h1
      have := rnd_pos hb
      linarith
    · have := key (-b) (-a) (by linarith) (by linarith)
      rw [rnd_neg, rnd_neg] at this
      linarith

theorem rnd_keep {q : ℚ} (h : IsDouble q) : rnd q = q := by
  have hu := perOne_pos
  obtain ⟨k, hk, rfl | rfl⟩ := isDouble_units.mp h
  · rw [rnd_nonneg (by positivity), div_mul_cancel₀ _ hu.ne', units_keep hk.2]
  · rw [rnd_neg, rnd_nonneg (by positivity), div_mul_cancel₀ _ hu.ne', units_keep hk.2]

theorem tooLarge_neg (q : ℚ) : TooLarge (-q) ↔ TooLarge q := by unfold TooLarge; rw [abs_neg]

theorem isDouble_neg {q : ℚ} : IsDouble (-q) ↔ IsDouble q := by
  have key : ∀ q, IsDouble q → IsDouble (-q) := by
    rintro q ⟨m, e, h1, h2, h3, h4⟩
    exact ⟨-m, e, by rwa [abs_neg], h2, h3, by rw [h4]; push_cast; ring⟩
  exact ⟨fun h => by simpa using key _ h, key q⟩

theorem nearest_neg {r q : ℚ} (h : NearestDouble r q) : NearestDouble (-r) (-q) := by
  obtain ⟨h1, h2⟩ := h
  refine ⟨isDouble_neg.mpr h1, fun s hs => ?_⟩
  obtain ⟨h3, h4⟩ := h2 (-s) (isDouble_neg.mpr hs)
  have e1 : |-q - -r| = |q - r| := by rw [← abs_neg]; congr 1; ring
  have e2 : |-q - s| = |q - -s| := by rw [← abs_neg]; congr 1; ring
  have e3 : |s - -r| = |-s - r| := by rw [← abs_neg]; congr 1; ring
  rw [e1, e2, e3]
  refine ⟨h3, fun ht hne => ?_⟩
  obtain ⟨k, hk⟩ := h4 ht (by intro h; apply hne; linarith)
  exact ⟨-k, by push_cast; linarith⟩

theorem fits_units {t : ℚ} (h : 0 ≤ t) (hl : t < (2 ^ 54 - 1) * (half : ℚ)) : Fits (units t) := ⟨(units_lt_limit h).mpr hl, units_wide h⟩

theorem nearest_pos {q : ℚ} (h0 : 0 ≤ q) (h : ¬ TooLarge q) : NearestDouble (rnd q) q := by
  have hu := perOne_pos
  rw [tooLarge_iff, not_not, abs_of_nonneg h0] at h
  have hq : 0 ≤ q * perOne := by positivity
  have hf := fits_units hq h
  have hr : rnd q = units (q * perOne) / perOne := rnd_nonneg h0
  have hdist : ∀ k : ℕ, |q - k / perOne| = |q * perOne - k| / perOne := by
    intro k
    rw [eq_div_iff hu.ne', ← abs_of_pos hu, ← abs_mul, abs_of_pos hu, sub_mul, div_mul_cancel₀ _ hu.ne']
  have key : ∀ j : ℕ, Fits j → |q - rnd q| ≤ |q - j / perOne| ∧
      (|q - rnd q| = |q - j / perOne| → (j / perOne : ℚ) ≠ rnd q → ∃ k : ℤ, rnd q = 2 * k * |(j / perOne : ℚ) - rnd q|) := by
    intro j hj
    rw [hr, hdist, hdist]
    refine ⟨by rw [div_le_div_iff_of_pos_right hu]; exact units_near hq hj.2, fun ht hne => ?_⟩
    have ht : |q * perOne - units (q * perOne)| = |q * perOne - j| := by
      field_simp at ht; exact ht
    have hne : j ≠ units (q * perOne) := by rintro rfl; exact hne rfl
    obtain ⟨k, e, h1, h2⟩ := units_tie hq hj.2 hne ht
    refine ⟨k, ?_⟩
    have h3 : |(j / perOne : ℚ) - units (q * perOne) / perOne| = 2 ^ e / perOne := by
      rw [← sub_div, abs_div, abs_of_pos hu, abs_sub_comm]
      congr 1
      have : (((|(units (q * perOne) : ℤ) - j| : ℤ)) : ℚ) = 2 ^ e := by rw [h2]; push_cast; rfl
      rw [← this]; push_cast; rfl
    rw [h3, h1]; push_cast; ring
  refine ⟨isDouble_units.mpr ⟨_, hf, .inl hr⟩, fun s hs => ?_⟩
  obtain ⟨j, hj, rfl | rfl⟩ := isDouble_units.mp hs
  · exact key j hj
  · rcases Nat.eq_zero_or_pos j with rfl | hj0
    · simpa using key 0 hj
    · have h1 := (key 0 ⟨by unfold limit; positivity, Nat.dvd_zero _⟩).1
      have h2 : (0 : ℚ) < j / perOne := by positivity
      have h3 : |q - -((j : ℚ) / perOne)| = q + j / perOne := by rw [abs_of_nonneg (by linarith)]; ring
      simp only [Nat.cast_zero, zero_div, sub_zero, abs_of_nonneg h0] at h1
      rw [h3]
      exact ⟨by linarith, fun h => by linarith⟩

theorem rnd_nearest {q : ℚ} (h : ¬ TooLarge q) : NearestDouble (rnd q) q := by
  rcases le_total 0 q with h0 | h0
  · exact nearest_pos h0 h
  · have := nearest_neg (nearest_pos (neg_nonneg.mpr h0) (by rwa [tooLarge_neg]))
    rwa [rnd_neg, neg_neg, neg_neg] at this

/-- What `of` gives for a number that is not too large. -/
theorem of_fin (a : Bool) {q : ℚ} (h : ¬ TooLarge q) : (of a q).isFin ∧ (of a q).val = rnd q := by
  have hu := perOne_pos
  rw [tooLarge_iff, not_not] at h
  unfold of
  rcases lt_trichotomy q 0 with h0 | h0 | h0
  · rw [if_pos h0]
    rw [abs_of_neg h0] at h
    have hf := fits_units (by nlinarith) h
    unfold round
    rw [dif_pos hf]
    refine ⟨⟨rfl, rfl⟩, ?_⟩
    show (if true = true then _ else _) / _ = _
    unfold rnd
    rw [if_pos rfl, if_pos h0, neg_div]
  · subst h0
    rw [if_neg (lt_irrefl _), if_neg (lt_irrefl _), rnd_zero]
    refine ⟨⟨rfl, rfl⟩, ?_⟩
    cases a <;> simp [zero, val]
  · rw [if_neg (by linarith), if_pos h0]
    rw [abs_of_pos h0] at h
    have hf := fits_units (by nlinarith) h
    unfold round
    rw [dif_pos hf]
    refine ⟨⟨rfl, rfl⟩, ?_⟩
    show (if false = true then _ else _) / _ = _
    unfold rnd
    rw [if_neg (by simp), if_neg (by linarith)]

/-- What `of` gives for a number that is too large. -/
theorem of_inf (a : Bool) {q : ℚ} (h : TooLarge q) : of a q = .inf (decide (q < 0)) := by
  have hu := perOne_pos
  rw [tooLarge_iff] at h
  unfold of
  rcases lt_trichotomy q 0 with h0 | h0 | h0
  · rw [if_pos h0]
    rw [abs_of_neg h0] at h
    unfold round
    rw [dif_neg (fun hf => h ((units_lt_limit (by nlinarith)).mp hf.1)), decide_eq_true h0]
  · subst h0
    exfalso
    apply h
    have := half_pos
    have : (0 : ℚ) < half := by exact_mod_cast this
    rw [abs_zero, zero_mul]
    nlinarith
  · rw [if_neg (by linarith), if_pos h0]
    rw [abs_of_pos h0] at h
    unfold round
    rw [dif_neg (fun hf => h ((units_lt_limit (by nlinarith)).mp hf.1)), decide_eq_false (by linarith)]

theorem of_sign (a : Bool) (q : ℚ) : (q < 0 → (of a q).sign = true) ∧ (0 < q → (of a q).sign = false) ∧ (q = 0 → (of a q).sign = a) := by
  have hr : ∀ b (t : ℚ), (round b t).sign = b := by
    intro b t; unfold round; split <;> rfl
  refine ⟨fun h => ?_, fun h => ?_, fun h => ?_⟩ <;> unfold of
  · rw [if_pos h, hr]
  · rw [if_neg (by linarith), if_pos h, hr]
  · subst h; rw [if_neg (lt_irrefl _), if_neg (lt_irrefl _)]; rfl

theorem double_small {q : ℚ} (h : IsDouble q) : ¬ TooLarge q := by
  have hu := perOne_pos
  rw [tooLarge_iff, not_not]
  have key : ∀ k : ℕ, Fits k → (k : ℚ) < (2 ^ 54 - 1) * half := by
    intro k hk
    have := (units_lt_limit (α := ℚ) (Nat.cast_nonneg k)).mp (by rw [units_keep hk.2]; exact hk.1)
    exact this
  obtain ⟨k, hk, rfl | rfl⟩ := isDouble_units.mp h
  · rw [abs_of_nonneg (by positivity), div_mul_cancel₀ _ hu.ne']; exact key k hk
  · rw [abs_neg, abs_of_nonneg (by positivity), div_mul_cancel₀ _ hu.ne']; exact key k hk

/-- Numbers between doubles are not too large. -/
theorem small_between {q hi : ℚ} (h : IsDouble hi) (hq : |q| ≤ |hi|) : ¬ TooLarge q := by
  have := double_small h
  unfold TooLarge at *
  intro h1
  exact this (h1.trans hq)

/-- A double stays. -/
theorem of_double (a : Bool) {q : ℚ} (h : IsDouble q) : (of a q).isFin ∧ (of a q).val = q := by
  obtain ⟨h1, h2⟩ := of_fin a (double_small h)
  exact ⟨h1, by rw [h2, rnd_keep h]⟩

/-- Whole numbers up to 2^53 are doubles. -/
theorem isDouble_int {n : ℤ} (h : |n| ≤ 2 ^ 53) : IsDouble n := by
  by_cases h1 : |n| < 2 ^ 53
  · exact ⟨n, 0, h1, by norm_num, by norm_num, by simp⟩
  · have h2 : |n| = 2 ^ 53 := by omega
    rcases (abs_eq (by norm_num)).mp h2 with rfl | rfl
    · exact ⟨2 ^ 52, 1, by norm_num, by norm_num, by norm_num, by norm_num⟩
    · exact ⟨-2 ^ 52, 1, by norm_num, by norm_num, by norm_num, by norm_num⟩

/-- Two doubles with the same value and sign are the same. -/
theorem eq_of_val {x y : B64} (hx : x.isFin) (hy : y.isFin) (hv : x.val = y.val) (hs : x.sign = y.sign) : x = y := by
  have hu := perOne_pos
  obtain ⟨a, k, hk, rfl⟩ := isFin_fin hx
  obtain ⟨b, j, hj, rfl⟩ := isFin_fin hy
  have hs : a = b := hs
  subst hs
  have : k = j := by
    cases a <;> simp only [val, if_true, if_false, Bool.false_eq_true] at hv <;> field_simp at hv
    · exact_mod_cast hv
    · have : (k : ℚ) = j := by linarith
      exact_mod_cast this
  subst this
  rfl

end Prexel.B64
