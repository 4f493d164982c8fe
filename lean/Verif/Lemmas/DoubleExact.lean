import Verif.Lemmas.DoubleText
import Verif.Spec.Places
/-!
# Fifteen digits

A decimal with at most 15 digits can be recovered from the double nearest to it, and this is what printing does.
-/

namespace Prexel.B64

/-- Two numbers that are rounded to the same double are near to each other. -/
theorem units_same {a b P : ℚ} (hP : 8 ≤ P) (ha : 0 ≤ a) (hb : 0 ≤ b) (h : units a = units b) (hb' : b < 10 ^ 15 * P) :
    |(units b : ℚ) - b| < P / 4 ∧ |a - b| < P / 2 := by
  have e1 := units_error hb
  have e2 := units_error ha
  rw [h] at e2
  generalize (units b : ℚ) = k at e1 e2 ⊢
  have h2 : (2 : ℚ) ^ 53 = 9007199254740992 := by norm_num
  rw [h2] at e1 e2
  have h1 : |b - k| < P / 8 := by
    rcases e1 with e | e
    · linarith [show P / 8 ≥ 1 by linarith]
    · have : b / 9007199254740992 < P / 8 := by
        rw [div_lt_iff₀ (by norm_num)]; norm_num at hb'; linarith
      linarith
  have h1' := abs_lt.1 h1
  have h3 : |a - k| < P / 8 := by
    rcases e2 with e | e
    · linarith [show P / 8 ≥ 1 by linarith]
    · have e' := abs_le.1 e
      have : a / 9007199254740992 < P / 8 := by
        rw [div_lt_iff₀ (by norm_num)]
        have : a - k ≤ a / 9007199254740992 := e'.2
        rw [le_div_iff₀ (by norm_num)] at this
        norm_num at hb'
        linarith
      linarith
  have h3' := abs_lt.1 h3
  exact ⟨by rw [abs_sub_comm]; linarith, abs_lt.2 ⟨by linarith, by linarith⟩⟩

/-- The digits of `c * 10^p` are found at position `p`. -/
theorem candidate_exact {k c : ℕ} {p : ℤ} (hc : c < 10 ^ 15) (hp : 8 ≤ (10 : ℚ) ^ p * perOne) (hk : units ((c : ℚ) * 10 ^ p * perOne) = k) :
    candidate k ((k : ℚ) / perOne) p = some c := by
  have h10 : (0 : ℚ) < 10 ^ p := zpow_pos (by norm_num) _
  have h1 := perOne_pos
  have hlt : (c : ℚ) * 10 ^ p * perOne < 10 ^ 15 * ((10 : ℚ) ^ p * perOne) := by
    rw [mul_assoc]; exact mul_lt_mul_of_pos_right (by exact_mod_cast hc) (by positivity)
  have key := (units_same hp (a := (c : ℚ) * 10 ^ p * perOne) (by positivity) (by positivity) rfl hlt).1
  rw [hk] at key
  have near : |(k : ℚ) / perOne / 10 ^ p - c| < 1 / 4 := by
    have e : (k : ℚ) / perOne / 10 ^ p - c = ((k : ℚ) - c * 10 ^ p * perOne) / (10 ^ p * perOne) := by field_simp
    rw [e, abs_div, abs_of_pos (by positivity : (0 : ℚ) < 10 ^ p * perOne), div_lt_iff₀ (by positivity)]
    linarith
  have near' := abs_lt.1 near
  unfold candidate
  simp only
  generalize (k : ℚ) / perOne / 10 ^ p = w at near' ⊢
  have hf1 := Int.floor_le w
  have hf2 := Int.lt_floor_add_one w
  by_cases hw : (c : ℚ) ≤ w
  · have e : ⌊w⌋ = (c : ℤ) := by rw [Int.floor_eq_iff]; push_cast; constructor <;> linarith
    rw [e, Int.toNat_natCast, if_pos hk, if_neg (by intro h; linarith [h.2])]
  · push Not at hw
    by_cases h0 : c = 0
    · subst h0
      have e : ⌊w⌋ = -1 := by rw [Int.floor_eq_iff]; push_cast at *; constructor <;> linarith
      rw [e]
      simp only [show (-1 : ℤ).toNat = 0 from rfl]
      rw [if_pos hk, if_neg]
      rintro ⟨-, h⟩; push_cast at *; linarith
    · have e : ⌊w⌋ = (c : ℤ) - 1 := by rw [Int.floor_eq_iff]; push_cast; constructor <;> linarith
      have e' : ⌊w⌋.toNat + 1 = c := by rw [e]; omega
      have e'' : (⌊w⌋.toNat : ℚ) = c - 1 := by
        have : ((⌊w⌋.toNat + 1 : ℕ) : ℚ) = c := by rw [e']
        push_cast at this; linarith
      rw [e']
      split_ifs with a b
      · rfl
      · exact absurd ⟨hk, by rw [e'']; linarith⟩ b
      · rfl

theorem shortest_exact {k c : ℕ} {p : ℤ} (hc : c < 10 ^ 15) (hp : 8 ≤ (10 : ℚ) ^ p * perOne) (hk : units ((c : ℚ) * 10 ^ p * perOne) = k)
    (n : ℕ) : ∀ j : ℤ, p ≤ j → j - p < n →
      p ≤ (shortest k ((k : ℚ) / perOne) n j).2 ∧
      ((shortest k ((k : ℚ) / perOne) n j).1 : ℚ) * 10 ^ (shortest k ((k : ℚ) / perOne) n j).2 = c * 10 ^ p := by
  have h10 : (0 : ℚ) < 10 ^ p := zpow_pos (by norm_num) _
  have h1 := perOne_pos
  have hlt : (c : ℚ) * 10 ^ p * perOne < 10 ^ 15 * ((10 : ℚ) ^ p * perOne) := by
    rw [mul_assoc]; exact mul_lt_mul_of_pos_right (by exact_mod_cast hc) (by positivity)
  induction n with
  | zero => intro j h1 h2; simp at h2; omega
  | succ n ih =>
    intro j hj hn
    cases hd : candidate k ((k : ℚ) / perOne) j with
    | none =>
      have hne : j ≠ p := by rintro rfl; rw [candidate_exact hc hp hk] at hd; cases hd
      simp only [shortest, hd]
      exact ih (j - 1) (by omega) (by push_cast at hn; omega)
    | some d =>
      simp only [shortest, hd]
      refine ⟨hj, ?_⟩
      have hr := candidate_reads hd
      have hj10 : (0 : ℚ) < 10 ^ j := zpow_pos (by norm_num) _
      have key := (units_same hp (a := (d : ℚ) * 10 ^ j * perOne) (b := (c : ℚ) * 10 ^ p * perOne) (by positivity) (by positivity) (hr.trans hk.symm) hlt).2
      have e : (10 : ℚ) ^ j = 10 ^ (j - p).toNat * 10 ^ p := by
        rw [← zpow_natCast, ← zpow_add₀ (by norm_num), Int.toNat_of_nonneg (by omega)]; congr 1; ring
      have e2 : (d : ℚ) * 10 ^ j * perOne - c * 10 ^ p * perOne = (((d * 10 ^ (j - p).toNat : ℕ) : ℤ) - (c : ℤ) : ℤ) * (10 ^ p * perOne) := by
        rw [e]; push_cast; ring
      rw [e2, abs_mul, abs_of_pos (by positivity : (0 : ℚ) < 10 ^ p * perOne)] at key
      have hP : (0 : ℚ) < 10 ^ p * perOne := by positivity
      have hlt1 : |((((d * 10 ^ (j - p).toNat : ℕ) : ℤ) - (c : ℤ) : ℤ) : ℚ)| < 1 := by
        by_contra hcon
        push Not at hcon
        nlinarith
      have hz : ((d * 10 ^ (j - p).toNat : ℕ) : ℤ) - (c : ℤ) = 0 := by
        have : |((d * 10 ^ (j - p).toNat : ℕ) : ℤ) - (c : ℤ)| < 1 := by exact_mod_cast hlt1
        exact Int.abs_lt_one_iff.1 this
      have hz' : d * 10 ^ (j - p).toNat = c := by omega
      rw [e, ← hz']; push_cast; ring

theorem pointed_places {s : Str} (hs : ∀ c ∈ s, '0' ≤ c ∧ c ≤ '9') {n : ℕ} (hn : n ≠ 0) : WrittenPlaces (pointed s n) (digitsValue s) n := by
  unfold pointed
  set w := List.replicate (n + 1 - s.length) '0' ++ s with hw
  have hl : n + 1 ≤ w.length := by rw [hw]; simp; omega
  have hd : ∀ c ∈ w, '0' ≤ c ∧ c ≤ '9' := by
    intro c hc
    rcases List.mem_append.mp hc with h | h
    · exact zeros_digit _ c h
    · exact hs c h
  have hv : digitsValue w = digitsValue s := by rw [hw, digitsValue_append, digitsValue_zeros]; simp
  have hdrop : (w.drop (w.length - n)).length = n := by simp; omega
  have := WrittenPlaces.pointed (a := w.take (w.length - n)) (b := w.drop (w.length - n))
    ⟨by rw [ne_eq, List.take_eq_nil_iff]; intro h; rcases h with h | h; · omega
        · rw [h] at hl; simp at hl, fun c hc => hd c (List.mem_of_mem_take hc)⟩
    ⟨by intro h; rw [h] at hdrop; exact hn hdrop.symm, fun c hc => hd c (List.mem_of_mem_drop hc)⟩
  rwa [List.take_append_drop, hdrop, hv] at this

theorem plain_places (d : ℕ) (j : ℤ) : WrittenPlaces (plain d j) (d * 10 ^ j.toNat) (-j).toNat := by
  unfold plain
  split
  · rename_i hj
    have h := WrittenPlaces.whole (digits_append (toDigits_digits d) (zeros_digit j.toNat))
    rw [digitsValue_append, toDigits_value, digitsValue_zeros] at h
    simp only [List.length_replicate, add_zero] at h
    rwa [show (-j).toNat = 0 by omega]
  · rename_i hj
    have h := pointed_places (toDigits_digits d).2 (n := (-j).toNat) (by omega)
    rw [toDigits_value] at h
    rwa [show j.toNat = 0 by omega, pow_zero, mul_one]

theorem power_bound : (10 : ℚ) ^ 305 ≤ 2 ^ 46 * 2 ^ 970 := by
  have : (10 : ℕ) ^ 305 ≤ 2 ^ 46 * 2 ^ 970 := by decide +kernel
  exact_mod_cast this

/-- A decimal of this size is not too large for a double. -/
theorem small_power {c : ℕ} {p : ℤ} (hc : c < 10 ^ 15) (hp : p ≤ 290) : ¬ TooLarge ((c : ℚ) * 10 ^ p) := by
  have h10 : (0 : ℚ) < 10 ^ p := zpow_pos (by norm_num) _
  refine small_between (hi := ((2 ^ 46 : ℤ) : ℚ) * 2 ^ (970 : ℤ)) ⟨2 ^ 46, 970, by norm_num, by norm_num, by norm_num, rfl⟩ ?_
  rw [abs_of_nonneg (by positivity), abs_of_nonneg (mul_nonneg (by norm_num) (zpow_nonneg (by norm_num) _))]
  have h1 : (10 : ℚ) ^ p ≤ 10 ^ (290 : ℕ) := by
    rw [← zpow_natCast]; exact zpow_le_zpow_right₀ (by norm_num) (by exact_mod_cast hp)
  have h2 : (c : ℚ) ≤ 10 ^ 15 := by exact_mod_cast hc.le
  have h3 : (c : ℚ) * 10 ^ p ≤ 10 ^ 15 * 10 ^ 290 := mul_le_mul h2 h1 h10.le (by positivity)
  have h4 := power_bound
  rw [show (305 : ℕ) = 15 + 290 from rfl, pow_add] at h4
  have h5 : (2 : ℚ) ^ (970 : ℤ) = 2 ^ 970 := zpow_natCast _ 970
  rw [h5]
  push_cast
  exact h3.trans h4


/-- The text of the double nearest to a decimal of at most 15 digits: the same number. -/
theorem digitsOf_exact {k c : ℕ} {p : ℤ} (hc : c < 10 ^ 15) (hp : 8 ≤ (10 : ℚ) ^ p * perOne) (hp' : -1000 ≤ p ∧ p ≤ 290)
    (hk : units ((c : ℚ) * 10 ^ p * perOne) = k) : ∃ d j, digitsOf k = plain d j ∧ min p 0 ≤ j ∧ (d : ℚ) * 10 ^ j = c * 10 ^ p := by
  by_cases h0 : k = 0
  · have hc0 : c = 0 := by
      by_contra hne
      have h1 : (1 : ℚ) ≤ c := by exact_mod_cast Nat.one_le_iff_ne_zero.2 hne
      have h3 := perOne_pos
      have h10 : (0 : ℚ) < 10 ^ p := zpow_pos (by norm_num) _
      have h2 : ((1 : ℕ) : ℚ) ≤ (c : ℚ) * 10 ^ p * perOne := by
        have : (c : ℚ) * 10 ^ p * perOne = c * (10 ^ p * perOne) := by ring
        push_cast; rw [this]; nlinarith
      have := units_mono (by norm_num) h2
      rw [hk, h0, units_keep (show Wide 1 by unfold Wide spacing; decide)] at this
      omega
    subst h0 hc0
    refine ⟨0, 0, ?_, by omega, by simp⟩
    unfold digitsOf; rw [if_pos rfl]; decide +kernel
  · have key := shortest_exact hc hp hk 1383 309 (by omega) (by push_cast; omega)
    unfold digitsOf
    rw [if_neg h0]
    generalize shortest k ((k : ℚ) / perOne) 1383 309 = q at key ⊢
    obtain ⟨d, j⟩ := q
    simp only at key ⊢
    exact ⟨d, j, rfl, by omega, key.2⟩

theorem toStr_exact (neg : Bool) {c : ℕ} {p : ℤ} (hc : c < 10 ^ 15) (hp : 8 ≤ (10 : ℚ) ^ p * perOne) (hp' : -1000 ≤ p ∧ p ≤ 290) :
    ∃ d j, toStr (of neg (if neg then -((c : ℚ) * 10 ^ p) else c * 10 ^ p)) = (if neg then ['-'] else []) ++ plain d j ∧ min p 0 ≤ j ∧
      (d : ℚ) * 10 ^ j = c * 10 ^ p := by
  have h3 := perOne_pos
  have h10 : (0 : ℚ) < 10 ^ p := zpow_pos (by norm_num) _
  have hfit : Fits (units ((c : ℚ) * 10 ^ p * perOne)) := by
    refine fits_units (by positivity) ?_
    have := small_power hc hp'.2
    rw [tooLarge_iff, not_not, abs_of_nonneg (by positivity)] at this
    exact this
  obtain ⟨d, j, h1, h2, h3⟩ := digitsOf_exact hc hp hp' rfl
  refine ⟨d, j, ?_, h2, h3⟩
  have hof : of neg (if neg then -((c : ℚ) * 10 ^ p) else c * 10 ^ p) = .fin neg _ hfit := by
    by_cases hz : (c : ℚ) * 10 ^ p = 0
    · have e : units ((c : ℚ) * 10 ^ p * perOne) = 0 := by rw [hz, zero_mul, units_zero]
      have : of neg (if neg then -((c : ℚ) * 10 ^ p) else c * 10 ^ p) = zero neg := by
        rw [hz]; cases neg <;> simp [of]
      rw [this]
      unfold zero
      congr 1
      exact e.symm
    · have hpos : 0 < (c : ℚ) * 10 ^ p := lt_of_le_of_ne (by positivity) (Ne.symm hz)
      cases neg with
      | false =>
        simp only [of, Bool.false_eq_true, if_false]
        rw [if_neg (not_lt.2 hpos.le), if_pos hpos, round, dif_pos hfit]
      | true =>
        simp only [of, if_true]
        rw [if_pos (by linarith), neg_neg, round, dif_pos hfit]
  rw [hof]
  cases neg with
  | false => rw [toStr_pos, h1]; rfl
  | true => rw [toStr_neg, h1]; rfl

end Prexel.B64
