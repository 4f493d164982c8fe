import Verif.Lemmas.Doubles
import Verif.Spec.Floats
/-!
# Operations on doubles; doubles satisfy the contracts of floating point numbers
-/

set_option linter.unusedVariables false

namespace Prexel.B64

theorem sign_fin (a : Bool) (k : ℕ) (h : Fits k) : (B64.fin a k h).sign = a := rfl

theorem add_fin {x y : B64} (hx : x.isFin) (hy : y.isFin) : add x y = of (x.sign && y.sign) (x.val + y.val) := by
  obtain ⟨a, k, hk, rfl⟩ := isFin_fin hx
  obtain ⟨b, j, hj, rfl⟩ := isFin_fin hy
  rfl

theorem neg_fin {x : B64} (hx : x.isFin) : (neg x).isFin ∧ (neg x).val = -x.val ∧ (neg x).sign = !x.sign := by
  obtain ⟨a, k, hk, rfl⟩ := isFin_fin hx
  refine ⟨⟨rfl, rfl⟩, ?_, rfl⟩
  cases a <;> simp [neg, val, neg_div]

theorem abs_fin {x : B64} (hx : x.isFin) : (abs x).isFin ∧ (abs x).val = |x.val| ∧ (abs x).sign = false := by
  have hu := perOne_pos
  obtain ⟨a, k, hk, rfl⟩ := isFin_fin hx
  refine ⟨⟨rfl, rfl⟩, ?_, rfl⟩
  have : (0 : ℚ) ≤ k / perOne := by positivity
  cases a
  · simp only [abs, val, Bool.false_eq_true, if_false]; rw [abs_of_nonneg this]
  · simp only [abs, val, if_true, Bool.false_eq_true, if_false, neg_div, abs_neg]; rw [abs_of_nonneg this]

theorem sub_fin {x y : B64} (hx : x.isFin) (hy : y.isFin) : sub x y = of (x.sign && !y.sign) (x.val - y.val) := by
  obtain ⟨h1, h2, h3⟩ := neg_fin hy
  unfold sub
  rw [add_fin hx h1, h2, h3, sub_eq_add_neg]

theorem mul_fin {x y : B64} (hx : x.isFin) (hy : y.isFin) : mul x y = of (x.sign ^^ y.sign) (x.val * y.val) := by
  obtain ⟨a, k, hk, rfl⟩ := isFin_fin hx
  obtain ⟨b, j, hj, rfl⟩ := isFin_fin hy
  rfl

theorem val_zero_iff (a : Bool) (k : ℕ) (h : Fits k) : (B64.fin a k h).val = 0 ↔ k = 0 := by
  have hu := perOne_pos
  rcases val_fin a k h with h1 | h1 <;> rw [h1] <;> simp [hu.ne']

theorem isZero_iff {x : B64} (hx : x.isFin) : x.isZero = true ↔ x.val = 0 := by
  obtain ⟨a, k, hk, rfl⟩ := isFin_fin hx
  rw [val_zero_iff]
  simp [isZero]

theorem div_fin {x y : B64} (hx : x.isFin) (hy : y.isFin) (h0 : y.val ≠ 0) : div x y = of (x.sign ^^ y.sign) (x.val / y.val) := by
  obtain ⟨a, k, hk, rfl⟩ := isFin_fin hx
  obtain ⟨b, j, hj, rfl⟩ := isFin_fin hy
  rw [Ne, val_zero_iff] at h0
  show (if j = 0 then _ else _) = _
  rw [if_neg h0]
  rfl

theorem rem_fin {x y : B64} (hx : x.isFin) (hy : y.isFin) (h0 : y.val ≠ 0) :
    rem x y = of x.sign (x.val - y.val * cut (x.val / y.val)) := by
  obtain ⟨a, k, hk, rfl⟩ := isFin_fin hx
  obtain ⟨b, j, hj, rfl⟩ := isFin_fin hy
  rw [Ne, val_zero_iff] at h0
  show (if j = 0 then _ else _) = _
  rw [if_neg h0]
  rfl

theorem whole_fin (g : ℚ → ℤ) {x : B64} (hx : x.isFin) : whole g x = of x.sign (g x.val : ℚ) := by
  obtain ⟨a, k, hk, rfl⟩ := isFin_fin hx
  rfl

theorem lt_fin {x y : B64} (hx : x.isFin) (hy : y.isFin) : lt x y = true ↔ x.val < y.val := by
  obtain ⟨a, k, hk, rfl⟩ := isFin_fin hx
  obtain ⟨b, j, hj, rfl⟩ := isFin_fin hy
  simp [lt]

theorem ge_fin {x y : B64} (hx : x.isFin) (hy : y.isFin) : ge x y = true ↔ y.val ≤ x.val := by
  have := lt_fin hx hy
  obtain ⟨a, k, hk, rfl⟩ := isFin_fin hx
  obtain ⟨b, j, hj, rfl⟩ := isFin_fin hy
  show (!lt _ _) = true ↔ _
  rw [← not_lt, ← this]
  simp

theorem sign_fin_neg {x : B64} (hx : x.isFin) (h : x.val < 0) : x.sign = true := by
  have hu := perOne_pos
  obtain ⟨a, k, hk, rfl⟩ := isFin_fin hx
  cases a
  · exfalso
    have : (0 : ℚ) ≤ k / perOne := by positivity
    simp only [val, Bool.false_eq_true, if_false] at h
    linarith
  · rfl

theorem sign_fin_pos {x : B64} (hx : x.isFin) (h : 0 < x.val) : x.sign = false := by
  have hu := perOne_pos
  obtain ⟨a, k, hk, rfl⟩ := isFin_fin hx
  cases a
  · rfl
  · exfalso
    have : (0 : ℚ) ≤ k / perOne := by positivity
    simp only [val, if_true, neg_div] at h
    linarith

/-- A whole number next to a double is a double. -/
theorem isDouble_next {q : ℚ} (h : IsDouble q) {n : ℤ} (hn : |q - n| < 1) : IsDouble n := by
  obtain ⟨m, e, h1, h2, h3, rfl⟩ := h
  rcases le_or_gt 0 e with he | he
  · obtain ⟨j, rfl⟩ := Int.eq_ofNat_of_zero_le he
    have h4 : |((m * 2 ^ j - n : ℤ) : ℚ)| < 1 := by push_cast; rw [← zpow_natCast]; exact hn
    have h5 : |m * 2 ^ j - n| < 1 := by exact_mod_cast h4
    have h6 : n = m * 2 ^ j := by have := abs_lt.mp h5; omega
    exact ⟨m, j, h1, h2, h3, by rw [h6]; push_cast; rfl⟩
  · apply isDouble_int
    have h4 : (2 : ℚ) ^ e ≤ 1 / 2 := by
      calc (2 : ℚ) ^ e ≤ 2 ^ (-1 : ℤ) := zpow_le_zpow_right₀ (by norm_num) (by omega)
        _ = 1 / 2 := by norm_num
    have h5 : (0 : ℚ) < 2 ^ e := zpow_pos (by norm_num) e
    have h6 : |((m : ℤ) : ℚ)| < 2 ^ 53 := by exact_mod_cast h1
    have h7 : |(m : ℚ) * 2 ^ e| ≤ 2 ^ 52 := by rw [abs_mul, abs_of_pos h5]; nlinarith [abs_nonneg (m : ℚ)]
    have h8 : |(n : ℚ)| ≤ 2 ^ 53 := by
      have : |(n : ℚ)| ≤ |(m : ℚ) * 2 ^ e| + |(m : ℚ) * 2 ^ e - n| := by
        have := abs_sub_abs_le_abs_sub (n : ℚ) (m * 2 ^ e)
        rw [abs_sub_comm] at this; linarith
      have : |(n : ℚ)| < 2 ^ 52 + 1 := by linarith
      norm_num at this ⊢; linarith
    exact_mod_cast h8

/-- So is the difference of the two, if it is at most a half. -/
theorem isDouble_dist {q : ℚ} (h : IsDouble q) {n : ℤ} (hn : |q - n| ≤ 1 / 2) : IsDouble (q - n) := by
  obtain ⟨m, e, h1, h2, h3, rfl⟩ := h
  rcases le_or_gt 0 e with he | he
  · obtain ⟨j, rfl⟩ := Int.eq_ofNat_of_zero_le he
    have h4 : |((m * 2 ^ j - n : ℤ) : ℚ)| < 1 := by push_cast; rw [← zpow_natCast]; linarith
    have h5 : |m * 2 ^ j - n| < 1 := by exact_mod_cast h4
    have h6 : m * 2 ^ j - n = 0 := by have := abs_lt.mp h5; omega
    have h7 : (m : ℚ) * 2 ^ (j : ℤ) - n = 0 := by
      have : ((m * 2 ^ j - n : ℤ) : ℚ) = 0 := by rw [h6]; rfl
      push_cast at this; rw [zpow_natCast]; exact this
    rw [h7]
    exact ⟨0, 0, by norm_num, by norm_num, by norm_num, by norm_num⟩
  · obtain ⟨j, hj⟩ : ∃ j : ℕ, e = -j := ⟨(-e).toNat, by omega⟩
    have h5 : (0 : ℚ) < 2 ^ e := zpow_pos (by norm_num) e
    have hj2 : (2 : ℚ) ^ e * 2 ^ j = 1 := by rw [hj, ← zpow_natCast, ← zpow_add₀ (by norm_num)]; simp
    by_cases hn0 : n = 0
    · subst hn0; simp only [Int.cast_zero, sub_zero]; exact ⟨m, e, h1, h2, h3, rfl⟩
    · have h6 : (1 : ℚ) / 2 ≤ |(m : ℚ) * 2 ^ e| := by
        have h7 : (1 : ℚ) ≤ |(n : ℚ)| := by
          have := Int.one_le_abs hn0
          have : ((1 : ℤ) : ℚ) ≤ ((|n| : ℤ) : ℚ) := by exact_mod_cast this
          push_cast at this; exact this
        have := abs_sub_abs_le_abs_sub (n : ℚ) (m * 2 ^ e)
        rw [abs_sub_comm] at this; linarith
      have h8 : (m : ℚ) * 2 ^ e - n = ((m - n * 2 ^ j : ℤ) : ℚ) * 2 ^ e := by
        push_cast; rw [sub_mul, mul_assoc, mul_comm (2 ^ j), hj2, mul_one]
      refine ⟨m - n * 2 ^ j, e, ?_, h2, h3, h8⟩
      have h9 : |((m - n * 2 ^ j : ℤ) : ℚ)| * 2 ^ e ≤ |((m : ℤ) : ℚ)| * 2 ^ e := by
        rw [← abs_of_pos h5, ← abs_mul, ← abs_mul, ← h8]; linarith
      have h10 := le_of_mul_le_mul_right h9 h5
      have h11 : |m - n * 2 ^ j| ≤ |m| := by exact_mod_cast h10
      omega

theorem of_sign_zero (a : Bool) : (of a (0 : ℚ)).val = 0 := by
  have := (of_fin a (q := 0) (double_small ⟨0, 0, by norm_num, by norm_num, by norm_num, by norm_num⟩)).2
  rwa [rnd_zero] at this

theorem floor_near (q : ℚ) : |q - ⌊q⌋| < 1 := by
  have h1 := Int.floor_le q
  have h2 := Int.lt_floor_add_one q
  rw [abs_lt]; constructor <;> linarith

theorem ceil_near (q : ℚ) : |q - ⌈q⌉| < 1 := by
  have h1 := Int.le_ceil q
  have h2 := Int.ceil_lt_add_one q
  rw [abs_lt]; constructor <;> linarith

theorem cut_near (q : ℚ) : |q - cut q| < 1 := by
  unfold cut; split
  · exact ceil_near q
  · exact floor_near q

theorem away_near (q : ℚ) : |q - awayFromZero q| ≤ 1 / 2 := by
  unfold awayFromZero
  split
  · have h1 := Int.le_ceil (q - 1 / 2)
    have h2 := Int.ceil_lt_add_one (q - 1 / 2)
    rw [abs_le]; constructor <;> linarith
  · have h1 := Int.floor_le (q + 1 / 2)
    have h2 := Int.lt_floor_add_one (q + 1 / 2)
    rw [abs_le]; constructor <;> linarith

theorem whole_exact (g : ℚ → ℤ) {x : B64} (hx : x.isFin) (h : |x.val - g x.val| < 1) : (whole g x).isFin ∧ (whole g x).val = g x.val := by
  rw [whole_fin g hx]
  exact of_double _ (isDouble_next (isDouble_val hx) h)

theorem lit_double {q : ℚ} (h : IsDouble q) : (lit q).isFin ∧ (lit q).val = q := of_double false h

variable (lib : Libm) (draw : B64)

theorem finite_isFin (x : B64) : (f64 lib draw).Finite x ↔ x.isFin := Iff.rfl

theorem error_val : (lit (1 / 10000000000)).isFin ∧ 0 < (lit (1 / 10000000000)).val ∧ (lit (1 / 10000000000)).val < 1 / 2 := by
  refine ⟨⟨?_, ?_⟩, ?_, ?_⟩ <;> decide +kernel

/-- `f64` satisfies the contract of rounding functions, whatever the platform's library does. -/
noncomputable def wholeContract : (f64 lib draw).Whole where
  val := val
  lt x y hx hy := lt_fin hx hy
  round x hx := by
    have h := away_near x.val
    obtain ⟨h1, h2⟩ := whole_exact awayFromZero hx (by linarith)
    exact ⟨h1, _, h2, (abs_le.mp h).1, (abs_le.mp h).2⟩
  distance x hx := by
    have hx : x.isFin := hx
    have h := away_near x.val
    obtain ⟨h1, h2⟩ := whole_exact awayFromZero hx (by linarith)
    have h3 : (sub x (whole awayFromZero x)).isFin ∧ (sub x (whole awayFromZero x)).val = x.val - awayFromZero x.val := by
      rw [sub_fin hx h1, h2]
      exact of_double _ (isDouble_dist (isDouble_val hx) h)
    obtain ⟨h4, h5, -⟩ := abs_fin h3.1
    refine ⟨h4, ?_⟩
    show (abs (sub x (whole awayFromZero x))).val = if x.val < (whole awayFromZero x).val then _ else _
    rw [h5, h3.2, h2]
    show _ = if _ then (whole awayFromZero x).val - _ else _ - (whole awayFromZero x).val
    rw [h2]
    split
    · rw [abs_of_neg (by linarith)]; ring
    · rw [abs_of_nonneg (by linarith)]
  floor x hx := by
    obtain ⟨h1, h2⟩ := whole_exact (fun q => ⌊q⌋) hx (floor_near _)
    exact ⟨h1, _, h2, Int.floor_le _, Int.lt_floor_add_one _⟩
  ceil x hx := by
    obtain ⟨h1, h2⟩ := whole_exact (fun q => ⌈q⌉) hx (ceil_near _)
    exact ⟨h1, _, h2, by have := Int.ceil_lt_add_one x.val; show (_ : ℚ) - 1 < x.val; linarith, Int.le_ceil _⟩
  error := error_val

/-- `f64` satisfies the contract of sums and products, whatever the platform's library does; `rand::random` draws from [0, 1). -/
noncomputable def roundsContract (hfin : draw.isFin) (h0 : 0 ≤ draw.val) (h1 : draw.val < 1) : (f64 lib draw).Rounds where
  val := val
  rnd := rnd
  mono a b h := rnd_mono h
  keep x hx := rnd_keep (isDouble_val hx)
  zero := rnd_zero
  lt x y hx hy := lt_fin hx hy
  sign x hx := ⟨fun h => sign_fin_neg hx h, fun h => sign_fin_pos hx h⟩
  mul x y z hx hy hz hp hle := by
    have hz : z.isFin := hz
    have hs : ¬ TooLarge (x.val * y.val) := small_between (isDouble_val hz) (by
      rw [abs_of_nonneg hp]; exact hle.trans (le_abs_self _))
    have := of_fin (x.sign ^^ y.sign) hs
    rw [← mul_fin hx hy] at this
    exact this
  add x y lo hi hx hy hlo hhi h2 h3 := by
    have hlo : lo.isFin := hlo
    have hhi : hi.isFin := hhi
    have hs : ¬ TooLarge (x.val + y.val) := by
      rcases le_total 0 (x.val + y.val) with h | h
      · exact small_between (isDouble_val hhi) (by rw [abs_of_nonneg h]; exact h3.trans (le_abs_self _))
      · exact small_between (isDouble_val hlo) (by
          rw [abs_of_nonpos h]
          have : -lo.val ≤ |lo.val| := neg_le_abs _
          have h2 : lo.val ≤ x.val + y.val := h2
          linarith)
    have := of_fin (x.sign && y.sign) hs
    rw [← add_fin hx hy] at this
    exact this
  draw := ⟨hfin, h0, h1⟩

end Prexel.B64
