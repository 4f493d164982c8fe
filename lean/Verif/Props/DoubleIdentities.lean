import Verif.Props.DoubleRealPowers
/-!
# Identities of sine and cosine over `f64` (C172)
-/

namespace Prexel
open B64

section
variable {K : Keys} {debug docs : Bool} {lib : Libm} {draw : B64} {ctx : Ctx B64}

/-- Sine and cosine are 1.5e-10 from the real ones. -/
theorem sine_cosine_near (A : lib.Circular) (h : BuiltIn K debug docs (f64 lib draw) ((f64 lib draw).num B64.num) ctx) (x : B64) (hx : x.isFin)
    (h7 : |x.val| ≤ 10 ^ 7) :
    (∃ y, evalTokens ctx (callTokens (str "sin") [x]) = .ok y ∧ y.isFin ∧ |(y.val : ℝ) - Real.sin (degrees x.val)| ≤ 15 / 10 ^ 11) ∧
    (∃ y, evalTokens ctx (callTokens (str "cos") [x]) = .ok y ∧ y.isFin ∧ |(y.val : ℝ) - Real.cos (degrees x.val)| ≤ 15 / 10 ^ 11) := by
  obtain ⟨⟨y, y1, y2, y3, -⟩, ⟨z, z1, z2, z3, -⟩⟩ := C162_sine A h x hx h7
  have hv : |(x.val : ℝ)| ≤ 10 ^ 7 := by
    have : ((|x.val| : ℚ) : ℝ) ≤ ((10 ^ 7 : ℚ) : ℝ) := Rat.cast_le.mpr h7
    rw [Rat.cast_abs] at this
    push_cast at this
    exact this
  have he : |(x.val : ℝ)| * (3 / 10 ^ 18) + 3 / 10 ^ 16 ≤ 31 / 10 ^ 12 := by
    have h5 := mul_le_mul_of_nonneg_right hv (by norm_num : (0 : ℝ) ≤ 3 / 10 ^ 18)
    refine (add_le_add_left h5 _).trans (by norm_num)
  refine ⟨⟨y, y1, y2, ?_⟩, ⟨z, z1, z2, ?_⟩⟩
  · rcases y3 with h | ⟨n, -, h⟩
    · exact h.trans (he.trans (by norm_num))
    · exact h.trans ((add_le_add_left he _).trans (by norm_num))
  · rcases z3 with h | ⟨n, -, h⟩
    · exact h.trans (he.trans (by norm_num))
    · exact h.trans ((add_le_add_left he _).trans (by norm_num))

/-- C172: the squares of sine and cosine add up to one. -/
theorem C172_squares (A : lib.Circular) (h : BuiltIn K debug docs (f64 lib draw) ((f64 lib draw).num B64.num) ctx) (x : B64) (hx : x.isFin)
    (h7 : |x.val| ≤ 10 ^ 7) :
    ∃ s c r, evalTokens ctx (callTokens (str "sin") [x]) = .ok s ∧ evalTokens ctx (callTokens (str "cos") [x]) = .ok c ∧
      evalTokens ctx (Arith.bin .add (.bin .mul (.num s) (.num s)) (.bin .mul (.num c) (.num c))).tokens = .ok r ∧ r.isFin ∧
      |(r.val : ℝ) - 1| ≤ 7 / 10 ^ 10 := by
  obtain ⟨⟨s, s1, s2, s3⟩, ⟨c, c1, c2, c3⟩⟩ := sine_cosine_near A h x hx h7
  refine ⟨s, c, _, s1, c1, double_tree h _, ?_⟩
  have pyth := Real.sin_sq_add_cos_sq (degrees x.val)
  have sb := Real.abs_sin_le_one (degrees x.val)
  have cb := Real.abs_cos_le_one (degrees x.val)
  generalize Real.sin (degrees x.val) = p at *
  generalize Real.cos (degrees x.val) = q at *
  have near : ∀ (s : B64) (p : ℝ), s.isFin → |p| ≤ 1 → |(s.val : ℝ) - p| ≤ 15 / 10 ^ 11 →
      (B64.mul s s).isFin ∧ |((B64.mul s s).val : ℝ) - p ^ 2| ≤ 31 / 10 ^ 11 ∧ |((B64.mul s s).val : ℝ)| ≤ 2 := by
    intro s p hs hp hn
    have hs2 : |(s.val : ℝ)| ≤ 1 + 15 / 10 ^ 11 := by
      have := abs_sub_abs_le_abs_sub (s.val : ℝ) p
      linarith
    have e1 : |(s.val : ℝ) * s.val - p ^ 2| ≤ 301 / 10 ^ 12 := by
      rw [show (s.val : ℝ) * s.val - p ^ 2 = (s.val - p) * (s.val + p) by ring, abs_mul]
      have : |(s.val : ℝ) + p| ≤ 2 + 15 / 10 ^ 11 := (abs_add_le _ _).trans (by linarith)
      exact (mul_le_mul hn this (abs_nonneg _) (by norm_num)).trans (by norm_num)
    have e2 : |(s.val : ℝ) * s.val| ≤ 1 + 31 / 10 ^ 11 := by
      rw [abs_mul]
      exact (mul_le_mul hs2 hs2 (abs_nonneg _) (by norm_num)).trans (by norm_num)
    have bigq : |s.val * s.val| ≤ 2 := by
      have : ((|s.val * s.val| : ℚ) : ℝ) ≤ ((2 : ℚ) : ℝ) := by
        rw [Rat.cast_abs]
        push_cast
        linarith
      exact Rat.cast_le.mp this
    have bigq' : |s.val * s.val| ≤ 2 ^ 1000 := bigq.trans (le_trans (by norm_num : (2 : ℚ) ≤ 2 ^ 1) (pow_le_pow_right₀ (by norm_num) (by norm_num)))
    obtain ⟨f1, f2⟩ := of_fin (s.sign ^^ s.sign) (notLarge bigq')
    have hm := cast_near (rnd_moves bigq')
    push_cast at hm
    rw [mul_fin hs hs]
    refine ⟨f1, ?_⟩
    rw [f2]
    have tiny : (1 : ℝ) / 2 ^ 1022 ≤ 1 / 2 ^ 100 :=
      one_div_le_one_div_of_le (by positivity) (pow_le_pow_right₀ (by norm_num) (by norm_num))
    generalize (1 : ℝ) / 2 ^ 1022 = w at *
    have e3 := abs_sub_le ((rnd (s.val * s.val) : ℚ) : ℝ) (s.val * s.val) (p ^ 2)
    have e4 := abs_sub_abs_le_abs_sub ((rnd (s.val * s.val) : ℚ) : ℝ) (s.val * s.val)
    clear bigq bigq' f1 f2
    norm_num at hm tiny e1 e2 e3 e4 ⊢
    constructor <;> linarith
  obtain ⟨m1, m2, m3⟩ := near s p s2 sb s3
  obtain ⟨n1, n2, n3⟩ := near c q c2 cb c3
  show (B64.add (B64.mul s s) (B64.mul c c)).isFin ∧ |((B64.add (B64.mul s s) (B64.mul c c)).val : ℝ) - 1| ≤ _
  generalize B64.mul s s = u at *
  generalize B64.mul c c = v at *
  have e2 : |(u.val : ℝ) + v.val| ≤ 4 := (abs_add_le _ _).trans (by linarith)
  have bigq : |u.val + v.val| ≤ 4 := by
    have : ((|u.val + v.val| : ℚ) : ℝ) ≤ ((4 : ℚ) : ℝ) := by
      rw [Rat.cast_abs]
      push_cast
      exact e2
    exact Rat.cast_le.mp this
  have bigq' : |u.val + v.val| ≤ 2 ^ 1000 := bigq.trans (le_trans (by norm_num : (4 : ℚ) ≤ 2 ^ 2) (pow_le_pow_right₀ (by norm_num) (by norm_num)))
  obtain ⟨f1, f2⟩ := of_fin (u.sign && v.sign) (notLarge bigq')
  have hm := cast_near (rnd_moves bigq')
  push_cast at hm
  rw [add_fin m1 n1]
  refine ⟨f1, ?_⟩
  rw [f2]
  have tiny : (1 : ℝ) / 2 ^ 1022 ≤ 1 / 2 ^ 100 :=
    one_div_le_one_div_of_le (by positivity) (pow_le_pow_right₀ (by norm_num) (by norm_num))
  generalize (1 : ℝ) / 2 ^ 1022 = w at *
  have e3 := abs_sub_le ((rnd (u.val + v.val) : ℚ) : ℝ) (u.val + v.val) 1
  have e4 : |(u.val : ℝ) + v.val - 1| ≤ 62 / 10 ^ 11 := by
    rw [← pyth, show (u.val : ℝ) + v.val - (p ^ 2 + q ^ 2) = (u.val - p ^ 2) + (v.val - q ^ 2) by ring]
    exact (abs_add_le _ _).trans (by linarith)
  clear bigq bigq' f1 f2 near
  norm_num at hm tiny e2 e3 e4 ⊢
  linarith

/-- Sums with one rounding, in degrees. -/
theorem angle_rounded {q : ℚ} (h : |q| ≤ 10 ^ 7) :
    |degrees (rnd q) - degrees q| ≤ 2 / 10 ^ 11 ∧ |rnd q| ≤ 10 ^ 7 ∧ ¬ TooLarge q := by
  have big : |q| ≤ 2 ^ 1000 := h.trans (le_trans (by norm_num : (10 : ℚ) ^ 7 ≤ 2 ^ 24) (pow_le_pow_right₀ (by norm_num) (by norm_num)))
  have hm := cast_near (rnd_moves big)
  push_cast at hm
  have hr : |(q : ℝ)| ≤ 10 ^ 7 := by
    have : ((|q| : ℚ) : ℝ) ≤ ((10 ^ 7 : ℚ) : ℝ) := Rat.cast_le.mpr h
    rw [Rat.cast_abs] at this
    push_cast at this
    exact this
  have tiny : (1 : ℝ) / 2 ^ 1022 ≤ 1 / 2 ^ 100 :=
    one_div_le_one_div_of_le (by positivity) (pow_le_pow_right₀ (by norm_num) (by norm_num))
  have d : |((rnd q : ℚ) : ℝ) - q| ≤ 1121 / 10 ^ 12 := by
    generalize (1 : ℝ) / 2 ^ 1022 = w at *
    norm_num at hm tiny hr ⊢
    linarith
  refine ⟨?_, ?_, notLarge big⟩
  · obtain ⟨p1, p2⟩ := pi_bounds
    unfold degrees
    rw [← sub_div, ← sub_mul, abs_div, abs_mul, abs_of_pos Real.pi_pos, abs_of_pos (by norm_num : (0 : ℝ) < 180), div_le_iff₀ (by norm_num)]
    refine (mul_le_mul d p2 Real.pi_pos.le (by norm_num)).trans (by norm_num)
  · have hd : IsDouble (10 ^ 7) := by
      have := isDouble_int (n := 10 ^ 7) (by norm_num)
      push_cast at this
      exact this
    rw [abs_le] at h ⊢
    have hn : IsDouble (-(10 ^ 7)) := by
      have := isDouble_int (n := -(10 ^ 7)) (by norm_num)
      push_cast at this
      exact this
    exact ⟨by have := rnd_mono h.1; rwa [rnd_keep hn] at this, by have := rnd_mono h.2; rwa [rnd_keep hd] at this⟩

/-- C172: the sine of 90 - x is the cosine of x, and a full turn changes nothing. -/
theorem C172_angles (A : lib.Circular) (h : BuiltIn K debug docs (f64 lib draw) ((f64 lib draw).num B64.num) ctx) (x a t : B64) (hx : x.isFin)
    (h7 : |x.val| ≤ 9 * 10 ^ 6) (ha : a.isFin) (hav : a.val = 90) (ht : t.isFin) (htv : t.val = 360) :
    (∃ r s c, evalTokens ctx (infixTokens a (str "-") x) = .ok r ∧ evalTokens ctx (callTokens (str "sin") [r]) = .ok s ∧
      evalTokens ctx (callTokens (str "cos") [x]) = .ok c ∧ |s.val - c.val| ≤ 4 / 10 ^ 10) ∧
    (∃ r s y, evalTokens ctx (infixTokens x (str "+") t) = .ok r ∧ evalTokens ctx (callTokens (str "sin") [r]) = .ok s ∧
      evalTokens ctx (callTokens (str "sin") [x]) = .ok y ∧ |s.val - y.val| ≤ 4 / 10 ^ 10) ∧
    (∃ r s y, evalTokens ctx (infixTokens x (str "+") t) = .ok r ∧ evalTokens ctx (callTokens (str "cos") [r]) = .ok s ∧
      evalTokens ctx (callTokens (str "cos") [x]) = .ok y ∧ |s.val - y.val| ≤ 4 / 10 ^ 10) := by
  have hb : ∀ (o : ArOp) (x y : B64), evalTokens ctx (infixTokens x o.symbol y) = (doubleArithmetic lib draw).op o x y := by
    intro o x y
    have := double_tree h (.bin o (.num x) (.num y))
    cases o <;> exact this
  have hx7 := abs_le.mp h7
  have b1 : |a.val - x.val| ≤ 10 ^ 7 := by rw [hav, abs_le]; constructor <;> linarith [hx7.1, hx7.2]
  have b2 : |x.val + t.val| ≤ 10 ^ 7 := by rw [htv, abs_le]; constructor <;> linarith [hx7.1, hx7.2]
  obtain ⟨d1, d2, d3⟩ := angle_rounded b1
  obtain ⟨e1, e2, e3⟩ := angle_rounded b2
  obtain ⟨⟨y, y1, y2, y3⟩, ⟨c, c1, c2, c3⟩⟩ := sine_cosine_near A h x hx (h7.trans (by norm_num))
  have sub : (B64.sub a x).isFin ∧ (B64.sub a x).val = rnd (a.val - x.val) := by
    rw [sub_fin ha hx]; exact of_fin _ d3
  have add : (B64.add x t).isFin ∧ (B64.add x t).val = rnd (x.val + t.val) := by
    rw [add_fin hx ht]; exact of_fin _ e3
  obtain ⟨⟨u, u1, u2, u3⟩, -⟩ := sine_cosine_near A h (B64.sub a x) sub.1 (by rw [sub.2]; exact d2)
  obtain ⟨⟨v, v1, v2, v3⟩, ⟨w, w1, w2, w3⟩⟩ := sine_cosine_near A h (B64.add x t) add.1 (by rw [add.2]; exact e2)
  rw [sub.2] at u3
  rw [add.2] at v3 w3
  have back : ∀ p q : ℚ, |(p : ℝ) - q| ≤ 4 / 10 ^ 10 → |p - q| ≤ 4 / 10 ^ 10 := by
    intro p q hpq
    have : ((|p - q| : ℚ) : ℝ) ≤ ((4 / 10 ^ 10 : ℚ) : ℝ) := by rw [Rat.cast_abs]; push_cast; exact hpq
    exact Rat.cast_le.mp this
  have f1 : degrees (a.val - x.val) = Real.pi / 2 - degrees x.val := by unfold degrees; rw [hav]; push_cast; ring
  have f2 : degrees (x.val + t.val) = degrees x.val + 2 * Real.pi := by unfold degrees; rw [htv]; push_cast; ring
  refine ⟨⟨_, u, c, hb .sub a x, u1, c1, back _ _ ?_⟩, ⟨_, v, y, hb .add x t, v1, y1, back _ _ ?_⟩, ⟨_, w, c, hb .add x t, w1, c1, back _ _ ?_⟩⟩
  · have g1 := Real.abs_sin_sub_sin_le (degrees (rnd (a.val - x.val))) (degrees (a.val - x.val))
    rw [f1, Real.sin_pi_div_two_sub, ← f1] at g1
    have g2 := abs_sub_le (u.val : ℝ) (Real.sin (degrees (rnd (a.val - x.val)))) (Real.cos (degrees x.val))
    have g3 := abs_sub_le (u.val : ℝ) (Real.cos (degrees x.val)) c.val
    rw [abs_sub_comm (Real.cos _) (c.val : ℝ)] at g3
    linarith
  · have g1 := Real.abs_sin_sub_sin_le (degrees (rnd (x.val + t.val))) (degrees (x.val + t.val))
    rw [f2, Real.sin_add_two_pi, ← f2] at g1
    have g2 := abs_sub_le (v.val : ℝ) (Real.sin (degrees (rnd (x.val + t.val)))) (Real.sin (degrees x.val))
    have g3 := abs_sub_le (v.val : ℝ) (Real.sin (degrees x.val)) y.val
    rw [abs_sub_comm (Real.sin _) (y.val : ℝ)] at g3
    linarith
  · have g1 := Real.abs_cos_sub_cos_le (degrees (rnd (x.val + t.val))) (degrees (x.val + t.val))
    rw [f2, Real.cos_add_two_pi, ← f2] at g1
    have g2 := abs_sub_le (w.val : ℝ) (Real.cos (degrees (rnd (x.val + t.val)))) (Real.cos (degrees x.val))
    have g3 := abs_sub_le (w.val : ℝ) (Real.cos (degrees x.val)) c.val
    rw [abs_sub_comm (Real.cos _) (c.val : ℝ)] at g3
    linarith

/-- The hypotheses are met: some library meets the contract, and 30, 90 and 360 are doubles. -/
example (lib : Libm) : (withCircle lib).Circular ∧ (lit 30).isFin ∧ |(lit 30).val| ≤ 9 * 10 ^ 6 ∧ (lit 90).isFin ∧ (lit 90).val = 90 ∧
    (lit 360).isFin ∧ (lit 360).val = 360 :=
  ⟨withCircle_contract lib, ⟨by decide +kernel, by decide +kernel⟩, by decide +kernel, ⟨by decide +kernel, by decide +kernel⟩, by decide +kernel,
    ⟨by decide +kernel, by decide +kernel⟩, by decide +kernel⟩

end

end Prexel
