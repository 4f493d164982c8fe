import Verif.Props.DoubleRealPowers
/-!
# The laws of the logarithm and of the exponential over `f64` (C175)
-/

namespace Prexel
open B64

section
variable {K : Keys} {debug docs : Bool} {lib : Libm} {draw : B64} {ctx : Ctx B64}

theorem middle_rounded {q : ℚ} (m : Middle (q : ℝ)) (a : Bool) :
    (of a q).isFin ∧ 0 < (of a q).val ∧ |Real.logb 10 (of a q).val - Real.logb 10 q| ≤ 1 / 10 ^ 16 := by
  have q0 := m.pos
  have bigq : |q| ≤ 2 ^ 1000 := by
    have : ((|q| : ℚ) : ℝ) ≤ ((2 ^ 1000 : ℚ) : ℝ) := by
      rw [Rat.cast_abs, abs_of_pos q0]
      push_cast
      exact m.2.trans (pow_le_pow_right₀ (by norm_num) (by norm_num))
    exact Rat.cast_le.mp this
  obtain ⟨f1, f2⟩ := of_fin a (notLarge bigq)
  have hm := cast_near (rnd_moves bigq)
  push_cast at hm
  have tiny : (1 : ℝ) / 2 ^ 1022 ≤ q * (1 / 2 ^ 122) := by
    refine le_trans (le_of_eq ?_) (mul_le_mul_of_nonneg_right m.1 (by positivity))
    rw [show (1022 : ℕ) = 900 + 122 by norm_num, pow_add, one_div_mul_one_div]
  have near : |((rnd q : ℚ) : ℝ) - q| ≤ 113 / 10 ^ 18 * q := by
    rw [abs_of_pos q0] at hm
    generalize (1 : ℝ) / 2 ^ 1022 = w at hm tiny
    clear bigq
    norm_num at hm tiny ⊢
    linarith
  have pos : (0 : ℝ) < (rnd q : ℚ) := by
    have := (abs_le.mp near).1
    norm_num at this
    linarith
  refine ⟨f1, by rw [f2]; exact Rat.cast_pos.mp pos, ?_⟩
  rw [f2]
  have hl := log_close q0 (by norm_num : (113 : ℝ) / 10 ^ 18 ≤ 1 / 2) near
  have l10 : (226 : ℝ) / 100 ≤ Real.log 10 := by
    have h1 := Real.log_two_gt_d9
    have h2 := Real.log_le_log (by norm_num) (by norm_num : (2 : ℝ) ^ 33 ≤ 10 ^ 10)
    rw [Real.log_pow, Real.log_pow] at h2
    clear hm tiny near bigq hl
    norm_num at *
    linarith
  unfold Real.logb
  rw [← sub_div, abs_div, abs_of_pos (by linarith : 0 < Real.log 10), div_le_iff₀ (by linarith)]
  clear hm tiny near bigq
  norm_num at *
  linarith

theorem log_ten {t : ℝ} (m : Middle t) : |Real.logb 10 t| ≤ 316 := by
  have l10 : (2 : ℝ) ≤ Real.log 10 := by
    have h1 := Real.log_two_gt_d9
    have h2 := Real.log_le_log (by norm_num) (by norm_num : (2 : ℝ) ^ 3 ≤ 10)
    rw [Real.log_pow] at h2
    norm_num at *
    linarith
  unfold Real.logb
  rw [abs_div, abs_of_pos (by linarith : 0 < Real.log 10), div_le_iff₀ (by linarith)]
  linarith [m.log]

/-- Sums of rounded logarithms. -/
theorem sum_rounded {u v : ℚ} {s t : ℝ} (hu : |(u : ℝ) - s| ≤ |s| / 2 ^ 52) (hv : |(v : ℝ) - t| ≤ |t| / 2 ^ 52) (hs : |s| ≤ 316) (ht : |t| ≤ 316) :
    ¬ TooLarge (u + v) ∧ |((rnd (u + v) : ℚ) : ℝ) - (s + t)| ≤ (|s| + |t|) * (4 / 10 ^ 16) + 1 / 10 ^ 17 := by
  have e1 : |((u : ℝ) + v) - (s + t)| ≤ (|s| + |t|) / 2 ^ 52 := by
    rw [show ((u : ℝ) + v) - (s + t) = (u - s) + (v - t) by ring, add_div]
    exact (abs_add_le _ _).trans (add_le_add hu hv)
  have e2 := abs_sub_abs_le_abs_sub ((u : ℝ) + v) (s + t)
  have e3 := abs_add_le s t
  have big : |u + v| ≤ 1000 := by
    have : ((|u + v| : ℚ) : ℝ) ≤ ((1000 : ℚ) : ℝ) := by
      rw [Rat.cast_abs]; push_cast; norm_num at *; linarith
    exact Rat.cast_le.mp this
  have bigq : |u + v| ≤ 2 ^ 1000 := big.trans (le_trans (by norm_num : (1000 : ℚ) ≤ 2 ^ 10) (pow_le_pow_right₀ (by norm_num) (by norm_num)))
  refine ⟨notLarge bigq, ?_⟩
  have hm := cast_near (rnd_moves bigq)
  push_cast at hm
  have tiny : (1 : ℝ) / 2 ^ 1022 ≤ 1 / 2 ^ 100 :=
    one_div_le_one_div_of_le (by positivity) (pow_le_pow_right₀ (by norm_num) (by norm_num))
  have e4 := abs_sub_le ((rnd (u + v) : ℚ) : ℝ) (u + v) (s + t)
  generalize (1 : ℝ) / 2 ^ 1022 = w at *
  clear bigq big hu hv
  norm_num at *
  linarith [abs_nonneg s, abs_nonneg t]

/-- C175: the logarithm of a product is the sum of the logarithms, and that of a quotient the difference. -/
theorem C175_log (A : lib.Logarithms) (h : BuiltIn K debug docs (f64 lib draw) ((f64 lib draw).num B64.num) ctx) (x y : B64) (hx : x.isFin)
    (hy : y.isFin) (mx : Middle (x.val : ℝ)) (my : Middle (y.val : ℝ)) :
    let e := (|Real.logb 10 x.val| + |Real.logb 10 y.val|) * (7 / 10 ^ 16) + 2 / 10 ^ 16
    (Middle ((x.val : ℝ) * y.val) → ∃ p l u v s, evalTokens ctx (infixTokens x (str "*") y) = .ok p ∧ evalTokens ctx (callTokens (str "log") [p]) = .ok l ∧
      evalTokens ctx (callTokens (str "log") [x]) = .ok u ∧ evalTokens ctx (callTokens (str "log") [y]) = .ok v ∧
      evalTokens ctx (infixTokens u (str "+") v) = .ok s ∧ l.isFin ∧ s.isFin ∧ |(l.val : ℝ) - s.val| ≤ e) ∧
    (Middle ((x.val : ℝ) / y.val) → ∃ p l u v s, evalTokens ctx (infixTokens x (str "/") y) = .ok p ∧ evalTokens ctx (callTokens (str "log") [p]) = .ok l ∧
      evalTokens ctx (callTokens (str "log") [x]) = .ok u ∧ evalTokens ctx (callTokens (str "log") [y]) = .ok v ∧
      evalTokens ctx (infixTokens u (str "-") v) = .ok s ∧ l.isFin ∧ s.isFin ∧ |(l.val : ℝ) - s.val| ≤ e) := by
  intro e
  have x0 := mx.pos
  have y0 := my.pos
  have hb : ∀ (o : ArOp) (x y : B64), evalTokens ctx (infixTokens x o.symbol y) = (doubleArithmetic lib draw).op o x y := by
    intro o x y
    have := double_tree h (.bin o (.num x) (.num y))
    cases o <;> exact this
  obtain ⟨u, u1, u2, u3⟩ := (C164_log A h x hx).1 (Rat.cast_pos.mp x0)
  obtain ⟨v, v1, v2, v3⟩ := (C164_log A h y hy).1 (Rat.cast_pos.mp y0)
  have lx := log_ten mx
  have ly := log_ten my
  -- the logarithm of the rounded product or quotient
  have one : ∀ (z : B64) (t : ℝ), z.isFin → 0 < z.val → |Real.logb 10 z.val - t| ≤ 1 / 10 ^ 16 → |t| ≤ |Real.logb 10 x.val| + |Real.logb 10 y.val| →
      ∃ l, evalTokens ctx (callTokens (str "log") [z]) = .ok l ∧ l.isFin ∧
        |(l.val : ℝ) - t| ≤ (|Real.logb 10 x.val| + |Real.logb 10 y.val|) * (3 / 10 ^ 16) + 11 / 10 ^ 17 := by
    intro z t hz h0 hn ht
    obtain ⟨l, l1, l2, l3⟩ := (C164_log A h z hz).1 h0
    refine ⟨l, l1, l2, ?_⟩
    have e1 := abs_sub_le (l.val : ℝ) (Real.logb 10 z.val) t
    have e2 := abs_sub_abs_le_abs_sub (Real.logb 10 z.val) t
    norm_num at *
    linarith [abs_nonneg t]
  constructor
  · intro m
    obtain ⟨p1, p2, p3⟩ := middle_rounded (q := x.val * y.val) (by push_cast; exact m) (x.sign ^^ y.sign)
    rw [← mul_fin hx hy] at p1 p2 p3
    push_cast at p3
    rw [Real.logb_mul x0.ne' y0.ne'] at p3
    obtain ⟨l, l1, l2, l3⟩ := one _ _ p1 p2 p3 (abs_add_le _ _)
    obtain ⟨s1, s2⟩ := sum_rounded u3 v3 lx ly
    obtain ⟨f1, f2⟩ := of_fin (u.sign && v.sign) s1
    refine ⟨_, l, u, v, _, hb .mul x y, l1, u1, v1, hb .add u v, l2, by rw [add_fin u2 v2]; exact f1, ?_⟩
    rw [add_fin u2 v2, f2]
    have e4 := abs_sub_le (l.val : ℝ) (Real.logb 10 x.val + Real.logb 10 y.val) ((rnd (u.val + v.val) : ℚ) : ℝ)
    rw [abs_sub_comm (Real.logb 10 x.val + Real.logb 10 y.val) _] at e4
    show _ ≤ (|Real.logb 10 x.val| + |Real.logb 10 y.val|) * (7 / 10 ^ 16) + 2 / 10 ^ 16
    norm_num at *
    linarith
  · intro m
    have hy0 : y.val ≠ 0 := (Rat.cast_pos.mp y0).ne'
    obtain ⟨p1, p2, p3⟩ := middle_rounded (q := x.val / y.val) (by push_cast; exact m) (x.sign ^^ y.sign)
    rw [← div_fin hx hy hy0] at p1 p2 p3
    push_cast at p3
    rw [Real.logb_div x0.ne' y0.ne'] at p3
    obtain ⟨l, l1, l2, l3⟩ := one _ _ p1 p2 p3 (abs_sub _ _)
    obtain ⟨s1, s2⟩ := sum_rounded (v := -v.val) (t := -Real.logb 10 y.val) u3 (by push_cast; rw [abs_neg, neg_sub_neg, abs_sub_comm]; exact v3) lx
      (by rw [abs_neg]; exact ly)
    rw [← sub_eq_add_neg, ← sub_eq_add_neg, abs_neg] at s2
    rw [← sub_eq_add_neg] at s1
    obtain ⟨f1, f2⟩ := of_fin (u.sign && !v.sign) s1
    have hd : evalTokens ctx (infixTokens x (str "/") y) = .ok (B64.div x y) :=
      (hb .div x y).trans (if_neg fun hc => hy0 ((isZero_iff hy).mp hc))
    refine ⟨_, l, u, v, _, hd, l1, u1, v1, hb .sub u v, l2, by rw [sub_fin u2 v2]; exact f1, ?_⟩
    rw [sub_fin u2 v2, f2]
    have e4 := abs_sub_le (l.val : ℝ) (Real.logb 10 x.val - Real.logb 10 y.val) ((rnd (u.val - v.val) : ℚ) : ℝ)
    rw [abs_sub_comm (Real.logb 10 x.val - Real.logb 10 y.val) _] at e4
    show _ ≤ (|Real.logb 10 x.val| + |Real.logb 10 y.val|) * (7 / 10 ^ 16) + 2 / 10 ^ 16
    norm_num at *
    linarith

theorem middle_exp {z : ℝ} (h : |z| ≤ 600) : Middle (Real.exp z) := by
  refine ⟨?_, exp_600 h⟩
  have := exp_600 (q := -z) (by rwa [abs_neg])
  rw [Real.exp_neg] at this
  rw [one_div]
  exact inv_le_of_inv_le₀ (Real.exp_pos z) this

/-- The exponential of a float, and what it is taken for put aside. -/
theorem exp_near (E : lib.Exponentials) (h : BuiltIn K debug docs (f64 lib draw) ((f64 lib draw).num B64.num) ctx) (x : B64) (hx : x.isFin)
    (hb : |(x.val : ℝ)| ≤ 601) :
    ∃ y, evalTokens ctx (callTokens (str "exp") [x]) = .ok y ∧ y.isFin ∧ |(y.val : ℝ) - Real.exp x.val| ≤ Real.exp x.val * (111 / 10 ^ 12) := by
  obtain ⟨p, hp, -⟩ := TakenFor.unique x.val
  obtain ⟨t1, -⟩ := taken_close hp
  have hpb : |(p : ℝ)| ≤ 602 := by
    have := abs_sub_abs_le_abs_sub (p : ℝ) x.val
    norm_num at *
    linarith
  have hpq : |p| ≤ 602 := by
    have : ((|p| : ℚ) : ℝ) ≤ ((602 : ℚ) : ℝ) := by rw [Rat.cast_abs]; push_cast; exact hpb
    exact Rat.cast_le.mp this
  have hpq' := abs_le.mp hpq
  obtain ⟨s1, s2⟩ := snap_taken (lib := lib) (draw := draw) hx hp
  obtain ⟨a1, a2⟩ := E.near _ s1 (by rw [s2]; linarith [hpq'.1]) (by rw [s2]; linarith [hpq'.2])
  rw [s2] at a2
  refine ⟨_, ((C82_one_argument h x x rfl).1 (str "exp", lib.exp) (by simp [plainTable, f64])).1 hx, a1, ?_⟩
  generalize hz : ((lib.exp (snap (f64 lib draw) x)).val : ℝ) = z at *
  have q0 := Real.exp_pos (x.val : ℝ)
  have he : |Real.exp p - Real.exp x.val| ≤ Real.exp x.val * (1101 / 10 ^ 13) := by
    have e2 := Real.abs_exp_sub_one_sub_id_le (x := (p : ℝ) - x.val) (t1.trans (by norm_num))
    have e3 : ((p : ℝ) - x.val) ^ 2 ≤ (11 / 10 ^ 11) ^ 2 := by rw [← sq_abs]; exact pow_le_pow_left₀ (abs_nonneg _) t1 2
    have e4 : |Real.exp ((p : ℝ) - x.val) - 1| ≤ 1101 / 10 ^ 13 := by
      have := abs_add_le (Real.exp ((p : ℝ) - x.val) - 1 - (p - x.val)) (p - x.val)
      rw [sub_add_cancel] at this
      norm_num at *
      linarith
    have e1 : Real.exp p - Real.exp x.val = Real.exp x.val * (Real.exp (p - x.val) - 1) := by
      rw [mul_sub, ← Real.exp_add]; ring_nf
    rw [e1, abs_mul, abs_of_pos q0]
    exact mul_le_mul_of_nonneg_left e4 q0.le
  have e3 := abs_sub_le z (Real.exp p) (Real.exp x.val)
  have e4 := abs_sub_abs_le_abs_sub (Real.exp p) (Real.exp x.val)
  rw [abs_of_pos (Real.exp_pos _), abs_of_pos q0] at e4
  generalize Real.exp p = a at *
  generalize Real.exp x.val = b at *
  clear hpb t1
  norm_num at a2 he e3 e4 ⊢
  linarith

/-- C175: the exponential of a sum is the product of the exponentials. -/
theorem C175_exp (E : lib.Exponentials) (h : BuiltIn K debug docs (f64 lib draw) ((f64 lib draw).num B64.num) ctx) (x y : B64) (hx : x.isFin)
    (hy : y.isFin) (bx : |x.val| ≤ 600) (by' : |y.val| ≤ 600) (bs : |x.val + y.val| ≤ 600) :
    ∃ s c u v p, evalTokens ctx (infixTokens x (str "+") y) = .ok s ∧ evalTokens ctx (callTokens (str "exp") [s]) = .ok c ∧
      evalTokens ctx (callTokens (str "exp") [x]) = .ok u ∧ evalTokens ctx (callTokens (str "exp") [y]) = .ok v ∧
      evalTokens ctx (infixTokens u (str "*") v) = .ok p ∧ c.isFin ∧ p.isFin ∧
      |(c.val : ℝ) - p.val| ≤ Real.exp (x.val + y.val) * (4 / 10 ^ 10) := by
  have hb : ∀ (o : ArOp) (x y : B64), evalTokens ctx (infixTokens x o.symbol y) = (doubleArithmetic lib draw).op o x y := by
    intro o x y
    have := double_tree h (.bin o (.num x) (.num y))
    cases o <;> exact this
  have real : ∀ q : ℚ, |q| ≤ 600 → |(q : ℝ)| ≤ 600 := by
    intro q hq
    have : ((|q| : ℚ) : ℝ) ≤ ((600 : ℚ) : ℝ) := Rat.cast_le.mpr hq
    rw [Rat.cast_abs] at this
    push_cast at this
    exact this
  have bsr := real _ bs
  push_cast at bsr
  obtain ⟨u, u1, u2, u3⟩ := exp_near E h x hx ((real _ bx).trans (by norm_num))
  obtain ⟨v, v1, v2, v3⟩ := exp_near E h y hy ((real _ by').trans (by norm_num))
  have big : |x.val + y.val| ≤ 2 ^ 1000 := bs.trans (le_trans (by norm_num : (600 : ℚ) ≤ 2 ^ 10) (pow_le_pow_right₀ (by norm_num) (by norm_num)))
  obtain ⟨f1, f2⟩ := of_fin (x.sign && y.sign) (notLarge big)
  rw [← add_fin hx hy] at f1 f2
  have hm := cast_near (rnd_moves big)
  push_cast at hm
  have tiny : (1 : ℝ) / 2 ^ 1022 ≤ 1 / 2 ^ 100 :=
    one_div_le_one_div_of_le (by positivity) (pow_le_pow_right₀ (by norm_num) (by norm_num))
  have near : |((B64.add x y).val : ℝ) - (x.val + y.val)| ≤ 7 / 10 ^ 14 := by
    rw [f2]
    generalize (1 : ℝ) / 2 ^ 1022 = w at *
    clear big u3 v3
    norm_num at *
    linarith
  obtain ⟨c, c1, c2, c3⟩ := exp_near E h (B64.add x y) f1 (by
    have := abs_sub_abs_le_abs_sub ((B64.add x y).val : ℝ) (x.val + y.val)
    norm_num at near bsr
    linarith)
  have m := middle_exp bsr
  have s0 := Real.exp_pos (x.val : ℝ)
  have t0 := Real.exp_pos (y.val : ℝ)
  have st := Real.exp_pos ((x.val : ℝ) + y.val)
  have sum := Real.exp_add (x.val : ℝ) y.val
  -- the exponential of the rounded sum
  have hc : |(c.val : ℝ) - Real.exp (x.val + y.val)| ≤ Real.exp (x.val + y.val) * (112 / 10 ^ 12) := by
    have e4 := Real.abs_exp_sub_one_le (x := ((B64.add x y).val : ℝ) - (x.val + y.val)) (near.trans (by norm_num))
    have e1 : Real.exp (B64.add x y).val - Real.exp (x.val + y.val) =
        Real.exp (x.val + y.val) * (Real.exp ((B64.add x y).val - (x.val + y.val)) - 1) := by
      rw [mul_sub, ← Real.exp_add]; ring_nf
    have e5 : |Real.exp (B64.add x y).val - Real.exp (x.val + y.val)| ≤ Real.exp (x.val + y.val) * (14 / 10 ^ 14) := by
      rw [e1, abs_mul, abs_of_pos st]
      refine mul_le_mul_of_nonneg_left (e4.trans ?_) st.le
      norm_num at *
      linarith
    have e6 := abs_sub_le (c.val : ℝ) (Real.exp (B64.add x y).val) (Real.exp (x.val + y.val))
    have e7 := abs_sub_abs_le_abs_sub (Real.exp (B64.add x y).val) (Real.exp (x.val + y.val))
    rw [abs_of_pos (Real.exp_pos _), abs_of_pos st] at e7
    generalize Real.exp ((B64.add x y).val : ℝ) = a at *
    generalize Real.exp ((x.val : ℝ) + y.val) = b at *
    norm_num at c3 e5 e6 e7 ⊢
    linarith
  -- the product of the exponentials
  generalize Real.exp (x.val : ℝ) = s at *
  generalize Real.exp (y.val : ℝ) = t at *
  rw [sum] at m st hc ⊢
  have huv : |((u.val : ℝ) * v.val) - s * t| ≤ s * t * (2221 / 10 ^ 13) := by
    have e1 : (u.val : ℝ) * v.val - s * t = (u.val - s) * (v.val - t) + s * (v.val - t) + (u.val - s) * t := by ring
    rw [e1]
    have e2 : |((u.val : ℝ) - s) * (v.val - t)| ≤ (s * (111 / 10 ^ 12)) * (t * (111 / 10 ^ 12)) := by
      rw [abs_mul]; exact mul_le_mul u3 v3 (abs_nonneg _) (by positivity)
    have e3 : |s * ((v.val : ℝ) - t)| ≤ s * (t * (111 / 10 ^ 12)) := by rw [abs_mul, abs_of_pos s0]; exact mul_le_mul_of_nonneg_left v3 s0.le
    have e4 : |((u.val : ℝ) - s) * t| ≤ s * (111 / 10 ^ 12) * t := by rw [abs_mul, abs_of_pos t0]; exact mul_le_mul_of_nonneg_right u3 t0.le
    have e5 := abs_add_le (((u.val : ℝ) - s) * (v.val - t) + s * (v.val - t)) ((u.val - s) * t)
    have e6 := abs_add_le (((u.val : ℝ) - s) * (v.val - t)) (s * (v.val - t))
    have e7 : (s * (111 / 10 ^ 12)) * (t * (111 / 10 ^ 12)) + s * (t * (111 / 10 ^ 12)) + s * (111 / 10 ^ 12) * t ≤ s * t * (2221 / 10 ^ 13) := by
      have : (s * (111 / 10 ^ 12)) * (t * (111 / 10 ^ 12)) + s * (t * (111 / 10 ^ 12)) + s * (111 / 10 ^ 12) * t =
        s * t * (111 / 10 ^ 12 * (111 / 10 ^ 12) + 2 * (111 / 10 ^ 12)) := by ring
      rw [this]
      exact mul_le_mul_of_nonneg_left (by norm_num) st.le
    linarith
  have big2 : |((u.val : ℝ) * v.val)| ≤ 2 ^ 901 := by
    have := abs_sub_abs_le_abs_sub ((u.val : ℝ) * v.val) (s * t)
    rw [abs_of_pos st] at this
    have h9 := m.2
    have h2 : |((u.val : ℝ) * v.val)| ≤ s * t * 2 := by
      have : s * t * (2221 / 10 ^ 13) ≤ s * t := by
        apply mul_le_of_le_one_right st.le; norm_num
      linarith
    rw [pow_succ]
    exact h2.trans (mul_le_mul_of_nonneg_right h9 (by norm_num))
  have bigq : |u.val * v.val| ≤ 2 ^ 1000 := by
    have : ((|u.val * v.val| : ℚ) : ℝ) ≤ ((2 ^ 1000 : ℚ) : ℝ) := by
      rw [Rat.cast_abs]
      push_cast
      exact big2.trans (pow_le_pow_right₀ (by norm_num) (by norm_num))
    exact Rat.cast_le.mp this
  have hn := cast_near (rnd_moves bigq)
  push_cast at hn
  obtain ⟨g1, g2⟩ := of_fin (u.sign ^^ v.sign) (notLarge bigq)
  refine ⟨_, c, u, v, _, hb .add x y, c1, u1, v1, hb .mul u v, c2, by rw [mul_fin u2 v2]; exact g1, ?_⟩
  rw [mul_fin u2 v2, g2]
  have tiny2 : (1 : ℝ) / 2 ^ 1022 ≤ s * t * (1 / 2 ^ 122) := by
    refine le_trans (le_of_eq ?_) (mul_le_mul_of_nonneg_right m.1 (by positivity))
    rw [show (1022 : ℕ) = 900 + 122 by norm_num, pow_add, one_div_mul_one_div]
  have e1 := abs_sub_le ((rnd (u.val * v.val) : ℚ) : ℝ) (u.val * v.val) (s * t)
  have e2 := abs_sub_abs_le_abs_sub ((u.val : ℝ) * v.val) (s * t)
  rw [abs_of_pos st] at e2
  have e3 := abs_sub_le (c.val : ℝ) (s * t) ((rnd (u.val * v.val) : ℚ) : ℝ)
  rw [abs_sub_comm (s * t) _] at e3
  generalize (1 : ℝ) / 2 ^ 1022 = w at hn tiny2
  clear big big2 bigq hm tiny u3 v3 near m c3 sum bsr
  norm_num at hn huv e1 e2 e3 tiny2 hc ⊢
  linarith

/-- The hypotheses are met: some libraries meet the contracts; 2, 3, 6 and 2 / 3 are neither tiny nor huge. -/
example (lib : Libm) : (withLogs lib).Logarithms ∧ (withExponential (withPower lib)).Exponentials ∧ (lit 2).isFin ∧ (lit 3).isFin ∧
    Middle ((lit 2).val : ℝ) ∧ Middle ((lit 3).val : ℝ) ∧ Middle (((lit 2).val : ℝ) * (lit 3).val) ∧ Middle (((lit 2).val : ℝ) / (lit 3).val) ∧
    |(lit 2).val + (lit 3).val| ≤ 600 := by
  have h2 : (lit 2).val = 2 := by decide +kernel
  have h3 : (lit 3).val = 3 := by decide +kernel
  have mid : ∀ t : ℝ, 1 / 2 ≤ t → t ≤ 8 → Middle t := by
    intro t h1 h2
    exact ⟨le_trans (one_div_le_one_div_of_le (by norm_num) (by calc (2 : ℝ) = 2 ^ 1 := (pow_one _).symm
                                                                _ ≤ _ := pow_le_pow_right₀ (by norm_num) (by norm_num))) h1,
      h2.trans (le_trans (by norm_num : (8 : ℝ) ≤ 2 ^ 3) (pow_le_pow_right₀ (by norm_num) (by norm_num)))⟩
  refine ⟨withLogs_contract lib, (withExponential_contract _ (withPower_powers lib)).2, ⟨by decide +kernel, by decide +kernel⟩,
    ⟨by decide +kernel, by decide +kernel⟩, ?_⟩
  rw [h2, h3]
  push_cast
  exact ⟨mid _ (by norm_num) (by norm_num), mid _ (by norm_num) (by norm_num), mid _ (by norm_num) (by norm_num), mid _ (by norm_num) (by norm_num),
    by norm_num⟩

end
end Prexel
