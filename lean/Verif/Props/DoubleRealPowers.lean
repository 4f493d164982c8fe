import Verif.Props.DoubleInverse
import Verif.Props.DoubleInfinity
import Mathlib.Analysis.SpecialFunctions.Pow.Real
/-!
# Powers of floats (C171)
-/

namespace Prexel
open B64

/-- The contract of `f64::powf`, for powers of positive numbers between 2^-1022 and 2^1023, and for the cases that C99 lists: whole exponents of
negative numbers, fractions as exponents of negative numbers, the exponent 0, the base 0. -/
structure Libm.RealPowers (lib : Libm) : Prop where
  near : ∀ x y : B64, x.isFin → y.isFin → 0 < x.val → (1 : ℝ) / 2 ^ 1022 ≤ (x.val : ℝ) ^ (y.val : ℝ) → (x.val : ℝ) ^ (y.val : ℝ) ≤ 2 ^ 1023 →
    (lib.powf x y).isFin ∧ |((lib.powf x y).val : ℝ) - (x.val : ℝ) ^ (y.val : ℝ)| ≤ (x.val : ℝ) ^ (y.val : ℝ) * (1 / 2 ^ 52)
  even : ∀ (x y : B64) (n : ℤ), x.isFin → y.isFin → x.val < 0 → y.val = n → Even n → lib.powf x y = lib.powf (neg x) y
  odd : ∀ (x y : B64) (n : ℤ), x.isFin → y.isFin → x.val < 0 → y.val = n → ¬ Even n → lib.powf x y = neg (lib.powf (neg x) y)
  fraction : ∀ x y : B64, x.isFin → y.isFin → x.val < 0 → (∀ n : ℤ, y.val ≠ n) → lib.powf x y = .nan
  unit : ∀ x y : B64, y.isFin → y.val = 0 → (lib.powf x y).isFin ∧ (lib.powf x y).val = 1
  zero : ∀ x y : B64, x.isFin → y.isFin → x.val = 0 → 0 < y.val → (lib.powf x y).isFin ∧ (lib.powf x y).val = 0
  pole : ∀ x y : B64, x.isFin → y.isFin → x.val = 0 → y.val < 0 → ∃ s, lib.powf x y = .inf s

namespace B64

theorem neg_isFin {x : B64} (h : x.isFin) : (neg x).isFin ∧ (neg x).val = -x.val := by
  obtain ⟨a, k, hk, rfl⟩ := isFin_fin h
  exact ⟨⟨rfl, rfl⟩, by cases a <;> simp [neg, val, neg_div]⟩

theorem notLarge {q : ℚ} (h : |q| ≤ 2 ^ 1000) : ¬ TooLarge q := by
  have hd : IsDouble (2 ^ (40 + 960)) := isDouble_pow_two 40 960 (by norm_num) (by norm_num)
  refine small_between hd ?_
  rw [abs_of_pos (by positivity : (0 : ℚ) < 2 ^ (40 + 960))]
  exact h

/-- Neither tiny nor huge. -/
def Middle (t : ℝ) : Prop := 1 / 2 ^ 900 ≤ t ∧ t ≤ 2 ^ 900

theorem Middle.pos {t : ℝ} (h : Middle t) : 0 < t := lt_of_lt_of_le (by positivity) h.1

theorem Middle.wide {t : ℝ} (h : Middle t) : 1 / 2 ^ 1022 ≤ t ∧ t ≤ 2 ^ 1023 :=
  ⟨le_trans (one_div_le_one_div_of_le (by positivity) (pow_le_pow_right₀ (by norm_num) (by norm_num))) h.1,
    h.2.trans (pow_le_pow_right₀ (by norm_num) (by norm_num))⟩

theorem Middle.log {t : ℝ} (h : Middle t) : |Real.log t| ≤ 631 := by
  have l2 := Real.log_two_lt_d9
  have h1 := Real.log_le_log (by positivity) h.1
  have h2 := Real.log_le_log h.pos h.2
  rw [one_div, Real.log_inv, Real.log_pow] at h1
  rw [Real.log_pow] at h2
  rw [abs_le]
  norm_num at h1 h2 l2 ⊢
  constructor <;> linarith

end B64

section
variable {K : Keys} {debug docs : Bool} {lib : Libm} {draw : B64} {ctx : Ctx B64}

/-- C171: a power is never refused. -/
theorem C171_value (h : BuiltIn K debug docs (f64 lib draw) ((f64 lib draw).num B64.num) ctx) (x y : B64) :
    evalTokens ctx (infixTokens x (str "^") y) = .ok (lib.powf x y) := double_tree h (.bin .pow (.num x) (.num y))

/-- C171, single powers. -/
theorem C171_power (P : lib.RealPowers) (h : BuiltIn K debug docs (f64 lib draw) ((f64 lib draw).num B64.num) ctx) (x y : B64) (hx : x.isFin)
    (hy : y.isFin) :
    let result := evalTokens ctx (infixTokens x (str "^") y)
    (0 < x.val → (1 : ℝ) / 2 ^ 1022 ≤ (x.val : ℝ) ^ (y.val : ℝ) → (x.val : ℝ) ^ (y.val : ℝ) ≤ 2 ^ 1023 →
      GivesNear result ((x.val : ℝ) ^ (y.val : ℝ)) (1 / 2 ^ 52)) ∧
    (∀ n : ℤ, y.val = n → x.val ≠ 0 → (1 : ℝ) / 2 ^ 1022 ≤ |(x.val : ℝ) ^ n| → |(x.val : ℝ) ^ n| ≤ 2 ^ 1023 →
      GivesNear result ((x.val : ℝ) ^ n) (1 / 2 ^ 52)) ∧
    (x.val < 0 → (∀ n : ℤ, y.val ≠ n) → result = .ok .nan) ∧
    (y.val = 0 → ∃ r, result = .ok r ∧ r.isFin ∧ r.val = 1) ∧
    (x.val = 0 → 0 < y.val → ∃ r, result = .ok r ∧ r.isFin ∧ r.val = 0) ∧
    (x.val = 0 → y.val < 0 → ∃ s, result = .ok (.inf s)) := by
  intro result
  have hr : result = .ok (lib.powf x y) := C171_value h x y
  rw [hr]
  have pos : ∀ u : B64, u.isFin → 0 < u.val → (1 : ℝ) / 2 ^ 1022 ≤ (u.val : ℝ) ^ (y.val : ℝ) → (u.val : ℝ) ^ (y.val : ℝ) ≤ 2 ^ 1023 →
      GivesNear (.ok (lib.powf u y)) ((u.val : ℝ) ^ (y.val : ℝ)) (1 / 2 ^ 52) := by
    intro u hu h0 h1 h2
    obtain ⟨p1, p2⟩ := P.near u y hu hy h0 h1 h2
    exact ⟨_, rfl, p1, by rw [abs_of_pos (Real.rpow_pos_of_pos (by exact_mod_cast h0) _)]; exact p2⟩
  refine ⟨pos x hx, fun n hn h0 h1 h2 => ?_, fun h0 hn => by rw [P.fraction x y hx hy h0 hn], fun h0 => ⟨_, rfl, P.unit x y hy h0⟩,
    fun h0 h1 => ⟨_, rfl, P.zero x y hx hy h0 h1⟩, fun h0 h1 => ?_⟩
  · have hyn : (y.val : ℝ) = (n : ℝ) := by rw [hn]; push_cast; rfl
    rcases lt_or_gt_of_ne h0 with hneg | hpos
    · obtain ⟨n1, n2⟩ := neg_isFin hx
      have hu := pos (neg x) n1 (by rw [n2]; linarith)
      have hxr : (x.val : ℝ) < 0 := by exact_mod_cast hneg
      have habs : ((neg x).val : ℝ) = |(x.val : ℝ)| := by rw [n2, abs_of_neg hxr]; push_cast; rfl
      rw [hyn, Real.rpow_intCast, habs, ← abs_zpow] at hu
      obtain ⟨r, r1, r2, r3⟩ := hu h1 h2
      cases r1
      by_cases he : Even n
      · rw [P.even x y n hx hy hneg hn he]
        refine ⟨_, rfl, r2, ?_⟩
        rw [abs_abs] at r3
        have : |(x.val : ℝ) ^ n| = (x.val : ℝ) ^ n := abs_of_nonneg (he.zpow_nonneg _)
        rw [this] at r3 ⊢
        exact r3
      · rw [P.odd x y n hx hy hneg hn he]
        obtain ⟨m1, m2⟩ := neg_isFin r2
        refine ⟨_, rfl, m1, ?_⟩
        rw [abs_abs] at r3
        have : |(x.val : ℝ) ^ n| = -(x.val : ℝ) ^ n := abs_of_neg ((Int.not_even_iff_odd.mp he).zpow_neg hxr)
        rw [this] at r3 ⊢
        rw [m2, ← abs_neg]
        push_cast
        rw [show -(-((lib.powf (neg x) y).val : ℝ) - (x.val : ℝ) ^ n) = ((lib.powf (neg x) y).val : ℝ) - -(x.val : ℝ) ^ n by ring]
        exact r3
    · have hu := pos x hx hpos
      have hxr : (0 : ℝ) < x.val := by exact_mod_cast hpos
      rw [hyn, Real.rpow_intCast] at hu
      rw [abs_of_pos (zpow_pos hxr n)] at h1 h2
      exact hu h1 h2
  · obtain ⟨s, hs⟩ := P.pole x y hx hy h0 h1
    exact ⟨s, by rw [hs]⟩

/-- C171, the law of exponents: the product of two powers and the power with the sum of the exponents. -/
theorem C171_sum (P : lib.RealPowers) (h : BuiltIn K debug docs (f64 lib draw) ((f64 lib draw).num B64.num) ctx) (x a b : B64) (hx : x.isFin)
    (ha : a.isFin) (hb : b.isFin) (h0 : 0 < x.val) (h1 : x.val ≠ 1) (ma : Middle ((x.val : ℝ) ^ (a.val : ℝ))) (mb : Middle ((x.val : ℝ) ^ (b.val : ℝ)))
    (mc : Middle ((x.val : ℝ) ^ ((a.val : ℝ) + b.val))) :
    let power := fun y => Arith.bin .pow (.num x) y
    GivesNear (evalTokens ctx (Arith.bin .mul (power (.num a)) (power (.num b))).tokens) ((x.val : ℝ) ^ ((a.val : ℝ) + b.val)) (6 / 10 ^ 16) ∧
    GivesNear (evalTokens ctx (power (.bin .add (.num a) (.num b))).tokens) ((x.val : ℝ) ^ ((a.val : ℝ) + b.val)) (8 / 10 ^ 14) := by
  intro power
  have xr : (0 : ℝ) < x.val := by exact_mod_cast h0
  have hadd : (x.val : ℝ) ^ ((a.val : ℝ) + b.val) = (x.val : ℝ) ^ (a.val : ℝ) * (x.val : ℝ) ^ (b.val : ℝ) := Real.rpow_add xr _ _
  obtain ⟨a1, a2⟩ := P.near x a hx ha h0 ma.wide.1 ma.wide.2
  obtain ⟨b1, b2⟩ := P.near x b hx hb h0 mb.wide.1 mb.wide.2
  constructor
  · have e : evalTokens ctx (Arith.bin .mul (power (.num a)) (power (.num b))).tokens = .ok (B64.mul (lib.powf x a) (lib.powf x b)) := double_tree h _
    rw [e]
    set u := lib.powf x a with hu
    set v := lib.powf x b with hv
    set s := (x.val : ℝ) ^ (a.val : ℝ) with hs
    set t := (x.val : ℝ) ^ (b.val : ℝ) with ht
    rw [hadd] at mc ⊢
    have s0 := ma.pos
    have t0 := mb.pos
    have st := mc.pos
    have huv : |((u.val : ℝ) * v.val) - s * t| ≤ s * t * (45 / 10 ^ 17) := by
      have e1 : (u.val : ℝ) * v.val - s * t = (u.val - s) * (v.val - t) + s * (v.val - t) + (u.val - s) * t := by ring
      rw [e1]
      have e2 : |((u.val : ℝ) - s) * (v.val - t)| ≤ (s * (1 / 2 ^ 52)) * (t * (1 / 2 ^ 52)) := by
        rw [abs_mul]; exact mul_le_mul a2 b2 (abs_nonneg _) (by positivity)
      have e3 : |s * ((v.val : ℝ) - t)| ≤ s * (t * (1 / 2 ^ 52)) := by rw [abs_mul, abs_of_pos s0]; exact mul_le_mul_of_nonneg_left b2 s0.le
      have e4 : |((u.val : ℝ) - s) * t| ≤ s * (1 / 2 ^ 52) * t := by rw [abs_mul, abs_of_pos t0]; exact mul_le_mul_of_nonneg_right a2 t0.le
      have e5 := abs_add_le (((u.val : ℝ) - s) * (v.val - t) + s * (v.val - t)) ((u.val - s) * t)
      have e6 := abs_add_le (((u.val : ℝ) - s) * (v.val - t)) (s * (v.val - t))
      have e7 : (s * (1 / 2 ^ 52)) * (t * (1 / 2 ^ 52)) + s * (t * (1 / 2 ^ 52)) + s * (1 / 2 ^ 52) * t ≤ s * t * (45 / 10 ^ 17) := by
        have : (s * (1 / 2 ^ 52)) * (t * (1 / 2 ^ 52)) + s * (t * (1 / 2 ^ 52)) + s * (1 / 2 ^ 52) * t = s * t * (1 / 2 ^ 52 * (1 / 2 ^ 52) + 2 * (1 / 2 ^ 52)) := by ring
        rw [this]
        exact mul_le_mul_of_nonneg_left (by norm_num) st.le
      linarith
    have big : |((u.val : ℝ) * v.val)| ≤ 2 ^ 901 := by
      have := abs_sub_abs_le_abs_sub ((u.val : ℝ) * v.val) (s * t)
      rw [abs_of_pos st] at this
      have h9 := mc.2
      have h2 : |((u.val : ℝ) * v.val)| ≤ s * t * 2 := by
        have : s * t * (45 / 10 ^ 17) ≤ s * t := by
          apply mul_le_of_le_one_right st.le; norm_num
        linarith
      rw [pow_succ]
      exact h2.trans (mul_le_mul_of_nonneg_right h9 (by norm_num))
    have bigq : |u.val * v.val| ≤ 2 ^ 1000 := by
      have : ((|u.val * v.val| : ℚ) : ℝ) ≤ ((2 ^ 1000 : ℚ) : ℝ) := by
        rw [Rat.cast_abs]
        push_cast
        exact big.trans (pow_le_pow_right₀ (by norm_num) (by norm_num))
      exact Rat.cast_le.mp this
    have hm := cast_near (rnd_moves bigq)
    push_cast at hm
    obtain ⟨f1, f2⟩ := of_fin (u.sign ^^ v.sign) (notLarge bigq)
    rw [mul_fin a1 b1]
    refine ⟨_, rfl, f1, ?_⟩
    rw [f2]
    have tiny : (1 : ℝ) / 2 ^ 1022 ≤ s * t * (1 / 2 ^ 122) := by
      refine le_trans (le_of_eq ?_) (mul_le_mul_of_nonneg_right mc.1 (by positivity))
      rw [show (1022 : ℕ) = 900 + 122 by norm_num, pow_add, one_div_mul_one_div]
    have e1 := abs_sub_le ((rnd (u.val * v.val) : ℚ) : ℝ) (u.val * v.val) (s * t)
    have e2 : |((u.val : ℝ) * v.val)| ≤ s * t * (1 + 45 / 10 ^ 17) := by
      have := abs_sub_abs_le_abs_sub ((u.val : ℝ) * v.val) (s * t)
      rw [abs_of_pos st] at this
      linarith
    rw [abs_of_pos st]
    generalize (1 : ℝ) / 2 ^ 1022 = w at hm tiny
    clear hadd a2 b2 bigq big
    norm_num at hm huv e1 e2 tiny ⊢
    linarith
  · have e : evalTokens ctx (power (.bin .add (.num a) (.num b))).tokens = .ok (lib.powf x (B64.add a b)) := double_tree h _
    rw [e]
    obtain ⟨lx, lx1⟩ := log_bounds hx h0
    have lx1 := lx1 h1
    have lc := mc.log
    have small : |a.val + b.val| ≤ 2 ^ 64 := by
      have e1 : Real.log ((x.val : ℝ) ^ ((a.val : ℝ) + b.val)) = (a.val + b.val) * Real.log x.val := Real.log_rpow xr _
      rw [e1, abs_mul] at lc
      have : |(a.val : ℝ) + b.val| * (1 / 2 ^ 54) ≤ 631 := (mul_le_mul_of_nonneg_left lx1 (abs_nonneg _)).trans lc
      have : |(a.val : ℝ) + b.val| ≤ 2 ^ 64 := by
        norm_num at this ⊢
        linarith
      have : ((|a.val + b.val| : ℚ) : ℝ) ≤ ((2 ^ 64 : ℚ) : ℝ) := by rw [Rat.cast_abs]; push_cast; exact this
      exact Rat.cast_le.mp this
    have bigq : |a.val + b.val| ≤ 2 ^ 1000 := small.trans (pow_le_pow_right₀ (by norm_num) (by norm_num))
    have hm := cast_near (rnd_moves bigq)
    push_cast at hm
    obtain ⟨c1, c2⟩ := of_fin (a.sign && b.sign) (notLarge bigq)
    rw [← add_fin ha hb] at c1 c2
    set c := B64.add a b with hc
    rw [← c2] at hm
    set d := ((c.val : ℝ) - (a.val + b.val)) * Real.log x.val with hd
    have tiny : (1 : ℝ) / 2 ^ 1022 ≤ 1 / 2 ^ 100 :=
      one_div_le_one_div_of_le (by positivity) (pow_le_pow_right₀ (by norm_num) (by norm_num))
    have hdb : |d| ≤ 72 / 10 ^ 15 := by
      rw [hd, abs_mul]
      have e1 : |(c.val : ℝ) - (a.val + b.val)| * |Real.log x.val| ≤
          (|(a.val : ℝ) + b.val| * (112 / 10 ^ 18) + 1 / 2 ^ 1022) * |Real.log x.val| := mul_le_mul_of_nonneg_right hm (abs_nonneg _)
      have e2 : |(a.val : ℝ) + b.val| * |Real.log x.val| ≤ 631 := by
        rw [← abs_mul, ← Real.log_rpow xr]; exact lc
      have e3 : (1 : ℝ) / 2 ^ 1022 * |Real.log x.val| ≤ 1 / 2 ^ 100 * 800 := mul_le_mul tiny lx (abs_nonneg _) (by positivity)
      have e4 : (|(a.val : ℝ) + b.val| * (112 / 10 ^ 18) + 1 / 2 ^ 1022) * |Real.log x.val| =
          |(a.val : ℝ) + b.val| * |Real.log x.val| * (112 / 10 ^ 18) + 1 / 2 ^ 1022 * |Real.log x.val| := by ring
      rw [e4] at e1
      refine e1.trans ?_
      generalize (1 : ℝ) / 2 ^ 1022 * |Real.log x.val| = w at e3
      clear e1 e4 tiny hm
      norm_num at e2 e3 ⊢
      linarith
    have hpow : (x.val : ℝ) ^ (c.val : ℝ) = (x.val : ℝ) ^ ((a.val : ℝ) + b.val) * Real.exp d := by
      have : (x.val : ℝ) ^ (((a.val : ℝ) + b.val) + ((c.val : ℝ) - (a.val + b.val))) = (x.val : ℝ) ^ ((a.val : ℝ) + b.val) * Real.exp d := by
        rw [Real.rpow_add xr, Real.rpow_def_of_pos xr ((c.val : ℝ) - _), mul_comm (Real.log _)]
      rw [← this, add_sub_cancel]
    have hexp : |Real.exp d - 1| ≤ 73 / 10 ^ 15 := by
      have h5 := Real.abs_exp_sub_one_sub_id_le (x := d) (hdb.trans (by norm_num))
      have h6 : d ^ 2 ≤ 72 / 10 ^ 15 * (72 / 10 ^ 15) := by
        rw [← sq_abs, pow_two]
        exact mul_le_mul hdb hdb (abs_nonneg _) (by norm_num)
      have h7 := abs_sub_le (Real.exp d - 1) d 0
      rw [sub_zero, sub_zero] at h7
      norm_num at h6 hdb ⊢
      linarith
    set t := (x.val : ℝ) ^ ((a.val : ℝ) + b.val) with ht
    have t0 := mc.pos
    have hx2 := abs_le.mp hexp
    have w1 : (1 : ℝ) / 2 ^ 1022 ≤ t * Real.exp d := by
      have k1 : (1 : ℝ) / 2 ^ 1022 ≤ 1 / 2 ^ 900 * (1 / 2) := by
        rw [one_div_mul_one_div, ← pow_succ]
        exact one_div_le_one_div_of_le (by positivity) (pow_le_pow_right₀ (by norm_num) (by norm_num))
      refine k1.trans (mul_le_mul mc.1 ?_ (by norm_num) t0.le)
      norm_num at hx2 ⊢
      linarith [hx2.1]
    have w2 : t * Real.exp d ≤ 2 ^ 1023 := by
      have k1 : (2 : ℝ) ^ 900 * 2 ≤ 2 ^ 1023 := by
        rw [← pow_succ]
        exact pow_le_pow_right₀ (by norm_num) (by norm_num)
      refine le_trans (mul_le_mul mc.2 ?_ (Real.exp_pos _).le (by positivity)) k1
      norm_num at hx2 ⊢
      linarith [hx2.2]
    obtain ⟨p1, p2⟩ := P.near x c hx c1 h0 (by rw [hpow]; exact w1) (by rw [hpow]; exact w2)
    refine ⟨_, rfl, p1, ?_⟩
    rw [hpow] at p2
    rw [abs_of_pos t0]
    have e1 := abs_sub_le ((lib.powf x c).val : ℝ) (t * Real.exp d) t
    have e2 : |t * Real.exp d - t| ≤ t * (73 / 10 ^ 15) := by
      rw [show t * Real.exp d - t = t * (Real.exp d - 1) by ring, abs_mul, abs_of_pos t0]
      exact mul_le_mul_of_nonneg_left hexp t0.le
    have e3 : t * Real.exp d * (1 / 2 ^ 52) ≤ t * (6 / 10 ^ 15) := by
      rw [mul_assoc]
      refine mul_le_mul_of_nonneg_left ?_ t0.le
      norm_num at hx2 ⊢
      linarith [hx2.2]
    clear w1 w2 tiny hm
    linarith

/-- C171: the logarithm of a power to its base is the exponent. -/
theorem C171_log (P : lib.RealPowers) (A : lib.Logarithms) (h : BuiltIn K debug docs (f64 lib draw) ((f64 lib draw).num B64.num) ctx) (x y : B64)
    (hx : x.isFin) (hy : y.isFin) (h0 : 0 < x.val) (h1 : x.val ≠ 1) (m : Middle ((x.val : ℝ) ^ (y.val : ℝ))) :
    ∃ p z, evalTokens ctx (infixTokens x (str "^") y) = .ok p ∧ evalTokens ctx (callTokens (str "log") [p, x]) = .ok z ∧ z.isFin ∧
      |(z.val : ℝ) - y.val| ≤ |(y.val : ℝ)| * (6 / 10 ^ 16) + 5 / 10 ^ 16 / |Real.log x.val| := by
  have xr : (0 : ℝ) < x.val := by exact_mod_cast h0
  obtain ⟨p1, p2⟩ := P.near x y hx hy h0 m.wide.1 m.wide.2
  have hv := C171_value h x y
  generalize lib.powf x y = p at *
  have t0 := m.pos
  have hp : 0 < p.val := by
    have e := (abs_le.mp p2).1
    have : (0 : ℝ) < p.val := by
      have : (x.val : ℝ) ^ (y.val : ℝ) * (1 / 2 ^ 52) ≤ (x.val : ℝ) ^ (y.val : ℝ) * (1 / 2) := mul_le_mul_of_nonneg_left (by norm_num) t0.le
      linarith
    exact_mod_cast this
  obtain ⟨z, z1, z2, z3⟩ := C164_base A h p x p1 hx hp h0 h1
  refine ⟨p, z, hv, z1, z2, ?_⟩
  have hl := log_close t0 (by norm_num : (1 : ℝ) / 2 ^ 52 ≤ 1 / 2) (by rw [mul_comm]; exact p2)
  rw [Real.log_rpow xr] at hl
  have l0 : 0 < |Real.log (x.val : ℝ)| := lt_of_lt_of_le (by norm_num) ((log_bounds hx h0).2 h1)
  have hne : Real.log (x.val : ℝ) ≠ 0 := abs_pos.mp l0
  have e1 : |Real.logb x.val p.val - y.val| ≤ 45 / 10 ^ 17 / |Real.log x.val| := by
    have : Real.logb x.val p.val - y.val = (Real.log p.val - y.val * Real.log x.val) / Real.log x.val := by
      rw [Real.logb]; field_simp
    rw [this, abs_div]
    apply div_le_div_of_nonneg_right _ l0.le
    norm_num at hl ⊢
    linarith
  have e2 := abs_sub_le (z.val : ℝ) (Real.logb x.val p.val) y.val
  have e3 := abs_sub_abs_le_abs_sub (Real.logb x.val p.val) (y.val : ℝ)
  have e4 : (45 : ℝ) / 10 ^ 17 / |Real.log x.val| = 45 / 10 ^ 17 * (1 / |Real.log x.val|) := by ring
  have e5 : (5 : ℝ) / 10 ^ 16 / |Real.log x.val| = 5 / 10 ^ 16 * (1 / |Real.log x.val|) := by ring
  have e6 : 0 < 1 / |Real.log (x.val : ℝ)| := by positivity
  rw [e4] at e1
  rw [e5]
  generalize 1 / |Real.log (x.val : ℝ)| = w at *
  linarith [abs_nonneg (y.val : ℝ)]

/-! ## Examples -/

namespace B64

open Classical in
/-- Any library, with these powers: the nearest doubles. -/
noncomputable def withPowers (lib : Libm) : Libm :=
  let positive : B64 → B64 → B64 := fun x y => of false ((x.val : ℝ) ^ (y.val : ℝ))
  { lib with
    powf := fun x y =>
      if y.isFin ∧ y.val = 0 then lit 1
      else if x.val = 0 then if 0 < y.val then B64.zero false else .inf false
      else if x.val < 0 then
        if y.val.den = 1 then if Even y.val.num then positive (neg x) y else neg (positive (neg x) y) else .nan
      else positive x y }

/-- The contract can be met. -/
theorem withPowers_contract (lib : Libm) : (withPowers lib).RealPowers := by
  have one : (lit 1).isFin ∧ (lit 1).val = 1 := one_val
  have unit : ∀ x y : B64, y.isFin → y.val = 0 → (withPowers lib).powf x y = lit 1 := fun x y hy h0 => if_pos ⟨hy, h0⟩
  have pos : ∀ x y : B64, y.val ≠ 0 → 0 < x.val → (withPowers lib).powf x y = of false ((x.val : ℝ) ^ (y.val : ℝ)) := by
    intro x y h0 hx
    refine (if_neg fun h => h0 h.2).trans ((if_neg hx.ne').trans (if_neg (not_lt.mpr hx.le)))
  have neg : ∀ x y : B64, y.val ≠ 0 → x.val < 0 → (withPowers lib).powf x y =
      if y.val.den = 1 then if Even y.val.num then of false (((neg x).val : ℝ) ^ (y.val : ℝ)) else B64.neg (of false (((neg x).val : ℝ) ^ (y.val : ℝ))) else .nan := by
    intro x y h0 hx
    exact (if_neg fun h => h0 h.2).trans ((if_neg hx.ne).trans (if_pos hx))
  refine ⟨fun x y hx hy h0 l u => ?_, fun x y n hx hy h0 hn he => ?_, fun x y n hx hy h0 hn he => ?_, fun x y hx hy h0 hn => ?_,
    fun x y hy h0 => by rw [unit x y hy h0]; exact one, fun x y hx hy h0 h1 => ?_, fun x y hx hy h0 h1 => ⟨false, ?_⟩⟩
  · by_cases hz : y.val = 0
    · rw [unit x y hy hz, hz, one.2]
      refine ⟨one.1, ?_⟩
      rw [Rat.cast_zero, Real.rpow_zero, Rat.cast_one, sub_self, abs_zero]
      norm_num
    · rw [pos x y hz h0]
      have t0 : (0 : ℝ) < (x.val : ℝ) ^ (y.val : ℝ) := Real.rpow_pos_of_pos (by exact_mod_cast h0) _
      refine ⟨(of_real t0.le u false).1, ?_⟩
      have := of_real_error l u false
      rw [abs_sub_comm]
      refine this.trans ?_
      rw [div_eq_mul_one_div]
      exact mul_le_mul_of_nonneg_left (by norm_num) t0.le
  · have hnx := neg_isFin hx
    by_cases hz : y.val = 0
    · rw [unit x y hy hz, unit _ y hy hz]
    · rw [neg x y hz h0, pos _ y hz (by rw [hnx.2]; linarith), if_pos (by rw [hn]; rfl), if_pos (by rw [hn]; exact he)]
  · have hnx := neg_isFin hx
    have hz : y.val ≠ 0 := by
      intro hz
      apply he
      have : n = 0 := by rw [hn] at hz; exact_mod_cast hz
      rw [this]; exact Even.zero
    rw [neg x y hz h0, pos _ y hz (by rw [hnx.2]; linarith), if_pos (by rw [hn]; rfl), if_neg (by rw [hn]; exact he)]
  · have hz : y.val ≠ 0 := by have := hn 0; rwa [Int.cast_zero] at this
    rw [neg x y hz h0, if_neg]
    intro hd
    exact hn y.val.num (Rat.den_eq_one_iff _ |>.mp hd).symm
  · have e : (withPowers lib).powf x y = B64.zero false :=
      (if_neg fun h => h1.ne' h.2).trans ((if_pos h0).trans (if_pos h1))
    rw [e]
    exact ⟨⟨rfl, rfl⟩, (val_zero_iff _ _ _).mpr rfl⟩
  · exact (if_neg fun h => h1.ne h.2).trans ((if_pos h0).trans (if_neg (not_lt.mpr h1.le)))

end B64

/-- The hypotheses are met: some library meets the contract; 2 ^ 3 is neither tiny nor huge. -/
example (lib : Libm) : (withPowers lib).RealPowers ∧ (lit 2).isFin ∧ (lit 3).isFin ∧ 0 < (lit 2).val ∧ (lit 2).val ≠ 1 ∧
    Middle (((lit 2).val : ℝ) ^ ((lit 3).val : ℝ)) := by
  have h2 : (lit 2).val = 2 := by decide +kernel
  have h3 : (lit 3).val = 3 := by decide +kernel
  refine ⟨withPowers_contract lib, ⟨by decide +kernel, by decide +kernel⟩, ⟨by decide +kernel, by decide +kernel⟩, by decide +kernel, by decide +kernel, ?_⟩
  rw [h2, h3]
  have : ((2 : ℚ) : ℝ) ^ ((3 : ℚ) : ℝ) = 8 := by
    rw [show ((3 : ℚ) : ℝ) = ((3 : ℕ) : ℝ) by norm_num, Real.rpow_natCast]
    norm_num
  rw [this]
  constructor
  · rw [div_le_iff₀ (by positivity)]
    have : (1 : ℝ) ≤ 2 ^ 900 := one_le_pow₀ (by norm_num)
    generalize (2 : ℝ) ^ 900 = w at this
    linarith
  · exact le_trans (by norm_num : (8 : ℝ) ≤ 2 ^ 3) (pow_le_pow_right₀ (by norm_num) (by norm_num))

end

end Prexel
