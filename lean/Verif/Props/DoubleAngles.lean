import Verif.Props.DoubleGamma
import Mathlib.Analysis.SpecialFunctions.Trigonometric.Bounds
/-!
# Sine, cosine and tangent over `f64` (C162)
-/

namespace Prexel
open B64

/-- The contract of `f64::sin`, `cos` and `tan` for angles up to 10^6: an error of at most 2^-52, and of at most 2^-51 of the
tangent (and 2^-100), if that is below 10^17. -/
structure Libm.Circular (lib : Libm) : Prop where
  sin : ∀ x : B64, x.isFin → |x.val| ≤ 10 ^ 6 → (lib.sin x).isFin ∧ |((lib.sin x).val : ℝ) - Real.sin x.val| ≤ 1 / 2 ^ 52
  cos : ∀ x : B64, x.isFin → |x.val| ≤ 10 ^ 6 → (lib.cos x).isFin ∧ |((lib.cos x).val : ℝ) - Real.cos x.val| ≤ 1 / 2 ^ 52
  tan : ∀ x : B64, x.isFin → |x.val| ≤ 10 ^ 6 → 1 / 10 ^ 17 ≤ |Real.cos x.val| →
    (lib.tan x).isFin ∧ |((lib.tan x).val : ℝ) - Real.tan x.val| ≤ |Real.tan x.val| / 2 ^ 51 + 1 / 2 ^ 100

/-- The angle in radians of so many degrees. -/
noncomputable def degrees (q : ℚ) : ℝ := q * Real.pi / 180

/-- `y` is `t` up to an error, or the whole number that is less than 10^-10 away; a whole number `t` is met exactly. -/
def Meets (y : ℚ) (t e : ℝ) : Prop :=
  (|(y : ℝ) - t| ≤ e ∨ ∃ n : ℤ, y = n ∧ |(y : ℝ) - t| ≤ e + 11 / 10 ^ 11) ∧ (e ≤ 1 / 10 ^ 10 → ∀ m : ℤ, t = m → y = m)

namespace B64

theorem cast_near {a b c : ℚ} (h : |a - b| ≤ c) : |(a : ℝ) - (b : ℝ)| ≤ (c : ℝ) := by
  have h2 : ((|a - b| : ℚ) : ℝ) ≤ (c : ℝ) := Rat.cast_le.mpr h
  rwa [Rat.cast_abs, Rat.cast_sub] at h2

theorem snapDistance_bounds : (1 : ℚ) / 10 ^ 10 < snapDistance ∧ snapDistance < 11 / 10 ^ 11 := by
  unfold snapDistance
  constructor <;> decide +kernel

theorem snap_meets {lib : Libm} {draw : B64} {x : B64} (hx : x.isFin) {t e : ℝ} (h : |(x.val : ℝ) - t| ≤ e) :
    (snap (f64 lib draw) x).isFin ∧ Meets (snap (f64 lib draw) x).val t e := by
  obtain ⟨b1, b2⟩ := snapDistance_bounds
  obtain ⟨y, hy, hu⟩ := TakenFor.unique x.val
  obtain ⟨s1, s2⟩ := snap_taken (lib := lib) (draw := draw) hx hy
  refine ⟨s1, ?_, ?_⟩
  · rw [s2]
    rcases hy with ⟨n, hn, rfl⟩ | ⟨-, rfl⟩
    · right
      refine ⟨n, rfl, ?_⟩
      have h2 : |((n : ℤ) : ℝ) - x.val| ≤ 11 / 10 ^ 11 := by
        have : |((n : ℤ) : ℚ) - x.val| ≤ 11 / 10 ^ 11 := by rw [abs_sub_comm]; exact hn.le.trans b2.le
        have := cast_near this
        push_cast at this
        exact this
      have := abs_sub_le (((n : ℤ) : ℝ)) (x.val : ℝ) t
      push_cast
      linarith
    · exact .inl h
  · intro he m hm
    rw [s2]
    refine (hu m (.inl ⟨m, ?_, rfl⟩)).symm
    refine lt_of_le_of_lt ?_ b1
    have h1 : |(x.val : ℝ) - m| ≤ 1 / 10 ^ 10 := by rw [← hm]; exact h.trans he
    have h2 : ((|x.val - m| : ℚ) : ℝ) ≤ ((1 / 10 ^ 10 : ℚ) : ℝ) := by push_cast; exact h1
    exact Rat.cast_le.mp h2

theorem radian_val : (div pi (lit 180)).isFin ∧ |((div pi (lit 180)).val : ℝ) - Real.pi / 180| ≤ 3 / 10 ^ 19 := by
  have h1 : (div pi (lit 180)).isFin := ⟨by decide +kernel, by decide +kernel⟩
  have h2 : |(div pi (lit 180)).val - 31415926535897932384626433833 / 10 ^ 28 / 180| ≤ 299 / 10 ^ 21 := by decide +kernel
  refine ⟨h1, ?_⟩
  have h3 : |((div pi (lit 180)).val : ℝ) - 31415926535897932384626433833 / 10 ^ 28 / 180| ≤ 299 / 10 ^ 21 := by
    have := cast_near h2
    push_cast at this
    exact this
  have hp := pi_near
  rw [abs_le] at h3 hp ⊢
  constructor <;> linarith [h3.1, h3.2, hp.1, hp.2]

theorem degree_val : (div (lit 180) pi).isFin ∧ |((div (lit 180) pi).val : ℝ) - 180 / Real.pi| ≤ 3 / 10 ^ 15 := by
  have h1 : (div (lit 180) pi).isFin := ⟨by decide +kernel, by decide +kernel⟩
  have h2 : |(div (lit 180) pi).val * (31415926535897932384626433833 / 10 ^ 28) - 180| ≤ 8 / 10 ^ 15 := by decide +kernel
  have h4 : |(div (lit 180) pi).val| ≤ 58 := by decide +kernel
  refine ⟨h1, ?_⟩
  have h3 : |((div (lit 180) pi).val : ℝ) * (31415926535897932384626433833 / 10 ^ 28) - 180| ≤ 8 / 10 ^ 15 := by
    have := cast_near h2
    push_cast at this
    exact this
  have h5 : |((div (lit 180) pi).val : ℝ)| ≤ 58 := by exact_mod_cast h4
  generalize ((div (lit 180) pi).val : ℝ) = k at *
  have hp := pi_near
  have hpos := Real.pi_pos
  have h6 : |k * Real.pi - 180| ≤ 9 / 10 ^ 15 := by
    have e : k * Real.pi - 180 = (k * (31415926535897932384626433833 / 10 ^ 28) - 180) + k * (Real.pi - 31415926535897932384626433833 / 10 ^ 28) := by ring
    rw [e]
    refine (abs_add_le _ _).trans ?_
    have : |k * (Real.pi - 31415926535897932384626433833 / 10 ^ 28)| ≤ 58 * (1 / 10 ^ 28) := by
      rw [abs_mul]
      exact mul_le_mul h5 hp (abs_nonneg _) (by norm_num)
    linarith
  have e : k - 180 / Real.pi = (k * Real.pi - 180) / Real.pi := by field_simp
  rw [e, abs_div, abs_of_pos hpos, div_le_iff₀ hpos]
  nlinarith [pi_bounds.1]

/-- Rounding moves a number that is not too large by less than 2^-52 of it, and by at most the smallest normal double. -/
theorem rnd_moves {q : ℚ} (h : |q| ≤ 2 ^ 1000) : |rnd q - q| ≤ |q| * (112 / 10 ^ 18) + 1 / 2 ^ 1022 := by
  have key : ∀ q : ℚ, 0 ≤ q → q ≤ 2 ^ 1000 → |rnd q - q| ≤ q * (112 / 10 ^ 18) + 1 / 2 ^ 1022 := by
    intro q h0 hq
    by_cases hs : 1 / 2 ^ 1022 ≤ q
    · obtain ⟨n1, n2⟩ := near_rnd hs
      rw [pow_one, keep_eq] at n1 n2
      have hp : (0 : ℚ) < 1 / 2 ^ 1022 := by positivity
      generalize (1 : ℚ) / 2 ^ 1022 = t at *
      generalize rnd q = r at *
      rw [abs_le]
      constructor <;> norm_num at n1 n2 ⊢ <;> linarith
    · push Not at hs
      have hnl : ¬ TooLarge q := by
        unfold TooLarge
        rw [abs_of_nonneg h0, not_le]
        refine lt_of_lt_of_le hs ?_
        have h1 : (1 : ℚ) / 2 ^ 1022 ≤ 1 := by
          rw [div_le_one (by positivity)]
          exact one_le_pow₀ (by norm_num)
        have h2 : (2 : ℚ) ^ 1024 = 2 ^ 54 * 2 ^ 970 := by rw [← pow_add]
        have h3 : (1 : ℚ) ≤ 2 ^ 970 := one_le_pow₀ (by norm_num)
        rw [h2]
        refine h1.trans ?_
        generalize (2 : ℚ) ^ 970 = a at *
        have h4 : (2 : ℚ) ^ 54 * a = 18014398509481984 * a := by norm_num
        rw [h4]
        clear h h2 h4 hs hq h1
        linarith
      have hz : IsDouble 0 := by simpa using isDouble_int (n := 0) (by norm_num)
      have := (rnd_nearest hnl).2 0 hz |>.1
      rw [sub_zero, abs_of_nonneg h0, abs_sub_comm] at this
      have hq0 : 0 ≤ q * (112 / 10 ^ 18) := by positivity
      generalize (1 : ℚ) / 2 ^ 1022 = t at *
      linarith
  rcases le_total 0 q with h0 | h0
  · rw [abs_of_nonneg h0] at h ⊢
    exact key q h0 h
  · rw [abs_of_nonpos h0] at h ⊢
    have := key (-q) (by linarith) h
    rw [rnd_neg, show -rnd q - -q = -(rnd q - q) by ring, abs_neg] at this
    exact this

/-- Degrees to radians. -/
theorem toRadians_near {x : B64} (hx : x.isFin) (h6 : |x.val| ≤ 10 ^ 7) :
    (mul x (div pi (lit 180))).isFin ∧ |((mul x (div pi (lit 180))).val : ℝ) - degrees x.val| ≤ |(x.val : ℝ)| * (3 / 10 ^ 18) + 1 / 10 ^ 100 ∧
      |(mul x (div pi (lit 180))).val| ≤ 10 ^ 6 := by
  obtain ⟨k1, k2⟩ := radian_val
  have kb : |(div pi (lit 180)).val| ≤ 18 / 1000 := by decide +kernel
  have kb' : (div pi (lit 180)).val ≤ 1745329251994330 / 10 ^ 17 ∧ 0 ≤ (div pi (lit 180)).val := by constructor <;> decide +kernel
  rw [mul_fin hx k1]
  generalize hk : (div pi (lit 180)).val = k at *
  generalize hxv : x.val = v at *
  have hsmall : |v * k| ≤ 10 ^ 6 := by
    rw [abs_mul]
    calc |v| * |k| ≤ 10 ^ 7 * (18 / 1000) := mul_le_mul h6 kb (abs_nonneg _) (by norm_num)
      _ ≤ _ := by norm_num
  have hnl : ¬ TooLarge (v * k) := by
    have : IsDouble (10 ^ 6) := by have := isDouble_int (n := 10 ^ 6) (by norm_num); push_cast at this; exact this
    exact small_between this (by rwa [abs_of_pos (by norm_num : (0 : ℚ) < 10 ^ 6)])
  obtain ⟨f1, f2⟩ := of_fin (x.sign ^^ (div pi (lit 180)).sign) hnl
  refine ⟨f1, ?_⟩
  rw [f2]
  have hm := rnd_moves (q := v * k) (hsmall.trans (le_trans (by norm_num) (pow_le_pow_right₀ (by norm_num : (1 : ℚ) ≤ 2) (by norm_num : 20 ≤ 1000))))
  have tiny : (1 : ℚ) / 2 ^ 1022 ≤ 1 / 10 ^ 101 := by
    apply one_div_le_one_div_of_le (by positivity)
    calc (10 : ℚ) ^ 101 ≤ 16 ^ 101 := pow_le_pow_left₀ (by norm_num) (by norm_num) _
      _ = 2 ^ 404 := by rw [show (16 : ℚ) = 2 ^ 4 by norm_num, ← pow_mul]
      _ ≤ _ := pow_le_pow_right₀ (by norm_num) (by norm_num)
  have hm : |rnd (v * k) - v * k| ≤ |v * k| * (112 / 10 ^ 18) + 1 / 10 ^ 101 := hm.trans (by gcongr)
  have hvk : |v * k| = |v| * k := by rw [abs_mul, abs_of_nonneg kb'.2]
  have e1 : |rnd (v * k) - v * k| ≤ |v| * (1955 / 10 ^ 21) + 1 / 10 ^ 101 := by
    refine hm.trans ?_
    rw [hvk]
    have : |v| * k * (112 / 10 ^ 18) ≤ |v| * (1955 / 10 ^ 21) := by
      rw [mul_assoc]
      apply mul_le_mul_of_nonneg_left _ (abs_nonneg _)
      have := mul_le_mul_of_nonneg_right kb'.1 (by norm_num : (0 : ℚ) ≤ 112 / 10 ^ 18)
      refine this.trans (by norm_num)
    linarith
  constructor
  · have e2 := cast_near e1
    push_cast at e2
    have e3 : |(v : ℝ) * k - degrees v| ≤ |(v : ℝ)| * (3 / 10 ^ 19) := by
      have : (v : ℝ) * k - degrees v = v * (k - Real.pi / 180) := by unfold degrees; ring
      rw [this, abs_mul]
      exact mul_le_mul_of_nonneg_left k2 (abs_nonneg _)
    have e4 := abs_sub_le ((rnd (v * k) : ℚ) : ℝ) ((v : ℝ) * k) (degrees v)
    have e5 : |(v : ℝ)| * (3 / 10 ^ 19) + |(v : ℝ)| * (1955 / 10 ^ 21) ≤ |(v : ℝ)| * (3 / 10 ^ 18) := by
      rw [← mul_add]
      exact mul_le_mul_of_nonneg_left (by norm_num) (abs_nonneg _)
    have e6 : (1 : ℝ) / 10 ^ 101 ≤ 1 / 10 ^ 100 := by norm_num
    linarith
  · have h3 : |v * k| ≤ 10 ^ 7 * (18 / 1000) := by
      rw [abs_mul]
      exact mul_le_mul h6 kb (abs_nonneg _) (by norm_num)
    have h4 := abs_sub_abs_le_abs_sub (rnd (v * k)) (v * k)
    have h5 : |v| * (1955 / 10 ^ 21) ≤ 1 := by
      calc |v| * (1955 / 10 ^ 21) ≤ 10 ^ 7 * (1955 / 10 ^ 21) := mul_le_mul_of_nonneg_right h6 (by norm_num)
        _ ≤ 1 := by norm_num
    have h7 : (1 : ℚ) / 10 ^ 101 ≤ 1 := by norm_num
    have h8 : (10 : ℚ) ^ 7 * (18 / 1000) = 180000 := by norm_num
    have h9 : (10 : ℚ) ^ 6 = 1000000 := by norm_num
    rw [h8] at h3
    rw [h9]
    linarith

end B64

/-- Close angles have close tangents, away from the poles. -/
theorem tan_close {a b c : ℝ} (hc : 0 < c) (ha : c ≤ |Real.cos a|) (hb : c ≤ |Real.cos b|) : |Real.tan a - Real.tan b| ≤ |a - b| / c ^ 2 := by
  have ha0 : Real.cos a ≠ 0 := fun h => by rw [h, abs_zero] at ha; linarith
  have hb0 : Real.cos b ≠ 0 := fun h => by rw [h, abs_zero] at hb; linarith
  have e : Real.tan a - Real.tan b = Real.sin (a - b) / (Real.cos a * Real.cos b) := by
    rw [Real.tan_eq_sin_div_cos, Real.tan_eq_sin_div_cos, Real.sin_sub]
    field_simp
  rw [e, abs_div, abs_mul]
  have h1 : |Real.sin (a - b)| ≤ |a - b| := by
    have := Real.abs_sin_sub_sin_le (a - b) 0
    simpa using this
  have h2 : c ^ 2 ≤ |Real.cos a| * |Real.cos b| := by rw [sq]; exact mul_le_mul ha hb hc.le (hc.le.trans ha)
  exact div_le_div₀ (abs_nonneg _) h1 (by positivity) h2

section
variable {K : Keys} {debug docs : Bool} {lib : Libm} {draw : B64} {ctx : Ctx B64}

/-- C162, sine and cosine: for angles up to 10^7 degrees. -/
theorem C162_sine (A : lib.Circular) (h : BuiltIn K debug docs (f64 lib draw) ((f64 lib draw).num B64.num) ctx) (x : B64) (hx : x.isFin)
    (h7 : |x.val| ≤ 10 ^ 7) :
    (∃ y, evalTokens ctx (callTokens (str "sin") [x]) = .ok y ∧ y.isFin ∧
      Meets y.val (Real.sin (degrees x.val)) (|(x.val : ℝ)| * (3 / 10 ^ 18) + 3 / 10 ^ 16)) ∧
    (∃ y, evalTokens ctx (callTokens (str "cos") [x]) = .ok y ∧ y.isFin ∧
      Meets y.val (Real.cos (degrees x.val)) (|(x.val : ℝ)| * (3 / 10 ^ 18) + 3 / 10 ^ 16)) := by
  obtain ⟨r1, r2, r3⟩ := toRadians_near hx h7
  have tables := (C82_one_argument h x x rfl).2.1
  have fin := fun (t : Str) (g : B64 → B64) (ht : (t, g) ∈ angleTable (f64 lib draw)) (hf : (snap (f64 lib draw) (g (mul x (div pi (lit 180))))).isFin) =>
    (tables (t, g) ht).1 hf
  have hc : (1 : ℝ) / 10 ^ 100 + 1 / 2 ^ 52 ≤ 3 / 10 ^ 16 := by norm_num
  constructor
  · obtain ⟨s1, s2⟩ := A.sin _ r1 r3
    have e : |((lib.sin (mul x (div pi (lit 180)))).val : ℝ) - Real.sin (degrees x.val)| ≤ |(x.val : ℝ)| * (3 / 10 ^ 18) + 3 / 10 ^ 16 := by
      have h1 := abs_sub_le ((lib.sin (mul x (div pi (lit 180)))).val : ℝ) (Real.sin (mul x (div pi (lit 180))).val) (Real.sin (degrees x.val))
      have h2 := Real.abs_sin_sub_sin_le ((mul x (div pi (lit 180))).val : ℝ) (degrees x.val)
      linarith
    obtain ⟨f1, f2⟩ := snap_meets (lib := lib) (draw := draw) s1 e
    exact ⟨_, fin (str "sin") lib.sin (by simp [angleTable, f64]) f1, f1, f2⟩
  · obtain ⟨s1, s2⟩ := A.cos _ r1 r3
    have e : |((lib.cos (mul x (div pi (lit 180)))).val : ℝ) - Real.cos (degrees x.val)| ≤ |(x.val : ℝ)| * (3 / 10 ^ 18) + 3 / 10 ^ 16 := by
      have h1 := abs_sub_le ((lib.cos (mul x (div pi (lit 180)))).val : ℝ) (Real.cos (mul x (div pi (lit 180))).val) (Real.cos (degrees x.val))
      have h2 := Real.abs_cos_sub_cos_le ((mul x (div pi (lit 180))).val : ℝ) (degrees x.val)
      linarith
    obtain ⟨f1, f2⟩ := snap_meets (lib := lib) (draw := draw) s1 e
    exact ⟨_, fin (str "cos") lib.cos (by simp [angleTable, f64]) f1, f1, f2⟩

/-- C162, multiples of 90 degrees: sine and cosine are exact. -/
theorem C162_right_angles (A : lib.Circular) (h : BuiltIn K debug docs (f64 lib draw) ((f64 lib draw).num B64.num) ctx) (x : B64) (hx : x.isFin)
    (h7 : |x.val| ≤ 10 ^ 7) (n : ℤ) (hn : x.val = 180 * n ∨ x.val = 180 * n + 90) :
    (∃ y, evalTokens ctx (callTokens (str "sin") [x]) = .ok y ∧ (y.val : ℝ) = Real.sin (degrees x.val)) ∧
    (∃ y, evalTokens ctx (callTokens (str "cos") [x]) = .ok y ∧ (y.val : ℝ) = Real.cos (degrees x.val)) := by
  obtain ⟨⟨y, h1, -, -, h2⟩, ⟨z, h3, -, -, h4⟩⟩ := C162_sine A h x hx h7
  have small : |(x.val : ℝ)| * (3 / 10 ^ 18) + 3 / 10 ^ 16 ≤ 1 / 10 ^ 10 := by
    have : ((|x.val| : ℚ) : ℝ) ≤ ((10 ^ 7 : ℚ) : ℝ) := Rat.cast_le.mpr h7
    rw [Rat.cast_abs] at this
    push_cast at this
    have h5 := mul_le_mul_of_nonneg_right this (by norm_num : (0 : ℝ) ≤ 3 / 10 ^ 18)
    refine (add_le_add_left h5 _).trans (by norm_num)
  have whole : ∃ a b : ℤ, Real.sin (degrees x.val) = a ∧ Real.cos (degrees x.val) = b := by
    rcases hn with hn | hn
    · have e : degrees x.val = n * Real.pi := by unfold degrees; rw [hn]; push_cast; ring
      refine ⟨0, (-1) ^ n.natAbs, by rw [e, Real.sin_int_mul_pi]; norm_num, ?_⟩
      rw [e, Real.cos_int_mul_pi]
      push_cast
      rcases Int.natAbs_eq n with h | h
      · conv_lhs => rw [h]
        rw [zpow_natCast]
      · conv_lhs => rw [h]
        rw [zpow_neg, zpow_natCast, ← inv_pow]
        norm_num
    · have e : degrees x.val = n * Real.pi + Real.pi / 2 := by unfold degrees; rw [hn]; push_cast; ring
      refine ⟨(-1) ^ n.natAbs, 0, ?_, by rw [e, Real.cos_add_pi_div_two, Real.sin_int_mul_pi]; norm_num⟩
      rw [e, Real.sin_add_pi_div_two, Real.cos_int_mul_pi]
      push_cast
      rcases Int.natAbs_eq n with h | h
      · conv_lhs => rw [h]
        rw [zpow_natCast]
      · conv_lhs => rw [h]
        rw [zpow_neg, zpow_natCast, ← inv_pow]
        norm_num
  obtain ⟨a, b, ha, hb⟩ := whole
  refine ⟨⟨y, h1, ?_⟩, ⟨z, h3, ?_⟩⟩
  · rw [h2 small a ha, ha]; push_cast; rfl
  · rw [h4 small b hb, hb]; push_cast; rfl

/-- C162, tangent: away from the poles. -/
theorem C162_tangent (A : lib.Circular) (h : BuiltIn K debug docs (f64 lib draw) ((f64 lib draw).num B64.num) ctx) (x : B64) (hx : x.isFin)
    (h7 : |x.val| ≤ 10 ^ 6) {c : ℝ} (hc : 1 / 1000 ≤ c) (hcos : c ≤ |Real.cos (degrees x.val)|) :
    ∃ y, evalTokens ctx (callTokens (str "tan") [x]) = .ok y ∧ y.isFin ∧
      Meets y.val (Real.tan (degrees x.val)) ((|(x.val : ℝ)| * (4 / 10 ^ 18) + 1 / 10 ^ 15) / c ^ 2) := by
  obtain ⟨r1, r2, r3⟩ := toRadians_near hx (h7.trans (by norm_num))
  generalize hr : mul x (div pi (lit 180)) = r at *
  have hv : |(x.val : ℝ)| ≤ 10 ^ 6 := by
    have : ((|x.val| : ℚ) : ℝ) ≤ ((10 ^ 6 : ℚ) : ℝ) := Rat.cast_le.mpr h7
    rw [Rat.cast_abs] at this
    push_cast at this
    exact this
  have hd : |(r.val : ℝ) - degrees x.val| ≤ 1 / 10 ^ 11 := by
    have h5 := mul_le_mul_of_nonneg_right hv (by norm_num : (0 : ℝ) ≤ 3 / 10 ^ 18)
    refine r2.trans ((add_le_add_left h5 _).trans (by norm_num))
  have hc0 : 0 < c := by linarith
  have hc1 : c ≤ 1 := hcos.trans (Real.abs_cos_le_one _)
  have hcr : c * (9999 / 10000) ≤ |Real.cos r.val| := by
    have h1 := Real.abs_cos_sub_cos_le (r.val : ℝ) (degrees x.val)
    have h2 := abs_sub_abs_le_abs_sub (Real.cos (degrees x.val)) (Real.cos r.val)
    rw [abs_sub_comm] at h2
    linarith
  obtain ⟨s1, s2⟩ := A.tan _ r1 r3 (le_trans (by norm_num; linarith) hcr)
  have ht := tan_close (by positivity) hcr (le_trans (by linarith) hcos)
  have htr : |Real.tan r.val| ≤ 1 / (c * (9999 / 10000)) := by
    rw [Real.tan_eq_sin_div_cos, abs_div]
    exact div_le_div₀ (by norm_num) (Real.abs_sin_le_one _) (by positivity) hcr
  have e : |((lib.tan r).val : ℝ) - Real.tan (degrees x.val)| ≤ (|(x.val : ℝ)| * (4 / 10 ^ 18) + 1 / 10 ^ 15) / c ^ 2 := by
    have h1 := abs_sub_le ((lib.tan r).val : ℝ) (Real.tan r.val) (Real.tan (degrees x.val))
    rw [le_div_iff₀ (by positivity)]
    rw [le_div_iff₀ (by positivity)] at ht htr
    have h3 : |((lib.tan r).val : ℝ) - Real.tan r.val| * c ^ 2 ≤ 5 / 10 ^ 16 := by
      calc |((lib.tan r).val : ℝ) - Real.tan r.val| * c ^ 2 ≤ (|Real.tan r.val| / 2 ^ 51 + 1 / 2 ^ 100) * c ^ 2 :=
          mul_le_mul_of_nonneg_right s2 (by positivity)
        _ = |Real.tan r.val| * (c * (9999 / 10000)) * (c * (10000 / 9999) / 2 ^ 51) + c ^ 2 * (1 / 2 ^ 100) := by ring
        _ ≤ 1 * (c * (10000 / 9999) / 2 ^ 51) + c ^ 2 * (1 / 2 ^ 100) := add_le_add_left (mul_le_mul_of_nonneg_right htr (by positivity)) _
        _ ≤ 5 / 10 ^ 16 := by
          have h1 : c * (10000 / 9999) / 2 ^ 51 ≤ 1 * (10000 / 9999) / 2 ^ 51 := by gcongr
          have h2 : c ^ 2 * (1 / 2 ^ 100) ≤ 1 * (1 / 2 ^ 100) := mul_le_mul_of_nonneg_right (pow_le_one₀ hc0.le hc1) (by positivity)
          rw [one_mul]
          exact (add_le_add h1 h2).trans (by norm_num)
    have h4 : |Real.tan r.val - Real.tan (degrees x.val)| * c ^ 2 ≤ |(x.val : ℝ)| * (4 / 10 ^ 18) + 1 / 10 ^ 16 := by
      have h5 : |Real.tan r.val - Real.tan (degrees x.val)| * c ^ 2 * (9999 / 10000) ^ 2 ≤ |(x.val : ℝ)| * (3 / 10 ^ 18) + 1 / 10 ^ 100 := by
        refine le_trans (le_of_eq (by ring)) (ht.trans r2)
      have h6 := abs_nonneg (x.val : ℝ)
      norm_num at h5 ⊢
      linarith
    have h8 : |((lib.tan r).val : ℝ) - Real.tan (degrees x.val)| * c ^ 2 ≤
        |((lib.tan r).val : ℝ) - Real.tan r.val| * c ^ 2 + |Real.tan r.val - Real.tan (degrees x.val)| * c ^ 2 := by
      rw [← add_mul]
      exact mul_le_mul_of_nonneg_right h1 (by positivity)
    linarith
  obtain ⟨f1, f2⟩ := snap_meets (lib := lib) (draw := draw) s1 e
  refine ⟨_, ?_, f1, f2⟩
  have := (C82_one_argument h x x rfl).2.1 (str "tan", lib.tan) (by simp [angleTable, f64])
  have e2 : (f64 lib draw).toRadians x = r := hr
  simp only [e2] at this
  exact this.1 f1

/-- C162: 90 degrees have no tangent; the result is a number above 10^15. -/
theorem C162_pole (A : lib.Circular) (h : BuiltIn K debug docs (f64 lib draw) ((f64 lib draw).num B64.num) ctx) (x : B64) (hx : x.isFin)
    (h90 : x.val = 90) : ∃ y, evalTokens ctx (callTokens (str "tan") [x]) = .ok y ∧ y.isFin ∧ 10 ^ 15 ≤ y.val := by
  obtain ⟨r1, r2, r3⟩ := toRadians_near hx (by rw [h90]; norm_num)
  have hrv : (mul x (div pi (lit 180))).val = 884279719003555 / 562949953421312 := by
    have hk : (div pi (lit 180)).val = rnd (884279719003555 / 281474976710656 / 180) := by decide +kernel
    have hnl : ¬ TooLarge (x.val * (div pi (lit 180)).val) := by
      rw [h90]
      have : IsDouble 90 := by have := isDouble_int (n := 90) (by norm_num); push_cast at this; exact this
      refine small_between this ?_
      decide +kernel
    rw [mul_fin hx radian_val.1, (of_fin _ hnl).2, h90]
    decide +kernel
  generalize hr : mul x (div pi (lit 180)) = r at *
  have e1 : (r.val : ℝ) = 884279719003555 / 562949953421312 := by rw [hrv]; norm_num
  obtain ⟨p1, p2⟩ := pi_bounds
  have d1 : 0 < Real.pi / 2 - r.val := by rw [e1]; norm_num; linarith
  have d2 : Real.pi / 2 - r.val ≤ 7 / 10 ^ 17 := by rw [e1]; norm_num; linarith
  have hcos : 1 / 10 ^ 17 ≤ |Real.cos r.val| := by
    rw [← Real.sin_pi_div_two_sub]
    refine le_trans ?_ (le_abs_self _)
    have h1 := Real.mul_le_sin d1.le (by linarith [d2, p1] : Real.pi / 2 - r.val ≤ Real.pi / 2)
    have h2 : 1 / 2 * (Real.pi / 2 - r.val) ≤ 2 / Real.pi * (Real.pi / 2 - r.val) := by
      refine mul_le_mul_of_nonneg_right ?_ d1.le
      rw [div_le_div_iff₀ (by norm_num) Real.pi_pos]
      linarith
    have d3 : 6 / 10 ^ 17 ≤ Real.pi / 2 - r.val := by rw [e1]; norm_num; linarith
    norm_num at d3 ⊢
    linarith
  obtain ⟨s1, s2⟩ := A.tan _ r1 r3 hcos
  have ht : (7 : ℝ) * 10 ^ 15 ≤ Real.tan r.val := by
    have h1 : Real.tan r.val = Real.cos (Real.pi / 2 - r.val) / Real.sin (Real.pi / 2 - r.val) := by
      rw [Real.tan_eq_sin_div_cos, Real.cos_pi_div_two_sub, Real.sin_pi_div_two_sub]
    rw [h1]
    have h2 : Real.sin (Real.pi / 2 - r.val) ≤ 7 / 10 ^ 17 := (Real.sin_le d1.le).trans d2
    have h3 : 0 < Real.sin (Real.pi / 2 - r.val) := Real.sin_pos_of_pos_of_lt_pi d1 (by linarith)
    have h4 : 1 / 2 ≤ Real.cos (Real.pi / 2 - r.val) := by
      have := Real.one_sub_sq_div_two_le_cos (x := Real.pi / 2 - r.val)
      have h5 : (Real.pi / 2 - r.val) ^ 2 ≤ (7 / 10 ^ 17) ^ 2 := pow_le_pow_left₀ d1.le d2 2
      norm_num at h5
      linarith
    rw [le_div_iff₀ h3]
    norm_num at h2 ⊢
    linarith
  have hv : (2 : ℝ) * 10 ^ 15 ≤ (lib.tan r).val := by
    rw [abs_of_pos (by linarith : 0 < Real.tan r.val), abs_le] at s2
    norm_num at s2 ht ⊢
    linarith [s2.1]
  obtain ⟨f1, f2, -⟩ := snap_meets (lib := lib) (draw := draw) (t := (lib.tan r).val) (e := 0) s1 (by simp)
  refine ⟨_, ?_, f1, ?_⟩
  · have := (C82_one_argument h x x rfl).2.1 (str "tan", lib.tan) (by simp [angleTable, f64])
    have e2 : (f64 lib draw).toRadians x = r := hr
    simp only [e2] at this
    exact this.1 f1
  · have h9 : |((snap (f64 lib draw) (lib.tan r)).val : ℝ) - (lib.tan r).val| ≤ 1 := by
      rcases f2 with h | ⟨n, -, h⟩
      · linarith
      · refine h.trans (by norm_num)
    rw [abs_le] at h9
    have h10 : (((10 ^ 15 : ℚ)) : ℝ) ≤ (snap (f64 lib draw) (lib.tan r)).val := by
      push_cast
      norm_num at hv ⊢
      linarith [h9.1]
    exact Rat.cast_le.mp h10

/-! ## Examples -/

namespace B64

/-- The double nearest to a real number. -/
noncomputable def nearestTo (t : ℝ) : B64 := if t < 0 then neg (of false (-t)) else of false t

theorem nearestTo_near {t : ℝ} (h : |t| ≤ 2 ^ 1000) : (nearestTo t).isFin ∧ |((nearestTo t).val : ℝ) - t| ≤ |t| / 2 ^ 53 + 1 / 2 ^ 200 := by
  have h1 : (2 : ℝ) ^ 1000 ≤ 2 ^ 1023 := pow_le_pow_right₀ (by norm_num) (by norm_num)
  have h2 : (1 : ℝ) / 2 ^ 1022 ≤ 1 / 2 ^ 200 := one_div_le_one_div_of_le (by positivity) (pow_le_pow_right₀ (by norm_num) (by norm_num))
  have key : ∀ t : ℝ, 0 ≤ t → t ≤ 2 ^ 1000 → (of false t).isFin ∧ |((of false t).val : ℝ) - t| ≤ t / 2 ^ 53 + 1 / 2 ^ 200 := by
    intro t h0 ht
    refine ⟨(of_real h0 (ht.trans h1) false).1, ?_⟩
    rw [abs_sub_comm]
    by_cases hs : 1 / 2 ^ 1022 ≤ t
    · have := of_real_error hs (ht.trans h1) false
      have h3 : (0 : ℝ) ≤ 1 / 2 ^ 200 := by positivity
      linarith
    · push Not at hs
      have hz : IsDouble 0 := by simpa using isDouble_int (n := 0) (by norm_num)
      have := of_real_nearest h0 (ht.trans h1) false 0 hz
      rw [Rat.cast_zero, sub_zero, abs_of_nonneg h0] at this
      have h3 : 0 ≤ t / 2 ^ 53 := by positivity
      generalize (1 : ℝ) / 2 ^ 1022 = u at *
      linarith
  unfold nearestTo
  split
  · next h0 =>
    rw [abs_of_neg h0] at h ⊢
    obtain ⟨k1, k2⟩ := key (-t) (by linarith) h
    obtain ⟨a, k, hk, e⟩ := isFin_fin k1
    rw [e] at k2 ⊢
    refine ⟨⟨rfl, rfl⟩, ?_⟩
    have : (neg (.fin a k hk)).val = -(B64.fin a k hk).val := by cases a <;> simp [neg, val, neg_div]
    rw [this]
    push_cast
    rw [show (-((B64.fin a k hk).val : ℝ) - t) = -(((B64.fin a k hk).val : ℝ) - -t) by ring, abs_neg]
    exact k2
  · next h0 =>
    push Not at h0
    rw [abs_of_nonneg h0] at h ⊢
    exact key t h0 h

/-- Any library, with these three functions: the nearest doubles. -/
noncomputable def withCircle (lib : Libm) : Libm :=
  { lib with sin := fun x => nearestTo (Real.sin x.val), cos := fun x => nearestTo (Real.cos x.val), tan := fun x => nearestTo (Real.tan x.val) }

/-- The contract can be met. -/
theorem withCircle_contract (lib : Libm) : (withCircle lib).Circular := by
  have big : ∀ t : ℝ, |t| ≤ 10 ^ 17 → |t| ≤ 2 ^ 1000 := fun t ht => ht.trans (by
    calc (10 : ℝ) ^ 17 ≤ 16 ^ 17 := pow_le_pow_left₀ (by norm_num) (by norm_num) _
      _ = 2 ^ 68 := by rw [show (16 : ℝ) = 2 ^ 4 by norm_num, ← pow_mul]
      _ ≤ _ := pow_le_pow_right₀ (by norm_num) (by norm_num))
  have unit : ∀ t : ℝ, |t| ≤ 1 → (nearestTo t).isFin ∧ |((nearestTo t).val : ℝ) - t| ≤ 1 / 2 ^ 52 := by
    intro t ht
    obtain ⟨h1, h2⟩ := nearestTo_near (big t (ht.trans (by norm_num)))
    refine ⟨h1, h2.trans ?_⟩
    have : |t| / 2 ^ 53 ≤ 1 / 2 ^ 53 := by gcongr
    refine (add_le_add_left this _).trans (by norm_num)
  refine ⟨fun x _ _ => unit _ (Real.abs_sin_le_one _), fun x _ _ => unit _ (Real.abs_cos_le_one _), fun x _ _ hc => ?_⟩
  have ht : |Real.tan x.val| ≤ 10 ^ 17 := by
    rw [Real.tan_eq_sin_div_cos, abs_div, div_le_iff₀ (lt_of_lt_of_le (by norm_num) hc)]
    refine (Real.abs_sin_le_one _).trans ?_
    have := mul_le_mul_of_nonneg_left hc (by norm_num : (0 : ℝ) ≤ 10 ^ 17)
    refine le_trans (by norm_num) this
  obtain ⟨h1, h2⟩ := nearestTo_near (big _ ht)
  refine ⟨h1, h2.trans ?_⟩
  have : |Real.tan x.val| / 2 ^ 53 ≤ |Real.tan x.val| / 2 ^ 51 := by gcongr <;> norm_num
  linarith

end B64

/-- The hypotheses are met: some library meets the contract, 450 is a multiple of 90, and the cosine of 45 degrees is above 1/1000. -/
example (lib : Libm) : (withCircle lib).Circular ∧ (lit 450).isFin ∧ (lit 450).val = 180 * (2 : ℤ) + 90 ∧ (lit 45).val = 45 ∧
    (1 : ℝ) / 1000 ≤ 1 / 2 ∧ 1 / 2 ≤ |Real.cos (degrees 45)| := by
  refine ⟨withCircle_contract lib, ⟨by decide +kernel, by decide +kernel⟩, by decide +kernel, by decide +kernel, by norm_num, ?_⟩
  have : degrees 45 = Real.pi / 4 := by unfold degrees; push_cast; ring
  rw [this, Real.cos_pi_div_four, abs_of_pos (by positivity)]
  have : (1 : ℝ) ≤ √2 := by rw [Real.one_le_sqrt]; norm_num
  linarith

end

end Prexel
