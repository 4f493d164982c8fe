import Verif.Props.DecimalLogs
import Verif.Lemmas.DecimalExp
/-!
# C93: logarithms of decimals to any base
-/

namespace Prexel
variable {D F : Type} {d : Dec D F}

theorem Dec.Laws.log_abs_le (L : d.Laws) {x : D} (h : 1 / 10 ≤ L.val x) : |Real.log (L.val x)| ≤ 70 := by
  have h0 : (1 / 10 : ℝ) ≤ L.val x := by
    have := (Rat.cast_le (K := ℝ)).mpr h
    push_cast at this
    exact this
  have hb : (L.val x : ℝ) ≤ 8 * 10 ^ 28 := by
    have := (Rat.cast_le (K := ℝ)).mpr (bounded_abs.mp (representable_bounded (L.range x)))
    rw [maxDecimal_eq] at this
    push_cast at this
    linarith [le_abs_self (L.val x : ℝ)]
  have he := Real.exp_one_gt_d9
  have e70 : (8 * 10 ^ 28 : ℝ) ≤ Real.exp 70 := by
    have : Real.exp 70 = Real.exp 1 ^ 70 := by rw [← Real.exp_nat_mul]; norm_num
    rw [this]
    calc (8 * 10 ^ 28 : ℝ) ≤ 2.7 ^ 70 := by norm_num
      _ ≤ Real.exp 1 ^ 70 := pow_le_pow_left₀ (by norm_num) (by linarith) _
  rw [abs_le]
  constructor
  · have : Real.log (1 / 10) ≤ Real.log (L.val x) := Real.log_le_log (by norm_num) h0
    have h10 : Real.log 10 ≤ 10 - 1 := Real.log_le_sub_one_of_pos (by norm_num)
    rw [one_div, Real.log_inv] at this
    linarith
  · rw [Real.log_le_iff_le_exp (by linarith)]
    linarith

/-- The error of a quotient of two numbers that are nearly right. -/
theorem quotient_near {y z A B e : ℝ} (he : 0 ≤ e) (hy : |y - A| ≤ e) (hz : |z - B| ≤ e) (hB : 10 ^ 5 * e < |B|) :
    |y / z - A / B| ≤ 11 / 10 * e * (1 + |A / B|) / |B| := by
  have hB0 : 0 < |B| := by linarith [mul_nonneg (by norm_num : (0 : ℝ) ≤ 10 ^ 5) he]
  have hz1 : 10 / 11 * |B| ≤ |z| := by
    have := abs_sub_abs_le_abs_sub B z
    rw [abs_sub_comm] at this
    linarith
  have hz0 : 0 < |z| := by linarith
  have hBn : B ≠ 0 := abs_pos.mp hB0
  have hzn : z ≠ 0 := abs_pos.mp hz0
  have e1 : y / z - A / B = ((y - A) - A / B * (z - B)) / z := by field_simp; ring
  rw [e1, abs_div, div_le_div_iff₀ hz0 hB0]
  have hn : |(y - A) - A / B * (z - B)| ≤ e * (1 + |A / B|) := by
    refine (abs_sub _ _).trans ?_
    rw [abs_mul]
    have := mul_le_mul_of_nonneg_left hz (abs_nonneg (A / B))
    linarith
  have hp : 0 ≤ e * (1 + |A / B|) := mul_nonneg he (by positivity)
  calc |(y - A) - A / B * (z - B)| * |B| ≤ e * (1 + |A / B|) * |B| := mul_le_mul_of_nonneg_right hn hB0.le
    _ ≤ e * (1 + |A / B|) * (11 / 10 * |z|) := mul_le_mul_of_nonneg_left (by linarith) hp
    _ = 11 / 10 * e * (1 + |A / B|) * |z| := by ring

/-- C93 for the other bases: numbers and bases from 1/10 on, the base not too near to 1. Missing: numbers and bases below 1/10, and bases so close to 1 that
the error of their logarithm matters. -/
theorem C93_log_base_partial (K : Keys) (debug : Bool) (L : d.Laws) (hfuel : 100 ≤ d.fuel) (f : F64 F) (config : Config) (c : Context D)
    (hc : d.context K debug f config = .ok c) (os : List (Op D)) (x b : D) (hx : 1 / 10 ≤ L.val x) (hb : 1 / 10 ≤ L.val b)
    (hb10 : L.val b ≠ 10) (hb1 : 1 / 10 ^ 10 ≤ |Real.log (L.val b)|) :
    ∃ z, evalTokens ((c.runAll K debug os).view K) (callTokens (str "log") [x, b]) = .ok z ∧
      |(L.val z : ℝ) - Real.logb (L.val b) (L.val x)| ≤ 3 / 10 ^ 16 * (1 + |Real.logb (L.val b) (L.val x)|) / |Real.log (L.val b)| := by
  obtain ⟨y, hy, ny⟩ := L.ln_near hfuel hx
  obtain ⟨w, hw, nw⟩ := L.ln_near hfuel hb
  have ax := L.log_abs_le hx
  have ab := L.log_abs_le hb
  have hl : Real.logb (L.val b) (L.val x) = Real.log (L.val x) / Real.log (L.val b) := rfl
  have hq := quotient_near (e := 2 / 10 ^ 16) (by norm_num) ny nw (by linarith)
  rw [hl]
  generalize Real.log (L.val x) = A at *
  generalize Real.log (L.val b) = B at *
  have hB0 : 0 < |B| := by linarith
  have hA : |A / B| ≤ 70 * 10 ^ 10 := by
    rw [abs_div, div_le_iff₀ hB0]
    linarith
  have hq' : |(L.val y : ℝ) / L.val w| ≤ 2 * (1 + |A / B|) := by
    have h1 := abs_sub_abs_le_abs_sub ((L.val y : ℝ) / L.val w) (A / B)
    have h2 : 11 / 10 * (2 / 10 ^ 16) * (1 + |A / B|) / |B| ≤ 1 + |A / B| := by
      rw [div_le_iff₀ hB0, mul_comm]
      refine mul_le_mul_of_nonneg_left ?_ (by positivity)
      linarith
    linarith
  have hw0 : (L.val w : ℝ) ≠ 0 := by
    intro h0
    rw [h0, zero_sub, abs_neg] at nw
    linarith
  obtain ⟨z, hz, nz⟩ := L.cdiv_real (x := y) (y := w) (a := 1 + |L.val y / L.val w|) hw0 (by linarith [abs_nonneg (L.val y / L.val w)])
    (by push_cast; linarith) (by
      have : ((1 + |L.val y / L.val w| : Rat) : ℝ) ≤ ((79 * 10 ^ 27 : Rat) : ℝ) := by
        push_cast
        linarith
      exact_mod_cast this)
  push_cast at nz
  refine ⟨z, ?_, ?_⟩
  · rw [decimal_call hc os (g := _) rfl]
    show d.log x b = _
    have he : ¬ d.eq b d.ten = true := by rw [L.eq, L.ten_val]; exact hb10
    simp only [Dec.log, he, Res.bind_eq, hy, hw, Res.bind_ok]
    exact hz
  have e : (L.val z : ℝ) - A / B = (L.val z - L.val y / L.val w) + (L.val y / L.val w - A / B) := by ring
  rw [e]
  refine (abs_add_le _ _).trans ?_
  have h3 : 2 / 10 ^ 28 * (1 + |(L.val y : ℝ) / L.val w|) ≤ 1 / 10 ^ 20 * (1 + |A / B|) / |B| := by
    rw [le_div_iff₀ hB0]
    have h4 : 2 / 10 ^ 28 * (1 + |(L.val y : ℝ) / L.val w|) ≤ 6 / 10 ^ 28 * (1 + |A / B|) := by linarith [abs_nonneg (A / B)]
    have h5 := mul_le_mul h4 ab hB0.le (by positivity)
    linarith [abs_nonneg (A / B)]
  have h6 : 1 / 10 ^ 20 * (1 + |A / B|) / |B| + 11 / 10 * (2 / 10 ^ 16) * (1 + |A / B|) / |B| ≤ 3 / 10 ^ 16 * (1 + |A / B|) / |B| := by
    rw [← add_div]
    refine div_le_div_of_nonneg_right ?_ hB0.le
    linarith [abs_nonneg (A / B)]
  linarith

/-- `log(8, 2)` is 3 up to 2·10^-15. -/
example : ∃ c, Demo.dec.context Demo.keys true Demo.float Config.new = .ok c ∧
    ∃ z, evalTokens (c.view Demo.keys) (callTokens (str "log") [Demo.decimal 8, Demo.decimal 2]) = .ok z ∧ |(z.1 : ℝ) - 3| ≤ 2 / 10 ^ 15 := by
  obtain ⟨c, hc, -⟩ := decimal_build Demo.keys true Demo.dec Demo.float Config.new
  have h8 : Demo.decLaws.val (Demo.decimal 8) = 8 := by decide +kernel
  have h2 : Demo.decLaws.val (Demo.decimal 2) = 2 := by decide +kernel
  have hl := Real.log_two_gt_d9
  obtain ⟨z, hz, hn⟩ := C93_log_base_partial Demo.keys true Demo.decLaws (le_refl 100) Demo.float Config.new c hc [] (Demo.decimal 8) (Demo.decimal 2)
    (by rw [h8]; norm_num) (by rw [h2]; norm_num) (by rw [h2]; norm_num) (by
      rw [h2]
      push_cast
      rw [abs_of_pos (by linarith)]
      linarith)
  refine ⟨c, hc, z, hz, ?_⟩
  rw [h8, h2] at hn
  push_cast at hn
  have e : Real.logb 2 8 = 3 := by
    rw [show (8 : ℝ) = 2 ^ (3 : ℕ) by norm_num, Real.logb_pow, Real.logb_self_eq_one (by norm_num)]
    norm_num
  rw [e, abs_of_pos (by norm_num : (0 : ℝ) < 3), abs_of_pos (by linarith : 0 < Real.log 2)] at hn
  refine hn.trans ?_
  rw [div_le_iff₀ (by linarith)]
  linarith

end Prexel
