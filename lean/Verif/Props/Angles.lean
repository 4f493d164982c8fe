import Verif.Props.DecimalExp
import Verif.Lemmas.DecimalDegrees
/-!
# Properties C94 and C100: sine, cosine and conversion of angles, for every decimal
-/

set_option linter.unusedVariables false

namespace Prexel
variable {D F : Type} {d : Dec D F}

namespace Dec.Laws
variable (L : d.Laws)

theorem val_range (x : D) : |L.val x| ≤ 8 * 10 ^ 28 := by
  have := bounded_abs.mp (representable_bounded (L.range x))
  rw [maxDecimal_eq] at this
  linarith

theorem pi_value : L.val d.pi = 31415926535897932384626433833 / 10 ^ 28 := by
  have := L.pi
  rw [eq_div_iff (by norm_num)]
  push_cast at this
  exact this

theorem perRadian : ∃ k, d.div (d.nat 180) d.pi = .ok k ∧ |(L.val k : ℝ) - 180 / Real.pi| ≤ 2 / 10 ^ 26 ∧ 57295 / 1000 ≤ L.val k ∧
    L.val k ≤ 57296 / 1000 := by
  have u : unit = 2 / 10 ^ 28 := rfl
  have hpi := L.pi_value
  have v180 : L.val (d.nat 180) = 180 := L.nat_val (n := 180) (by decide)
  obtain ⟨k, hk, nk, -⟩ := L.div_near (x := d.nat 180) (y := d.pi) (a := 58) (by rw [hpi]; norm_num) (by norm_num)
    (by rw [v180, hpi, abs_of_pos] <;> norm_num) (by norm_num)
  rw [v180, u] at nk
  refine ⟨k, hk, ?_, ?_, ?_⟩
  · have nkR := (Rat.cast_le (K := ℝ)).mpr nk
    push_cast at nkR
    have hp := L.pi_real
    have hps := abs_le.mp hp
    have p3 := Real.pi_gt_d2
    have hd : (0 : ℝ) < L.val d.pi := by linarith [hps.1]
    have h2 : |180 / (L.val d.pi : ℝ) - 180 / Real.pi| ≤ 2 / 10 ^ 27 := by
      have e : 180 / (L.val d.pi : ℝ) - 180 / Real.pi = -180 * (L.val d.pi - Real.pi) / (L.val d.pi * Real.pi) := by
        have := Real.pi_pos
        field_simp
        ring
      rw [e, abs_div, abs_mul, abs_of_pos (mul_pos hd Real.pi_pos), div_le_iff₀ (mul_pos hd Real.pi_pos)]
      have h9 : (9 : ℝ) ≤ L.val d.pi * Real.pi := by nlinarith [hps.1]
      norm_num
      norm_num at hp
      nlinarith
    rw [abs_le] at h2 nkR ⊢
    constructor <;> linarith [h2.1, h2.2, nkR.1, nkR.2]
  · rw [hpi, abs_le] at nk; linarith [nk.1]
  · rw [hpi, abs_le] at nk; linarith [nk.2]

end Dec.Laws

/-- The conversion to radians. -/
theorem Dec.Laws.toRadians_any (L : d.Laws) (x : D) : ∃ z, d.toRadians x = .ok z ∧
    |(L.val z : ℝ) - L.val x * Real.pi / 180| ≤ 1 / 10 ^ 16 + 42 / 10 ^ 29 * max 1 |(L.val x : ℝ)| := by
  have u : unit = 2 / 10 ^ 28 := rfl
  have hpi := L.pi_value
  have v180 : L.val (d.nat 180) = 180 := L.nat_val (n := 180) (by decide)
  obtain ⟨k, hk, nk, -⟩ := L.div_near (x := d.pi) (y := d.nat 180) (a := 1) (by rw [v180]; norm_num) (by norm_num)
    (by rw [v180, hpi, abs_of_pos] <;> norm_num) (by norm_num)
  rw [v180, u] at nk
  have kb : |L.val k| ≤ 2 / 100 := by
    rw [hpi] at nk
    rw [abs_le] at nk ⊢
    constructor <;> linarith [nk.1, nk.2]
  have hx := L.val_range x
  have hb0 : |L.val x| ≤ max 1 |L.val x| := le_max_right _ _
  have hb1 : 1 ≤ max 1 |L.val x| := le_max_left _ _
  have hb2 : max 1 |L.val x| ≤ 8 * 10 ^ 28 := max_le (by norm_num) hx
  have xk : |L.val x * L.val k| ≤ 2 / 100 * max 1 |L.val x| := by
    rw [abs_mul, mul_comm]
    exact mul_le_mul kb hb0 (abs_nonneg _) (by norm_num)
  obtain ⟨y0, hy0, ny0, -⟩ := L.mul_near (x := x) (y := k) (a := 1 + 2 / 100 * max 1 |L.val x|) (by linarith) (by linarith) (by linarith)
  obtain ⟨y, hy, ny, -⟩ := L.approx_near y0
  refine ⟨y, ?_, ?_⟩
  · simp only [Dec.toRadians, Res.bind_eq, hk, Res.bind_ok, hy0, hy]
  rw [u] at ny0
  have R : ∀ {a b : Rat}, a ≤ b → (a : ℝ) ≤ b := fun h => (Rat.cast_le (K := ℝ)).mpr h
  have nkR := R nk
  have nyR := R ny
  have ny0R := R ny0
  push_cast at nkR nyR ny0R
  have hkR : |(L.val k : ℝ) - Real.pi / 180| ≤ 21 / 10 ^ 29 := by
    have hp := L.pi_real
    rw [abs_le] at hp nkR ⊢
    constructor <;> linarith [hp.1, hp.2, nkR.1, nkR.2]
  generalize hM : max 1 |(L.val x : ℝ)| = M at *
  have m0 : |(L.val x : ℝ)| ≤ M := hM ▸ le_max_right _ _
  have m1 : 1 ≤ M := hM ▸ le_max_left _ _
  have e : (L.val y : ℝ) - L.val x * Real.pi / 180 =
      (L.val y - L.val y0) + ((L.val y0 - L.val x * L.val k) + L.val x * (L.val k - Real.pi / 180)) := by ring
  rw [e]
  refine (abs_add_le _ _).trans (add_le_add nyR ((abs_add_le _ _).trans ?_))
  rw [abs_mul]
  have := mul_le_mul m0 hkR (abs_nonneg _) (by linarith)
  linarith

/-- C100. `to_radians` of any decimal is never an error, and right up to 10^-16 and 42 units of the 29th digit of the angle. -/
theorem C100_to_radians (K : Keys) (debug : Bool) (L : d.Laws) (f : F64 F) (config : Config) (c : Context D)
    (hc : d.context K debug f config = .ok c) (os : List (Op D)) (x : D) :
    ∃ z, evalTokens ((c.runAll K debug os).view K) (callTokens (str "to_radians") [x]) = .ok z ∧
      |(L.val z : ℝ) - L.val x * Real.pi / 180| ≤ 1 / 10 ^ 16 + 42 / 10 ^ 29 * max 1 |(L.val x : ℝ)| := by
  rw [decimal_call hc os (g := _) rfl]
  show ∃ z, d.toRadians x = .ok z ∧ _
  exact L.toRadians_any x

/-- Sine and cosine of any angle in radians. -/
theorem Dec.Laws.turn_any (L : d.Laws) {x r : D} (hr : d.rem x d.pi2 = .ok r) :
    |Real.sin (L.val x) - Real.sin (L.val r)| ≤ |(L.val x : ℝ)| / 10 ^ 28 ∧ |Real.cos (L.val x) - Real.cos (L.val r)| ≤ |(L.val x : ℝ)| / 10 ^ 28 := by
  obtain ⟨r', hr', -, w, hw, hv⟩ := L.turn x
  rw [hr] at hr'
  cases hr'
  have hd : |((L.val x : ℝ) - w * (2 * Real.pi)) - L.val r| ≤ |(L.val x : ℝ)| / 10 ^ 28 := by
    have e : ((L.val x : ℝ) - w * (2 * Real.pi)) - L.val r = w * (L.val d.pi2 - 2 * Real.pi) := by rw [hv]; ring
    rw [e, abs_mul]
    have := mul_le_mul hw L.pi2_real (abs_nonneg _) (by positivity)
    have := abs_nonneg (L.val x : ℝ)
    linarith
  constructor
  · rw [← Real.sin_sub_int_mul_two_pi _ w]
    exact (Real.abs_sin_sub_sin_le _ _).trans hd
  · rw [← Real.cos_sub_int_mul_two_pi _ w]
    exact (Real.abs_cos_sub_cos_le _ _).trans hd

/-- Sine and cosine of any angle in degrees. -/
theorem Dec.Laws.trig_any (L : d.Laws) (x : D) : ∃ y s c, d.toRadians x = .ok y ∧ d.sin y = .ok s ∧ d.cos y = .ok c ∧
    |(L.val s : ℝ) - Real.sin (L.val x * Real.pi / 180)| ≤ 3 / 10 ^ 16 + 45 / 10 ^ 29 * max 1 |(L.val x : ℝ)| ∧
    |(L.val c : ℝ) - Real.cos (L.val x * Real.pi / 180)| ≤ 3 / 10 ^ 16 + 45 / 10 ^ 29 * max 1 |(L.val x : ℝ)| := by
  obtain ⟨y, hy, hn⟩ := L.toRadians_any x
  obtain ⟨r, s, hr, hs, ns, -, -⟩ := L.sin_snapped y
  obtain ⟨r', c, hr', hc, nc, -, -⟩ := L.cos_snapped y
  rw [hr] at hr'
  cases hr'
  obtain ⟨t1, t2⟩ := L.turn_any hr
  have ds := Real.abs_sin_sub_sin_le (L.val y : ℝ) (L.val x * Real.pi / 180)
  have dc := Real.abs_cos_sub_cos_le (L.val y : ℝ) (L.val x * Real.pi / 180)
  generalize hM : max 1 |(L.val x : ℝ)| = M at *
  have m0 : |(L.val x : ℝ)| ≤ M := hM ▸ le_max_right _ _
  have m1 : 1 ≤ M := hM ▸ le_max_left _ _
  have hy0 : |(L.val y : ℝ)| ≤ M / 5 := by
    have h1 : |(L.val x : ℝ) * Real.pi / 180| ≤ M / 10 := by
      rw [abs_div, abs_mul, abs_of_pos Real.pi_pos, abs_of_pos (by norm_num : (0 : ℝ) < 180)]
      have := Real.pi_lt_d2
      have := Real.pi_pos
      have := abs_nonneg (L.val x : ℝ)
      rw [div_le_iff₀ (by norm_num)]
      nlinarith
    have e : (L.val y : ℝ) = (L.val y - L.val x * Real.pi / 180) + L.val x * Real.pi / 180 := by ring
    rw [e]
    refine (abs_add_le _ _).trans ?_
    linarith
  have tri : ∀ {a b c s t : ℝ}, |a - b| ≤ s → |b - c| ≤ t → |a - c| ≤ s + t := fun h1 h2 =>
    (abs_sub_le _ _ _).trans (add_le_add h1 h2)
  rw [abs_sub_comm] at t1 t2
  exact ⟨y, s, c, hy, hs, hc, (tri (tri ns t1) (ds.trans hn)).trans (by linarith), (tri (tri nc t2) (dc.trans hn)).trans (by linarith)⟩

/-- C94. The sine and the cosine of every decimal exist and are right up to 3·10^-16 and 45 units of the 29th digit of the angle. -/
theorem C94_any_angle (K : Keys) (debug : Bool) (L : d.Laws) (f : F64 F) (config : Config) (c : Context D)
    (hc : d.context K debug f config = .ok c) (os : List (Op D)) (x : D) :
    (∃ z, evalTokens ((c.runAll K debug os).view K) (callTokens (str "sin") [x]) = .ok z ∧
      |(L.val z : ℝ) - Real.sin (L.val x * Real.pi / 180)| ≤ 3 / 10 ^ 16 + 45 / 10 ^ 29 * max 1 |(L.val x : ℝ)|) ∧
    (∃ z, evalTokens ((c.runAll K debug os).view K) (callTokens (str "cos") [x]) = .ok z ∧
      |(L.val z : ℝ) - Real.cos (L.val x * Real.pi / 180)| ≤ 3 / 10 ^ 16 + 45 / 10 ^ 29 * max 1 |(L.val x : ℝ)|) := by
  rw [decimal_call hc os (g := _) (name := str "sin") rfl, decimal_call hc os (g := _) (name := str "cos") rfl]
  obtain ⟨y, s, k, hy, hs, hk, ns, nk⟩ := L.trig_any x
  refine ⟨⟨s, ?_, ns⟩, ⟨k, ?_, nk⟩⟩
  · show (d.toRadians x).bind d.sin = _
    rw [hy, Res.bind_ok, hs]
  · show (d.toRadians x).bind d.cos = _
    rw [hy, Res.bind_ok, hk]

/-- C100. `to_degrees` of any decimal up to 1.378 * 10^27, that is, for nearly all whose result fits, is right up to 10^-16 and 4 units of the 26th
digit of the angle. -/
theorem C100_to_degrees_range_partial (K : Keys) (debug : Bool) (L : d.Laws) (f : F64 F) (config : Config) (c : Context D)
    (hc : d.context K debug f config = .ok c) (os : List (Op D)) (x : D) (hx : |L.val x| ≤ 1378 * 10 ^ 24) :
    ∃ z, evalTokens ((c.runAll K debug os).view K) (callTokens (str "to_degrees") [x]) = .ok z ∧
      |(L.val z : ℝ) - L.val x * 180 / Real.pi| ≤ 1 / 10 ^ 16 + 4 / 10 ^ 26 * max 1 |(L.val x : ℝ)| := by
  rw [decimal_call hc os (g := _) rfl]
  have u : unit = 2 / 10 ^ 28 := rfl
  obtain ⟨k, hk, hkR, kl, ku⟩ := L.perRadian
  have kb : |L.val k| ≤ 57296 / 1000 := by rw [abs_le]; constructor <;> linarith
  have hb0 : |L.val x| ≤ max 1 |L.val x| := le_max_right _ _
  have hb1 : 1 ≤ max 1 |L.val x| := le_max_left _ _
  have hb2 : max 1 |L.val x| ≤ 1378 * 10 ^ 24 := max_le (by norm_num) hx
  obtain ⟨y0, hy0, ny0, -⟩ := L.mul_near (x := x) (y := k) (a := 57296 / 1000 * max 1 |L.val x|) (by linarith) (by
    rw [abs_mul, mul_comm]
    exact mul_le_mul kb hb0 (abs_nonneg _) (by norm_num)) (by linarith)
  obtain ⟨y, hy, ny, -⟩ := L.approx_near y0
  refine ⟨y, ?_, ?_⟩
  · show d.toDegrees x = _
    simp only [Dec.toDegrees, Res.bind_eq, hk, Res.bind_ok, hy0, hy]
  rw [u] at ny0
  have R : ∀ {a b : Rat}, a ≤ b → (a : ℝ) ≤ b := fun h => (Rat.cast_le (K := ℝ)).mpr h
  have nyR := R ny
  have ny0R := R ny0
  push_cast at nyR ny0R
  generalize hM : max 1 |(L.val x : ℝ)| = M at *
  have m0 : |(L.val x : ℝ)| ≤ M := hM ▸ le_max_right _ _
  have m1 : 1 ≤ M := hM ▸ le_max_left _ _
  have e : (L.val y : ℝ) - L.val x * 180 / Real.pi =
      (L.val y - L.val y0) + ((L.val y0 - L.val x * L.val k) + L.val x * (L.val k - 180 / Real.pi)) := by ring
  rw [e]
  refine (abs_add_le _ _).trans (add_le_add nyR ((abs_add_le _ _).trans ?_))
  rw [abs_mul]
  have := mul_le_mul m0 hkR (abs_nonneg _) (by linarith)
  linarith

/-- C100, counterexample: where the result of `to_degrees` does not fit, the evaluation panics instead of reporting an overflow. -/
theorem C100_to_degrees_counterexample (K : Keys) (debug : Bool) (L : d.Laws) (f : F64 F) (config : Config) (c : Context D)
    (hc : d.context K debug f config = .ok c) (os : List (Op D)) (x : D) (hx : 1383 * 10 ^ 24 ≤ |L.val x|) :
    evalTokens ((c.runAll K debug os).view K) (callTokens (str "to_degrees") [x]) = .panic := by
  rw [decimal_call hc os (g := _) rfl]
  obtain ⟨k, hk, hkR, kl, ku⟩ := L.perRadian
  have hover : Beyond (L.val x * L.val k) := by
    unfold Beyond
    push_cast
    rcases le_total 0 (L.val x) with h | h
    · rw [abs_of_nonneg h] at hx
      right; nlinarith
    · rw [abs_of_nonpos h] at hx
      left; nlinarith
  have hm : d.mul x k = .panic := by simp [Dec.mul, Dec.cmul, L.mulOver x k hover, Ops.orOverflow, Res.ofOption, Res.unwrapNone]
  show d.toDegrees x = _
  simp only [Dec.toDegrees, Res.bind_eq, hk, Res.bind_ok, hm]
  rfl


/-- `to_degrees(10^28)` panics, `to_radians(10^28)` does not. -/
example : ∃ c, Demo.dec.context Demo.keys true Demo.float Config.new = .ok c ∧
    evalTokens (c.view Demo.keys) (callTokens (str "to_degrees") [Demo.decimal (10 ^ 28)]) = .panic ∧
    ∃ z, evalTokens (c.view Demo.keys) (callTokens (str "to_radians") [Demo.decimal (10 ^ 28)]) = .ok z ∧
      |(z.1 : ℝ) - 10 ^ 28 * Real.pi / 180| ≤ 5 := by
  obtain ⟨c, hc, -⟩ := decimal_build Demo.keys true Demo.dec Demo.float Config.new
  have h : Demo.decLaws.val (Demo.decimal (10 ^ 28)) = 10 ^ 28 := by decide +kernel
  refine ⟨c, hc, C100_to_degrees_counterexample Demo.keys true Demo.decLaws Demo.float Config.new c hc [] (Demo.decimal (10 ^ 28))
    (by rw [h, abs_of_pos] <;> norm_num), ?_⟩
  obtain ⟨z, hz, hn⟩ := C100_to_radians Demo.keys true Demo.decLaws Demo.float Config.new c hc [] (Demo.decimal (10 ^ 28))
  refine ⟨z, hz, ?_⟩
  rw [h] at hn
  push_cast at hn
  rw [abs_of_pos (by positivity : (0:ℝ) < 10 ^ 28), max_eq_right (by norm_num)] at hn
  exact hn.trans (by norm_num)

end Prexel
