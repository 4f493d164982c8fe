import Verif.Props.Angles
/-!
# C100: which angles have degrees that fit
-/

namespace Prexel
variable {D F : Type} {d : Dec D F}

/-- Rounding moves a number that fits by at most 1. -/
theorem rounded_whole {z q : Rat} (h : Rounded z q) (hq : Bounded maxDecimal q) : |z - q| ≤ 1 := by
  obtain ⟨h1, h2⟩ := hq
  rw [maxDecimal_eq] at h1 h2
  have f1 := Int.floor_le q
  have f2 := Int.lt_floor_add_one q
  have c1 := Int.le_ceil q
  have c2 := Int.ceil_lt_add_one q
  have rep : ∀ n : Int, -79228162514264337593543950335 ≤ n → n ≤ 79228162514264337593543950335 → Representable (n : Rat) := fun n a b =>
    representable_int.mpr (by omega)
  have g1 : -79228162514264337593543950335 ≤ ⌊q⌋ := Int.le_floor.mpr (by push_cast; linarith)
  have g2 : ⌊q⌋ ≤ 79228162514264337593543950335 := Int.floor_le_iff.mpr (by push_cast; linarith)
  have g3 : -79228162514264337593543950335 ≤ ⌈q⌉ := Int.le_ceil_iff.mpr (by push_cast; linarith)
  have g4 : ⌈q⌉ ≤ 79228162514264337593543950335 := Int.ceil_le.mpr (by push_cast; linarith)
  have a := (h _ (rep _ g1 g2)).1 f1
  have b := (h _ (rep _ g3 g4)).2 c1
  rw [abs_le]
  constructor <;> linarith

/-- C100, the range of `to_degrees` nearly to the last unit: if the number of degrees is by 60 smaller than `2 ^ 96`, the result is right; if it is by 60
larger, the evaluation panics. (The largest decimal is `2 ^ 96 - 1`; the error of the factor `180 / PI` that the code uses is about 30 there.)
Missing: the numbers of degrees within 60 of `2 ^ 96`. -/
theorem C100_to_degrees_sharp_partial (K : Keys) (debug : Bool) (L : d.Laws) (f : F64 F) (config : Config) (c : Context D)
    (hc : d.context K debug f config = .ok c) (os : List (Op D)) (x : D) :
    let ev := evalTokens ((c.runAll K debug os).view K) (callTokens (str "to_degrees") [x])
    (|(L.val x : ℝ) * 180 / Real.pi| ≤ 2 ^ 96 - 60 → ∃ z, ev = .ok z ∧
      |(L.val z : ℝ) - L.val x * 180 / Real.pi| ≤ 1 / 10 ^ 16 + 4 / 10 ^ 26 * max 1 |(L.val x : ℝ)|) ∧
    (2 ^ 96 + 60 ≤ |(L.val x : ℝ) * 180 / Real.pi| → ev = .panic) := by
  intro ev
  obtain ⟨k, hk, hkR, kl, ku⟩ := L.perRadian
  have hev : ev = d.toDegrees x := decimal_call hc os (name := str "to_degrees") (g := _) rfl [x]
  have klR := (Rat.cast_le (K := ℝ)).mpr kl
  have kuR := (Rat.cast_le (K := ℝ)).mpr ku
  push_cast at klR kuR
  have hkk := abs_le.mp hkR
  have edeg : (L.val x : ℝ) * 180 / Real.pi = L.val x * (180 / Real.pi) := by ring
  have hdiff : |(L.val x : ℝ) * L.val k - L.val x * 180 / Real.pi| ≤ 2 / 10 ^ 26 * |(L.val x : ℝ)| := by
    rw [edeg, ← mul_sub, abs_mul, mul_comm]
    exact mul_le_mul_of_nonneg_right hkR (abs_nonneg _)
  generalize hP : (L.val x : ℝ) * 180 / Real.pi = P at hdiff ⊢
  have hxP : 57 * |(L.val x : ℝ)| ≤ |P| := by
    rw [← hP, edeg, abs_mul, mul_comm]
    refine mul_le_mul_of_nonneg_left ?_ (abs_nonneg _)
    rw [abs_of_nonneg] <;> linarith [hkk.1, hkk.2]
  have hsub := abs_sub_abs_le_abs_sub ((L.val x : ℝ) * L.val k) P
  have hsub' := abs_sub_abs_le_abs_sub P ((L.val x : ℝ) * L.val k)
  rw [abs_sub_comm] at hsub'
  constructor
  · intro hfit
    by_cases hx : |L.val x| ≤ 1378 * 10 ^ 24
    · have := C100_to_degrees_range_partial K debug L f config c hc os x hx
      rw [hP] at this
      exact this
    · have hxR : (1378 * 10 ^ 24 : ℝ) ≤ |(L.val x : ℝ)| := by
        have := (Rat.cast_lt (K := ℝ)).mpr (not_le.mp hx)
        push_cast at this
        exact this.le
      have hq : |(L.val x : ℝ) * L.val k| ≤ 79228162514264337593543950335 := by
        norm_num at hfit
        linarith
      have hqQ : Bounded maxDecimal (L.val x * L.val k) := by
        rw [bounded_abs, maxDecimal_eq]
        exact_mod_cast hq
      obtain ⟨y0, hy0, ry0⟩ := L.mul x k hqQ
      have ny0 := rounded_whole ry0 hqQ
      obtain ⟨y, hy, ny, -⟩ := L.approx_near y0
      have hm : d.mul x k = .ok y0 := by simp [Dec.mul, Dec.cmul, hy0, Ops.orOverflow, Res.ofOption, Res.unwrapNone]
      refine ⟨y, ?_, ?_⟩
      · rw [hev]
        simp only [Dec.toDegrees, Res.bind_eq, hk, Res.bind_ok, hm, hy]
      have R : ∀ {a b : Rat}, a ≤ b → (a : ℝ) ≤ b := fun h => (Rat.cast_le (K := ℝ)).mpr h
      have nyR := R ny
      have ny0R := R ny0
      push_cast at nyR ny0R
      rw [max_eq_right (le_trans (by norm_num) hxR)]
      have e : (L.val y : ℝ) - P = (L.val y - L.val y0) + ((L.val y0 - L.val x * L.val k) + (L.val x * L.val k - P)) := by ring
      rw [e]
      refine (abs_add_le _ _).trans (add_le_add nyR ((abs_add_le _ _).trans ?_))
      linarith
  · intro hover
    have hxu : |(L.val x : ℝ)| ≤ 8 * 10 ^ 28 := by
      have := (Rat.cast_le (K := ℝ)).mpr (L.val_range x)
      push_cast at this
      exact this
    by_cases hbig : 1383 * 10 ^ 24 ≤ |L.val x|
    · exact C100_to_degrees_counterexample K debug L f config c hc os x hbig
    · have hxR : |(L.val x : ℝ)| ≤ 1383 * 10 ^ 24 := by
        have := (Rat.cast_lt (K := ℝ)).mpr (not_le.mp hbig)
        push_cast at this
        exact this.le
      have hq : (2 ^ 96 : ℝ) ≤ |(L.val x : ℝ) * L.val k| := by linarith
      have hqQ : (2 ^ 96 : Rat) ≤ |L.val x * L.val k| := by exact_mod_cast hq
      have hb : Beyond (L.val x * L.val k) := by
        unfold Beyond
        push_cast
        rcases le_abs.mp hqQ with h | h
        · exact .inr h
        · exact .inl (by linarith)
      have hm : d.mul x k = .panic := by simp [Dec.mul, Dec.cmul, L.mulOver x k hb, Ops.orOverflow, Res.ofOption, Res.unwrapNone]
      rw [hev]
      simp only [Dec.toDegrees, Res.bind_eq, hk, Res.bind_ok, hm]
      rfl

/-- `to_degrees(1380000000000000000000000000)`: the number of degrees is about 7.9068·10^28, which fits. -/
example : ∃ c, Demo.dec.context Demo.keys true Demo.float Config.new = .ok c ∧
    ∃ z, evalTokens (c.view Demo.keys) (callTokens (str "to_degrees") [Demo.decimal (138 * 10 ^ 25)]) = .ok z ∧
      |(z.1 : ℝ) - 138 * 10 ^ 25 * 180 / Real.pi| ≤ 56 := by
  obtain ⟨c, hc, -⟩ := decimal_build Demo.keys true Demo.dec Demo.float Config.new
  have h : Demo.decLaws.val (Demo.decimal (138 * 10 ^ 25)) = 138 * 10 ^ 25 := by decide +kernel
  obtain ⟨z, hz, hn⟩ := (C100_to_degrees_sharp_partial Demo.keys true Demo.decLaws Demo.float Config.new c hc [] (Demo.decimal (138 * 10 ^ 25))).1 (by
    rw [h]
    push_cast
    have := Real.pi_gt_d6
    rw [abs_of_pos (by positivity), div_le_iff₀ Real.pi_pos]
    norm_num
    linarith)
  refine ⟨c, hc, z, hz, ?_⟩
  rw [h] at hn
  push_cast at hn
  rw [abs_of_pos (by positivity : (0:ℝ) < 138 * 10 ^ 25), max_eq_right (by norm_num)] at hn
  exact hn.trans (by norm_num)

end Prexel
