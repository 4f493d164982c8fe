import Verif.Props.Decimal
import Verif.Lemmas.DecimalDegrees
/-!
# Trigonometric functions of decimals (C94)

Angles are degrees; `Real.sin`, `Real.cos` and `Real.tan` are Mathlib's functions of radians.
-/

set_option linter.unusedVariables false

namespace Prexel
variable {D F : Type} {d : Dec D F}

/-! ## C94: sine, cosine and tangent -/

/-- C94 for angles up to 10^11 degrees: the sine is correct to 4·10^-16, and exact at multiples of 90 degrees. -/
theorem C94_sin_partial (K : Keys) (debug : Bool) (L : d.Laws) (f : F64 F) (config : Config) (c : Context D)
    (hc : d.context K debug f config = .ok c) (os : List (Op D)) (x : D) (hx : |L.val x| ≤ 10 ^ 11) :
    ∃ z, evalTokens ((c.runAll K debug os).view K) (callTokens (str "sin") [x]) = .ok z ∧
      |(L.val z : ℝ) - Real.sin (L.val x * Real.pi / 180)| ≤ 4 / 10 ^ 16 ∧
      (∀ m : ℤ, L.val x = 90 * m → (L.val z : ℝ) = Real.sin (L.val x * Real.pi / 180)) := by
  rw [decimal_call hc os (g := _) rfl]
  obtain ⟨y, s, c, hy, hs, hcc, ns, nc, h90, -⟩ := L.trig_near hx
  refine ⟨s, ?_, ns, fun m hm => (h90 m hm).1⟩
  show (d.toRadians x).bind d.sin = _
  rw [hy, Res.bind_ok, hs]

/-- C94 for angles up to 10^11 degrees: the cosine is correct to 4·10^-16, and exact at multiples of 90 degrees. -/
theorem C94_cos_partial (K : Keys) (debug : Bool) (L : d.Laws) (f : F64 F) (config : Config) (c : Context D)
    (hc : d.context K debug f config = .ok c) (os : List (Op D)) (x : D) (hx : |L.val x| ≤ 10 ^ 11) :
    ∃ z, evalTokens ((c.runAll K debug os).view K) (callTokens (str "cos") [x]) = .ok z ∧
      |(L.val z : ℝ) - Real.cos (L.val x * Real.pi / 180)| ≤ 4 / 10 ^ 16 ∧
      (∀ m : ℤ, L.val x = 90 * m → (L.val z : ℝ) = Real.cos (L.val x * Real.pi / 180)) := by
  rw [decimal_call hc os (g := _) rfl]
  obtain ⟨y, s, c, hy, hs, hcc, ns, nc, h90, -⟩ := L.trig_near hx
  refine ⟨c, ?_, nc, fun m hm => (h90 m hm).2⟩
  show (d.toRadians x).bind d.cos = _
  rw [hy, Res.bind_ok, hcc]

/-- C94 for angles up to 10^11 degrees that are not too near to a pole: the tangent is correct to 10^-15 divided by the square of the cosine, and
exact at multiples of 45 degrees. -/
theorem C94_tan_partial (K : Keys) (debug : Bool) (L : d.Laws) (f : F64 F) (config : Config) (c : Context D)
    (hc : d.context K debug f config = .ok c) (os : List (Op D)) (x : D) (hx : |L.val x| ≤ 10 ^ 11)
    (hcos : 1 / 10 ^ 8 ≤ |Real.cos (L.val x * Real.pi / 180)|) :
    ∃ z, evalTokens ((c.runAll K debug os).view K) (callTokens (str "tan") [x]) = .ok z ∧
      |(L.val z : ℝ) - Real.tan (L.val x * Real.pi / 180)| ≤ 1 / 10 ^ 15 / Real.cos (L.val x * Real.pi / 180) ^ 2 ∧
      (∀ m : ℤ, L.val x = 45 * m → |L.val x| ≤ 10 ^ 10 → (L.val z : ℝ) = Real.tan (L.val x * Real.pi / 180)) := by
  rw [decimal_call hc os (g := _) rfl]
  obtain ⟨y, z, hy, hz, h⟩ := L.tan_near hx hcos
  refine ⟨z, ?_, h⟩
  show (d.toRadians x).bind d.tan = _
  rw [hy, Res.bind_ok, hz]

/-- The tangent of an odd multiple of 90 degrees is refused. -/
theorem C94_tan_pole (K : Keys) (debug : Bool) (L : d.Laws) (f : F64 F) (config : Config) (c : Context D)
    (hc : d.context K debug f config = .ok c) (os : List (Op D)) (x : D) (hx : |L.val x| ≤ 10 ^ 11) (m : ℤ) (hm : L.val x = 90 * (2 * m + 1)) :
    evalTokens ((c.runAll K debug os).view K) (callTokens (str "tan") [x]) = .err .overflow := by
  rw [decimal_call hc os (g := _) rfl]
  obtain ⟨y, hy, hz⟩ := L.tan_pole hx m hm
  show (d.toRadians x).bind d.tan = _
  rw [hy, Res.bind_ok, hz]

/-- `sin(30)` is near 1/2, `sin(270)` is -1, `cos(180)` is -1, `tan(45)` is 1 and `tan(-90)` is refused. -/
example : ∃ c, Demo.dec.context Demo.keys true Demo.float Config.new = .ok c ∧
    (∃ z, evalTokens (c.view Demo.keys) (callTokens (str "sin") [Demo.decimal 30]) = .ok z ∧ |(z.1 : ℝ) - 1 / 2| ≤ 4 / 10 ^ 16) ∧
    (∃ z, evalTokens (c.view Demo.keys) (callTokens (str "sin") [Demo.decimal 270]) = .ok z ∧ z.1 = -1) ∧
    (∃ z, evalTokens (c.view Demo.keys) (callTokens (str "cos") [Demo.decimal 180]) = .ok z ∧ z.1 = -1) ∧
    (∃ z, evalTokens (c.view Demo.keys) (callTokens (str "tan") [Demo.decimal 45]) = .ok z ∧ z.1 = 1) ∧
    evalTokens (c.view Demo.keys) (callTokens (str "tan") [Demo.decimal (-90)]) = .err .overflow := by
  obtain ⟨c, hc, -⟩ := decimal_build Demo.keys true Demo.dec Demo.float Config.new
  have h30 : Demo.decLaws.val (Demo.decimal 30) = 30 := by decide +kernel
  have h270 : Demo.decLaws.val (Demo.decimal 270) = 270 := by decide +kernel
  have h180 : Demo.decLaws.val (Demo.decimal 180) = 180 := by decide +kernel
  have h45 : Demo.decLaws.val (Demo.decimal 45) = 45 := by decide +kernel
  have h90 : Demo.decLaws.val (Demo.decimal (-90)) = -90 := by decide +kernel
  refine ⟨c, hc, ?_, ?_, ?_, ?_, ?_⟩
  · obtain ⟨z, hz, hn, -⟩ := C94_sin_partial Demo.keys true Demo.decLaws Demo.float Config.new c hc [] (Demo.decimal 30) (by rw [h30]; norm_num)
    refine ⟨z, hz, ?_⟩
    rw [h30, show ((30 : Rat) : ℝ) * Real.pi / 180 = Real.pi / 6 by push_cast; ring, Real.sin_pi_div_six] at hn
    exact hn
  · obtain ⟨z, hz, -, he⟩ := C94_sin_partial Demo.keys true Demo.decLaws Demo.float Config.new c hc [] (Demo.decimal 270) (by rw [h270]; norm_num)
    have := he 3 (by rw [h270]; norm_num)
    rw [h270, show ((270 : Rat) : ℝ) * Real.pi / 180 = Real.pi / 2 + Real.pi by push_cast; ring, Real.sin_add_pi, Real.sin_pi_div_two] at this
    exact ⟨z, hz, by exact_mod_cast this⟩
  · obtain ⟨z, hz, -, he⟩ := C94_cos_partial Demo.keys true Demo.decLaws Demo.float Config.new c hc [] (Demo.decimal 180) (by rw [h180]; norm_num)
    have := he 2 (by rw [h180]; norm_num)
    rw [h180, show ((180 : Rat) : ℝ) * Real.pi / 180 = Real.pi by push_cast; ring, Real.cos_pi] at this
    exact ⟨z, hz, by exact_mod_cast this⟩
  · have e : ((45 : Rat) : ℝ) * Real.pi / 180 = Real.pi / 4 := by push_cast; ring
    obtain ⟨z, hz, -, he⟩ := C94_tan_partial Demo.keys true Demo.decLaws Demo.float Config.new c hc [] (Demo.decimal 45) (by rw [h45]; norm_num)
      (by
        rw [h45, e, Real.cos_pi_div_four, abs_of_pos (by positivity)]
        have : (1 : ℝ) ≤ Real.sqrt 2 := by rw [Real.le_sqrt] <;> norm_num
        linarith)
    have := he 1 (by rw [h45]; norm_num) (by rw [h45]; norm_num)
    rw [h45, e, Real.tan_pi_div_four] at this
    exact ⟨z, hz, by exact_mod_cast this⟩
  · exact C94_tan_pole Demo.keys true Demo.decLaws Demo.float Config.new c hc [] (Demo.decimal (-90)) (by rw [h90]; norm_num) (-1) (by rw [h90]; norm_num)

end Prexel
