import Verif.Lemmas.DecimalAreaWide
import Verif.Props.DecimalArc
/-!
# C95 on a wider range, and where it is false
-/

namespace Prexel
variable {D F : Type} {d : Dec D F}

/-- C95: `asinh` from -15 to 28·10^13, `acosh` from 1 to 28·10^13 and `atanh` from -93/100 to 1 are correct to 10^-13, if the square root that the
first two use ends (see C90). Missing: `acosh(1)`, and the other numbers, for which the next theorem shows it is false except for `asinh` between -5000
and -15, `atanh` between -0.9999 and -0.93 and, for the first two, between 28·10^13 and 2^48. -/
theorem C95_wide_partial (K : Keys) (debug : Bool) (L : d.Laws) (hfuel : 100 ≤ d.fuel) (f : F64 F) (S : L.SqrtStart f) (config : Config)
    (c : Context D) (hc : d.context K debug f config = .ok c) (os : List (Op D)) (x : D) :
    let ev := evalTokens ((c.runAll K debug os).view K)
    (-15 ≤ L.val x → L.val x ≤ 28 * 10 ^ 13 → ev (callTokens (str "asinh") [x]) = .panic ∨ ∃ z, ev (callTokens (str "asinh") [x]) = .ok z ∧
      |(L.val z : ℝ) - Real.arsinh (L.val x)| ≤ 1 / 10 ^ 13) ∧
    (1 < L.val x → L.val x ≤ 28 * 10 ^ 13 → ev (callTokens (str "acosh") [x]) = .panic ∨ ∃ z, ev (callTokens (str "acosh") [x]) = .ok z ∧
      |(L.val z : ℝ) - Real.arcosh (L.val x)| ≤ 1 / 10 ^ 13) ∧
    (-93 / 100 ≤ L.val x → L.val x < 1 → ∃ z, ev (callTokens (str "atanh") [x]) = .ok z ∧
      |(L.val z : ℝ) - Real.artanh (L.val x)| ≤ 1 / 10 ^ 13) := by
  intro ev
  have h1 : ev (callTokens (str "asinh") [x]) = d.asinh f x := decimal_call hc os (g := (Dec.fn1 (str "asinh") (d.asinh f)).fn) rfl [x]
  have h2 : ev (callTokens (str "acosh") [x]) = d.acosh f x := decimal_call hc os (g := (Dec.fn1 (str "acosh") (d.acosh f)).fn) rfl [x]
  have h3 : ev (callTokens (str "atanh") [x]) = d.atanh x := decimal_call hc os (g := (Dec.fn1 (str "atanh") d.atanh).fn) rfl [x]
  rw [h1, h2, h3]
  refine ⟨fun ha hb => (L.asinh_wide hfuel S ha hb).imp And.left id, fun ha hb => ?_, L.atanh_wide hfuel⟩
  rcases L.acosh_wide hfuel S ha hb with ⟨h, -⟩ | ⟨z, e, n⟩
  · exact .inl h
  · exact .inr ⟨z, e, n.trans (by norm_num)⟩

/-- C95 is false: for numbers from -5000 down, `asinh` is never less than -8, although the inverse hyperbolic sine is less than -9; for numbers between
-1 and -0.9999, `atanh` is never less than -4, although the inverse hyperbolic tangent is less than -4.5; and from 2^48 on, `asinh` and `acosh` panic. -/
theorem C95_counterexample (K : Keys) (debug : Bool) (L : d.Laws) (hfuel : 100 ≤ d.fuel) (f : F64 F) (config : Config)
    (c : Context D) (hc : d.context K debug f config = .ok c) (os : List (Op D)) (x : D) :
    let ev := evalTokens ((c.runAll K debug os).view K)
    (L.val x ≤ -5000 → Real.arsinh (L.val x) ≤ -9 ∧ ∀ z, ev (callTokens (str "asinh") [x]) = .ok z → -8 ≤ L.val z) ∧
    (-1 < L.val x → L.val x ≤ -9999 / 10000 → Real.artanh (L.val x) ≤ -9 / 2 ∧ ∀ z, ev (callTokens (str "atanh") [x]) = .ok z → -4 ≤ L.val z) ∧
    (2 ^ 48 ≤ |L.val x| → ev (callTokens (str "asinh") [x]) = .panic) ∧
    (2 ^ 48 ≤ L.val x → ev (callTokens (str "acosh") [x]) = .panic) := by
  intro ev
  have h1 : ev (callTokens (str "asinh") [x]) = d.asinh f x := decimal_call hc os (g := (Dec.fn1 (str "asinh") (d.asinh f)).fn) rfl [x]
  have h2 : ev (callTokens (str "acosh") [x]) = d.acosh f x := decimal_call hc os (g := (Dec.fn1 (str "acosh") (d.acosh f)).fn) rfl [x]
  have h3 : ev (callTokens (str "atanh") [x]) = d.atanh x := decimal_call hc os (g := (Dec.fn1 (str "atanh") d.atanh).fn) rfl [x]
  rw [h1, h2, h3]
  refine ⟨fun h => ⟨Dec.Laws.arsinh_far (by exact_mod_cast h), fun z hz => L.asinh_least hfuel hz⟩, fun h h' => ⟨?_, fun z hz => L.atanh_least hfuel hz⟩,
    fun h => ?_, fun h => ?_⟩
  · refine Dec.Laws.artanh_far (by exact_mod_cast h) ?_
    have := (Rat.cast_le (K := ℝ)).mpr h'
    push_cast at this
    exact this
  · rw [Dec.asinh, L.square_over h]
    rfl
  · have v1 : L.val d.one = 1 := L.nat_val (n := 1) (by decide)
    have e0 : d.lt x d.one = false := by rw [← Bool.not_eq_true, L.lt, v1]; linarith
    rw [Dec.acosh, e0, if_neg (by simp), L.square_over (by rw [abs_of_nonneg (by linarith)]; exact h)]
    rfl

/-- `atanh(-0.9)` is near the inverse hyperbolic tangent, `atanh(-0.99995)` is not; `asinh(10^15)` panics. -/
example : ∃ c, Demo.realDec.context Demo.keys true Demo.real Config.new = .ok c ∧
    (∃ z, evalTokens (c.view Demo.keys) (callTokens (str "atanh") [Demo.decimal (-9) 1]) = .ok z ∧ |(z.1 : ℝ) - Real.artanh (-9 / 10)| ≤ 1 / 10 ^ 13) ∧
    (∀ z, evalTokens (c.view Demo.keys) (callTokens (str "atanh") [Demo.decimal (-99995) 5]) = .ok z → -4 ≤ z.1) ∧
    evalTokens (c.view Demo.keys) (callTokens (str "asinh") [Demo.decimal (10 ^ 15)]) = .panic := by
  obtain ⟨c, hc, -⟩ := decimal_build Demo.keys true Demo.realDec Demo.real Config.new
  have h9 : Demo.realDecLaws.val (Demo.decimal (-9) 1) = -9 / 10 := by decide +kernel
  have h5 : Demo.realDecLaws.val (Demo.decimal (-99995) 5) = -99995 / 100000 := by decide +kernel
  have hb : Demo.realDecLaws.val (Demo.decimal (10 ^ 15)) = 10 ^ 15 := by decide +kernel
  have hf : 100 ≤ Demo.realDec.fuel := by decide
  obtain ⟨z, hz, hn⟩ := (C95_wide_partial Demo.keys true Demo.realDecLaws hf Demo.real Demo.realStart Config.new c hc [] (Demo.decimal (-9) 1)).2.2
    (by rw [h9]; norm_num) (by rw [h9]; norm_num)
  refine ⟨c, hc, ⟨z, hz, ?_⟩,
    ((C95_counterexample Demo.keys true Demo.realDecLaws hf Demo.real Config.new c hc [] (Demo.decimal (-99995) 5)).2.1
      (by rw [h5]; norm_num) (by rw [h5]; norm_num)).2,
    (C95_counterexample Demo.keys true Demo.realDecLaws hf Demo.real Config.new c hc [] (Demo.decimal (10 ^ 15))).2.2.1
      (by rw [hb]; norm_num)⟩
  rw [h9] at hn
  push_cast at hn
  exact hn

end Prexel
