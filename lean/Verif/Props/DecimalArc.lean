import Verif.Lemmas.DecimalArea
import Verif.Lemmas.DecimalDegrees
import Verif.Props.DecimalFunctions
import Verif.Examples.Roots
import Mathlib.Analysis.SpecialFunctions.Complex.Arg
/-!
# Inverse functions of decimals (C66, C68, C92, C95, C101, C102)

The functions are those of Mathlib: `Real.arctan`, `Complex.arg`, `Real.arcsin`, `Real.arccos`, `Real.arsinh`, `Real.arcosh`, `Real.artanh`.
-/

set_option linter.unusedVariables false

namespace Prexel
variable {D F : Type} {d : Dec D F}

/-! ## C101: arctangents -/

/-- C101: the arctangent of every number, in radians, is correct to 3·10^-16. -/
theorem C101_atan (K : Keys) (debug : Bool) (L : d.Laws) (f : F64 F) (config : Config) (c : Context D)
    (hc : d.context K debug f config = .ok c) (os : List (Op D)) (x : D) :
    ∃ z, evalTokens ((c.runAll K debug os).view K) (callTokens (str "atan") [x]) = .ok z ∧
      |(L.val z : ℝ) - Real.arctan (L.val x)| ≤ 3 / 10 ^ 16 := by
  rw [decimal_call hc os (g := d.atanFn.fn) rfl]
  exact L.atan_near x

/-- `atan(1)` is near π/4. -/
example : ∃ c, Demo.dec.context Demo.keys true Demo.float Config.new = .ok c ∧
    ∃ z, evalTokens (c.view Demo.keys) (callTokens (str "atan") [Demo.decimal 1]) = .ok z ∧ |(z.1 : ℝ) - Real.pi / 4| ≤ 3 / 10 ^ 16 := by
  obtain ⟨c, hc, -⟩ := decimal_build Demo.keys true Demo.dec Demo.float Config.new
  have h1 : Demo.decLaws.val (Demo.decimal 1) = 1 := by decide +kernel
  obtain ⟨z, hz, hn⟩ := C101_atan Demo.keys true Demo.decLaws Demo.float Config.new c hc [] (Demo.decimal 1)
  refine ⟨c, hc, z, hz, ?_⟩
  rw [h1] at hn
  push_cast at hn
  rw [Real.arctan_one] at hn
  exact hn

/-! ## C66: angles of points -/

theorem arg_right {x y : ℝ} (hx : 0 < x) : Complex.arg ⟨x, y⟩ = Real.arctan (y / x) := by
  have h : |Complex.arg ⟨x, y⟩| < Real.pi / 2 := Complex.abs_arg_lt_pi_div_two_iff.mpr (.inl hx)
  rw [abs_lt] at h
  have := Complex.tan_arg ⟨x, y⟩
  rw [← this, Real.arctan_tan h.1 h.2]

theorem arg_left_up {x y : ℝ} (hx : x < 0) (hy : 0 ≤ y) : Complex.arg ⟨x, y⟩ = Real.arctan (y / x) + Real.pi := by
  have h := arg_right (x := -x) (y := -y) (by linarith)
  rw [neg_div_neg_eq] at h
  rw [← h]
  have e : (⟨-x, -y⟩ : ℂ) = -⟨x, y⟩ := rfl
  rcases hy.eq_or_lt with h0 | h0
  · subst h0
    have e1 : (⟨x, 0⟩ : ℂ) = ((x : ℝ) : ℂ) := rfl
    have e2 : (⟨-x, -0⟩ : ℂ) = ((-x : ℝ) : ℂ) := by rw [neg_zero]; rfl
    rw [e2, e1, Complex.arg_ofReal_of_neg hx, Complex.arg_ofReal_of_nonneg (by linarith)]
    ring
  · rw [e, Complex.arg_neg_eq_arg_sub_pi_of_im_pos (show 0 < (⟨x, y⟩ : ℂ).im from h0)]
    ring

theorem arg_left_down {x y : ℝ} (hx : x < 0) (hy : y < 0) : Complex.arg ⟨x, y⟩ = Real.arctan (y / x) - Real.pi := by
  have h := arg_right (x := -x) (y := -y) (by linarith)
  rw [neg_div_neg_eq] at h
  rw [← h]
  have e : (⟨-x, -y⟩ : ℂ) = -⟨x, y⟩ := rfl
  rw [e, Complex.arg_neg_eq_arg_add_pi_of_im_neg (show (⟨x, y⟩ : ℂ).im < 0 from hy)]
  ring

theorem arctan_close {u v ε : ℝ} (hε : ε ≤ 1 / 2) (h : |u - v| ≤ ε * max 1 |v|) : |Real.arctan u - Real.arctan v| ≤ 2 * ε := by
  have hε0 : 0 ≤ ε := by
    by_contra hcon
    rw [not_le] at hcon
    have h1 := (abs_nonneg _).trans h
    have : 1 ≤ max 1 |v| := le_max_left _ _
    nlinarith
  have key : ∀ u v : ℝ, 1 < v → |u - v| ≤ ε * v → |Real.arctan u - Real.arctan v| ≤ 2 * ε := by
    intro u v hv h
    have h' := abs_le.mp h
    have hu : v / 2 ≤ u := by nlinarith [h'.1]
    have hu0 : 0 < u := by linarith
    have e1 : Real.arctan u = Real.pi / 2 - Real.arctan u⁻¹ := by rw [Real.arctan_inv_of_pos hu0]; ring
    have e2 : Real.arctan v = Real.pi / 2 - Real.arctan v⁻¹ := by rw [Real.arctan_inv_of_pos (by linarith)]; ring
    rw [e1, e2, sub_sub_sub_cancel_left]
    refine (Dec.Laws.arctan_lipschitz _ _).trans ?_
    have e3 : v⁻¹ - u⁻¹ = (u - v) / (u * v) := by field_simp
    rw [e3, abs_div, abs_of_pos (by positivity : 0 < u * v), div_le_iff₀ (by positivity)]
    refine h.trans ?_
    nlinarith [mul_nonneg hε0 (show (0 : ℝ) ≤ v by linarith)]
  rcases le_or_gt |v| 1 with hv | hv
  · rw [max_eq_left hv] at h
    exact (Dec.Laws.arctan_lipschitz _ _).trans (by linarith)
  · rw [max_eq_right hv.le] at h
    rcases lt_abs.mp hv with hp | hn
    · rw [abs_of_pos (by linarith : 0 < v)] at h
      exact key u v hp h
    · rw [abs_of_neg (by linarith : v < 0)] at h
      have := key (-u) (-v) hn (by rw [← abs_neg, show -(-u - -v) = u - v by ring]; exact h)
      rw [Real.arctan_neg, Real.arctan_neg, ← abs_neg, show -(-Real.arctan u - -Real.arctan v) = Real.arctan u - Real.arctan v by ring] at this
      exact this

/-- C66 for every point off the y axis whose quotient `y / x` is in the range: `atan(y, x)` is the angle of the point, correct to 4·10^-16. Missing:
the y axis, where it is wrong, and quotients beyond the range (a panic). -/
theorem C66_angle_partial (K : Keys) (debug : Bool) (L : d.Laws) (f : F64 F) (config : Config) (c : Context D)
    (hc : d.context K debug f config = .ok c) (os : List (Op D)) (y x : D) (hx : L.val x ≠ 0) (hq : |L.val y / L.val x| ≤ 79 * 10 ^ 27) :
    ∃ z, evalTokens ((c.runAll K debug os).view K) (callTokens (str "atan") [y, x]) = .ok z ∧
      |(L.val z : ℝ) - Complex.arg ⟨L.val x, L.val y⟩| ≤ 4 / 10 ^ 16 := by
  rw [decimal_call hc os (g := d.atanFn.fn) rfl]
  show ∃ z, d.atan2 y x = .ok z ∧ _
  have v0 : L.val d.zero = 0 := L.nat_val (n := 0) (by decide)
  have hxR : (L.val x : ℝ) ≠ 0 := by exact_mod_cast hx
  have e0 : d.isZero x = false := by rw [← Bool.not_eq_true, L.isZero]; exact hx
  have hqR : |(L.val y / L.val x : ℝ)| ≤ ((max 1 |L.val y / L.val x| : Rat) : ℝ) := by
    push_cast
    exact le_max_right _ _
  obtain ⟨q, e1, nq, -⟩ := L.div_real (x := y) (y := x) (a := max 1 |L.val y / L.val x|) hxR (le_max_left _ _) hqR (max_le (by norm_num) hq)
  push_cast at nq
  obtain ⟨a, e2, na⟩ := L.atan_near q
  have hcl := arctan_close (by norm_num) nq
  have hpi := L.pi_real
  have hpi2 := Real.pi_lt_d2
  have hw := Real.arctan_lt_pi_div_two (L.val q)
  have hw' := Real.neg_pi_div_two_lt_arctan (L.val q)
  have hpi0 := Real.pi_pos
  unfold Dec.atan2
  rw [e0, Bool.and_false, if_neg (by simp), if_neg (by simp)]
  simp only [Res.bind_eq, e1, Res.bind_ok, e2]
  rcases lt_or_gt_of_ne hx with h | h
  · have hR : (L.val x : ℝ) < 0 := by exact_mod_cast h
    have l1 : d.lt d.zero x = false := by rw [← Bool.not_eq_true, L.lt, v0]; linarith
    rw [l1, if_neg (by simp)]
    by_cases hy : L.val y < 0
    · have hyR : (L.val y : ℝ) < 0 := by exact_mod_cast hy
      have l2 : d.lt y d.zero = true := by rw [L.lt, v0]; exact hy
      rw [l2, if_neg (by simp), arg_left_down hR hyR]
      obtain ⟨z, hz, nz, -⟩ := L.sub_real (x := a) (y := d.pi) (a := 10) (by norm_num) (by
        push_cast
        rw [abs_le] at na hpi ⊢
        constructor <;> linarith [na.1, na.2, hpi.1, hpi.2]) (by norm_num)
      refine ⟨z, hz, ?_⟩
      push_cast at nz
      rw [abs_le] at nz na hpi hcl ⊢
      constructor <;> linarith [nz.1, nz.2, na.1, na.2, hpi.1, hpi.2, hcl.1, hcl.2]
    · have hyR : (0 : ℝ) ≤ L.val y := by exact_mod_cast (not_lt.mp hy)
      have l2 : d.lt y d.zero = false := by rw [← Bool.not_eq_true, L.lt, v0]; exact hy
      rw [l2, if_pos (by simp), arg_left_up hR hyR]
      obtain ⟨z, hz, nz, -⟩ := L.add_real (x := a) (y := d.pi) (a := 10) (by norm_num) (by
        push_cast
        rw [abs_le] at na hpi ⊢
        constructor <;> linarith [na.1, na.2, hpi.1, hpi.2]) (by norm_num)
      refine ⟨z, hz, ?_⟩
      push_cast at nz
      rw [abs_le] at nz na hpi hcl ⊢
      constructor <;> linarith [nz.1, nz.2, na.1, na.2, hpi.1, hpi.2, hcl.1, hcl.2]
  · have hR : (0 : ℝ) < L.val x := by exact_mod_cast h
    have l1 : d.lt d.zero x = true := by rw [L.lt, v0]; exact h
    rw [l1, if_pos rfl, arg_right hR]
    refine ⟨a, rfl, ?_⟩
    rw [abs_le] at na hcl ⊢
    constructor <;> linarith [na.1, na.2, hcl.1, hcl.2]

/-- `atan(1, -1)` is near 3π/4. -/
example : ∃ c, Demo.dec.context Demo.keys true Demo.float Config.new = .ok c ∧
    ∃ z, evalTokens (c.view Demo.keys) (callTokens (str "atan") [Demo.decimal 1, Demo.decimal (-1)]) = .ok z ∧
      |(z.1 : ℝ) - 3 * Real.pi / 4| ≤ 4 / 10 ^ 16 := by
  obtain ⟨c, hc, -⟩ := decimal_build Demo.keys true Demo.dec Demo.float Config.new
  have h1 : Demo.decLaws.val (Demo.decimal 1) = 1 := by decide +kernel
  have h2 : Demo.decLaws.val (Demo.decimal (-1)) = -1 := by decide +kernel
  obtain ⟨z, hz, hn⟩ := C66_angle_partial Demo.keys true Demo.decLaws Demo.float Config.new c hc [] (Demo.decimal 1) (Demo.decimal (-1))
    (by rw [h2]; norm_num) (by rw [h1, h2]; norm_num)
  refine ⟨c, hc, z, hz, ?_⟩
  rw [h1, h2, arg_left_up (by norm_num) (by norm_num)] at hn
  push_cast at hn
  rw [show (1 : ℝ) / -1 = -1 by norm_num, Real.arctan_neg, Real.arctan_one, show -(Real.pi / 4) + Real.pi = 3 * Real.pi / 4 by ring] at hn
  exact hn

/-! ## C68: arcsecants and arccosecants -/

theorem inv_near (L : d.Laws) {x : D} (hx : L.val x ≠ 0) : ∃ y, d.inv x = .ok y ∧
    |(L.val y - 1 / L.val x : ℝ)| ≤ 2 / 10 ^ 28 * max 1 |(1 / L.val x : ℝ)| ∧ Rounded (L.val y) (1 / L.val x) := by
  have v1 : L.val d.one = 1 := L.nat_val (n := 1) (by decide)
  have hb : |1 / L.val x| ≤ 10 ^ 28 := by
    have hp : 1 / 10 ^ 28 ≤ |L.val x| := by
      rcases lt_or_gt_of_ne hx with h | h
      · rw [abs_of_neg h]
        exact representable_pos (representable_neg (L.range x)) (by linarith)
      · rw [abs_of_pos h]
        exact representable_pos (L.range x) h
    rw [abs_div, abs_one, div_le_iff₀ (by positivity)]
    linarith
  have hb' : |(L.val d.one / L.val x : ℝ)| ≤ ((max 1 |1 / L.val x| : Rat) : ℝ) := by
    rw [v1]
    push_cast
    exact le_max_right _ _
  obtain ⟨y, e, n, r⟩ := L.div_real (x := d.one) (y := x) (a := max 1 |1 / L.val x|) (by exact_mod_cast hx) (le_max_left _ _) hb'
    (max_le (by norm_num) (hb.trans (by norm_num)))
  rw [v1] at n r
  push_cast at n
  exact ⟨y, e, n, r⟩

/-- C68: between -1 and 1, except at 0, `acsc` and `asec` are refused; elsewhere they are the arcsine and the arccosine of the reciprocal, in
radians, correct to 10^-13 and 4·10^-13. Missing: that the square root they use ends (see C90), and `acot` and `asin`, which are wrong. -/
theorem C68_reciprocal_partial (K : Keys) (debug : Bool) (L : d.Laws) (f : F64 F) (S : L.SqrtStart f) (config : Config) (c : Context D)
    (hc : d.context K debug f config = .ok c) (os : List (Op D)) (x : D) :
    let ev := evalTokens ((c.runAll K debug os).view K)
    (L.val x ≠ 0 → |L.val x| < 1 → ev (callTokens (str "acsc") [x]) = .err .overflow ∧ ev (callTokens (str "asec") [x]) = .err .overflow) ∧
    (1 ≤ |L.val x| →
      (ev (callTokens (str "acsc") [x]) = .panic ∨ ∃ z, ev (callTokens (str "acsc") [x]) = .ok z ∧
        |(L.val z : ℝ) - Real.arcsin (1 / L.val x)| ≤ 1 / 10 ^ 13) ∧
      (ev (callTokens (str "asec") [x]) = .panic ∨ ∃ z, ev (callTokens (str "asec") [x]) = .ok z ∧
        |(L.val z : ℝ) - Real.arccos (1 / L.val x)| ≤ 4 / 10 ^ 13)) := by
  intro ev
  have h1 : ev (callTokens (str "acsc") [x]) = (d.inv x).bind (d.asin f) := decimal_call hc os (g := (d.arcRecFn (str "acsc") (d.asin f)).fn) rfl [x]
  have h2 : ev (callTokens (str "asec") [x]) = (d.inv x).bind (d.acos f) := decimal_call hc os (g := (d.arcRecFn (str "asec") (d.acos f)).fn) rfl [x]
  have v1 : L.val d.one = 1 := L.nat_val (n := 1) (by decide)
  have vm : L.val d.oneMinus = -1 := by rw [L.oneMinus]; norm_num
  rw [h1, h2]
  constructor
  · intro hx hlt
    obtain ⟨y, e, -, r⟩ := inv_near L hx
    rw [e, Res.bind_ok, Res.bind_ok]
    have hr1 : Representable (1 + 1 / 10 ^ 28) := ⟨28, le_rfl, 10 ^ 28 + 1, by norm_num, by norm_num⟩
    have hout : d.lt y d.oneMinus = true ∨ d.lt d.one y = true := by
      rcases lt_or_gt_of_ne hx with h | h
      · left
        rw [L.lt, vm]
        have hgap : 1 / 10 ^ 28 ≤ L.val x - L.val d.oneMinus :=
          representable_pos (L.representable_sub (by rw [vm, abs_le]; rw [abs_lt] at hlt; constructor <;> linarith))
            (by rw [vm]; rw [abs_lt] at hlt; linarith)
        rw [vm] at hgap
        have : 1 / L.val x ≤ -(1 + 1 / 10 ^ 28) := by
          rw [div_le_iff_of_neg h]
          nlinarith
        have := (r _ (representable_neg hr1)).2 this
        refine lt_of_le_of_lt this (by norm_num)
      · right
        rw [L.lt, v1]
        have hgap : 1 / 10 ^ 28 ≤ L.val d.one - L.val x :=
          representable_pos (L.representable_sub (by rw [v1, abs_le]; rw [abs_lt] at hlt; constructor <;> linarith))
            (by rw [v1]; rw [abs_lt] at hlt; linarith)
        rw [v1] at hgap
        have : 1 + 1 / 10 ^ 28 ≤ 1 / L.val x := by
          rw [le_div_iff₀ h]
          nlinarith
        have := (r _ hr1).1 this
        refine lt_of_lt_of_le (by norm_num) this
    unfold Dec.asin Dec.acos
    rcases hout with h | h <;> simp [h]
  · intro hx
    have hx0 : L.val x ≠ 0 := by intro h; rw [h] at hx; norm_num at hx
    have hxR : (1 : ℝ) ≤ |(L.val x : ℝ)| := by
      have := (Rat.cast_le (K := ℝ)).mpr hx
      push_cast at this
      exact this
    obtain ⟨y, e, n, r⟩ := inv_near L hx0
    rw [e, Res.bind_ok, Res.bind_ok]
    have hi : |1 / L.val x| ≤ 1 := by rw [abs_div, abs_one, div_le_one (by linarith)]; exact hx
    have hiR : |(1 / L.val x : ℝ)| ≤ 1 := by rw [abs_div, abs_one, div_le_one (by linarith)]; exact hxR
    rw [max_eq_left hiR] at n
    have hyb : |L.val y| ≤ 1 := abs_le.mpr (r.bounded (b := 1) (by exact_mod_cast representable_nat (n := 1) (by decide)) (abs_le.mp hi))
    have hybR : |(L.val y : ℝ)| ≤ 1 := by
      have := (Rat.cast_le (K := ℝ)).mpr hyb
      push_cast at this
      exact this
    have hh := arcsin_holder hybR hiR
    have hs : √(|(L.val y : ℝ) - 1 / L.val x| / 2) ≤ 1 / 10 ^ 14 := by
      rw [Real.sqrt_le_left (by norm_num)]
      linarith
    have hh2 : |Real.arcsin (L.val y) - Real.arcsin (1 / L.val x)| ≤ 4 / 10 ^ 14 := by
      refine hh.trans ?_
      have := mul_le_mul Real.pi_lt_d2.le hs (Real.sqrt_nonneg _) (by norm_num)
      linarith
    constructor
    · rcases L.asin_near S hyb with ⟨h, -⟩ | ⟨z, hz, nz⟩
      · exact .inl h
      · refine .inr ⟨z, hz, ?_⟩
        rw [abs_le] at nz hh2 ⊢
        constructor <;> linarith [nz.1, nz.2, hh2.1, hh2.2]
    · rcases L.acos_near S hyb with ⟨h, -⟩ | ⟨z, hz, nz⟩
      · exact .inl h
      · refine .inr ⟨z, hz, ?_⟩
        rw [Real.arccos] at nz ⊢
        rw [abs_le] at nz hh2 ⊢
        constructor <;> linarith [nz.1, nz.2, hh2.1, hh2.2]

/-- `acsc(2)` is near π/6 if the square root ends, and `asec(1/2)` is refused. -/
example : ∃ c, Demo.realDec.context Demo.keys true Demo.real Config.new = .ok c ∧
    (evalTokens (c.view Demo.keys) (callTokens (str "acsc") [Demo.decimal 2]) = .panic ∨
      ∃ z, evalTokens (c.view Demo.keys) (callTokens (str "acsc") [Demo.decimal 2]) = .ok z ∧ |(z.1 : ℝ) - Real.pi / 6| ≤ 1 / 10 ^ 13) ∧
    evalTokens (c.view Demo.keys) (callTokens (str "asec") [Demo.decimal 5 1]) = .err .overflow := by
  obtain ⟨c, hc, -⟩ := decimal_build Demo.keys true Demo.realDec Demo.real Config.new
  have h2 : Demo.realDecLaws.val (Demo.decimal 2) = 2 := by decide +kernel
  have h5 : Demo.realDecLaws.val (Demo.decimal 5 1) = 1 / 2 := by decide +kernel
  have k := C68_reciprocal_partial Demo.keys true Demo.realDecLaws Demo.real Demo.realStart Config.new c hc []
  refine ⟨c, hc, ?_, ((k (Demo.decimal 5 1)).1 (by rw [h5]; norm_num) (by rw [h5, abs_of_pos] <;> norm_num)).2⟩
  rcases ((k (Demo.decimal 2)).2 (by rw [h2]; norm_num)).1 with h | ⟨z, hz, hn⟩
  · exact .inl h
  · refine .inr ⟨z, hz, ?_⟩
    rw [h2] at hn
    push_cast at hn
    have : Real.arcsin (1 / 2) = Real.pi / 6 := by
      rw [← Real.sin_pi_div_six, Real.arcsin_sin] <;> linarith [Real.pi_pos]
    rw [this] at hn
    exact hn

/-- C68 is false for `asin` and `acos`: they take their argument for an angle in degrees and evaluate, up to 10^-7, to the arcsine and the arccosine
of that angle in radians (unless the square root they use does not end). Numbers from 58 on are refused. -/
theorem C68_asin_counterexample (K : Keys) (debug : Bool) (L : d.Laws) (f : F64 F) (S : L.SqrtStart f) (config : Config) (c : Context D)
    (hc : d.context K debug f config = .ok c) (os : List (Op D)) (x : D) :
    let ev := evalTokens ((c.runAll K debug os).view K)
    (|L.val x| ≤ 57 →
      (ev (callTokens (str "asin") [x]) = .panic ∨ ∃ z, ev (callTokens (str "asin") [x]) = .ok z ∧
        |(L.val z : ℝ) - Real.arcsin (L.val x * Real.pi / 180)| ≤ 1 / 10 ^ 7) ∧
      (ev (callTokens (str "acos") [x]) = .panic ∨ ∃ z, ev (callTokens (str "acos") [x]) = .ok z ∧
        |(L.val z : ℝ) - Real.arccos (L.val x * Real.pi / 180)| ≤ 1 / 10 ^ 7)) ∧
    (58 ≤ |L.val x| → |L.val x| ≤ 10 ^ 11 →
      ev (callTokens (str "asin") [x]) = .err .overflow ∧ ev (callTokens (str "acos") [x]) = .err .overflow) := by
  intro ev
  have h1 : ev (callTokens (str "asin") [x]) = (d.toRadians x).bind (d.asin f) := decimal_call hc os (g := (d.trigFn (str "asin") (d.asin f)).fn) rfl [x]
  have h2 : ev (callTokens (str "acos") [x]) = (d.toRadians x).bind (d.acos f) := decimal_call hc os (g := (d.trigFn (str "acos") (d.acos f)).fn) rfl [x]
  have v1 : L.val d.one = 1 := L.nat_val (n := 1) (by decide)
  have vm : L.val d.oneMinus = -1 := by rw [L.oneMinus]; norm_num
  have hpi := Real.pi_gt_d2
  have hpi' := Real.pi_lt_d2
  rw [h1, h2]
  constructor
  · intro hx
    obtain ⟨y, e, n, -⟩ := L.toRadians_near (b := 57) (by norm_num) (by norm_num) hx
    rw [e, Res.bind_ok, Res.bind_ok]
    have hxR : |(L.val x : ℝ)| ≤ 57 := by
      have := (Rat.cast_le (K := ℝ)).mpr hx
      push_cast at this
      exact this
    have ht : |(L.val x : ℝ) * Real.pi / 180| ≤ 998 / 1000 := by
      rw [abs_div, abs_mul, abs_of_pos Real.pi_pos, abs_of_pos (by norm_num : (0 : ℝ) < 180), div_le_iff₀ (by norm_num)]
      have := mul_le_mul hxR hpi'.le Real.pi_pos.le (by norm_num)
      linarith
    have hybR : |(L.val y : ℝ)| ≤ 1 := by
      rw [abs_le] at n ht ⊢
      constructor <;> linarith [n.1, n.2, ht.1, ht.2]
    have hyb : |L.val y| ≤ 1 := by
      have : ((|L.val y| : Rat) : ℝ) ≤ ((1 : Rat) : ℝ) := by push_cast; exact hybR
      exact_mod_cast this
    have hh := arcsin_holder hybR (show |(L.val x : ℝ) * Real.pi / 180| ≤ 1 by linarith)
    have hs : √(|(L.val y : ℝ) - L.val x * Real.pi / 180| / 2) ≤ 1 / 10 ^ 8 := by
      rw [Real.sqrt_le_left (by norm_num)]
      linarith
    have hh2 : |Real.arcsin (L.val y) - Real.arcsin (L.val x * Real.pi / 180)| ≤ 4 / 10 ^ 8 := by
      refine hh.trans ?_
      have := mul_le_mul Real.pi_lt_d2.le hs (Real.sqrt_nonneg _) (by norm_num)
      linarith
    constructor
    · rcases L.asin_near S hyb with ⟨h, -⟩ | ⟨z, hz, nz⟩
      · exact .inl h
      · refine .inr ⟨z, hz, ?_⟩
        rw [abs_le] at nz hh2 ⊢
        constructor <;> linarith [nz.1, nz.2, hh2.1, hh2.2]
    · rcases L.acos_near S hyb with ⟨h, -⟩ | ⟨z, hz, nz⟩
      · exact .inl h
      · refine .inr ⟨z, hz, ?_⟩
        rw [Real.arccos] at nz ⊢
        rw [abs_le] at nz hh2 ⊢
        constructor <;> linarith [nz.1, nz.2, hh2.1, hh2.2]
  · intro hx hx2
    obtain ⟨y, e, n, -⟩ := L.toRadians_near (b := 10 ^ 11) (by norm_num) (by norm_num) hx2
    rw [e, Res.bind_ok, Res.bind_ok]
    have hout : d.lt y d.oneMinus = true ∨ d.lt d.one y = true := by
      rw [L.lt, L.lt, v1, vm]
      rcases le_abs.mp hx with h | h
      · right
        have hR : (58 : ℝ) ≤ L.val x := by exact_mod_cast h
        have : (1 : ℝ) < L.val y := by
          have := (abs_le.mp n).1
          nlinarith
        exact_mod_cast this
      · left
        have hR : (58 : ℝ) ≤ -L.val x := by exact_mod_cast h
        have : (L.val y : ℝ) < -1 := by
          have := (abs_le.mp n).2
          nlinarith
        exact_mod_cast this
    unfold Dec.asin Dec.acos
    rcases hout with h | h <;> simp [h]

/-- `asin(1)` is not π/2: if it has a value, that is less than 0.1; and `acos(90)` is refused. -/
example : ∃ c, Demo.realDec.context Demo.keys true Demo.real Config.new = .ok c ∧
    (∀ z, evalTokens (c.view Demo.keys) (callTokens (str "asin") [Demo.decimal 1]) = .ok z → (z.1 : ℝ) < 1 / 10) ∧
    evalTokens (c.view Demo.keys) (callTokens (str "acos") [Demo.decimal 90]) = .err .overflow := by
  obtain ⟨c, hc, -⟩ := decimal_build Demo.keys true Demo.realDec Demo.real Config.new
  have h1 : Demo.realDecLaws.val (Demo.decimal 1) = 1 := by decide +kernel
  have h9 : Demo.realDecLaws.val (Demo.decimal 90) = 90 := by decide +kernel
  have k := C68_asin_counterexample Demo.keys true Demo.realDecLaws Demo.real Demo.realStart Config.new c hc []
  refine ⟨c, hc, fun z hz => ?_, ((k (Demo.decimal 90)).2 (by rw [h9]; norm_num) (by rw [h9]; norm_num)).2⟩
  rcases ((k (Demo.decimal 1)).1 (by rw [h1]; norm_num)).1 with h | ⟨z', hz', hn⟩
  · have h' : evalTokens (c.view Demo.keys) (callTokens (str "asin") [Demo.decimal 1]) = .panic := h
    rw [hz] at h'
    exact absurd h' (by simp)
  · have hz'' : evalTokens (c.view Demo.keys) (callTokens (str "asin") [Demo.decimal 1]) = .ok z' := hz'
    rw [hz] at hz''
    injection hz'' with hzz
    subst hzz
    rw [h1] at hn
    push_cast at hn
    have hpi := Real.pi_lt_d2
    have hpi0 := Real.pi_pos
    have hpi3 := Real.pi_gt_d2
    have : Real.arcsin (1 * Real.pi / 180) ≤ 9 / 100 := by
      rw [Real.arcsin_le_iff_le_sin' (by constructor <;> linarith)]
      have := Real.mul_le_sin (x := 9 / 100) (by norm_num) (by linarith)
      refine le_trans ?_ this
      have : 1 / 2 ≤ 2 / Real.pi := by rw [div_le_div_iff₀ (by norm_num) (by linarith)]; linarith
      nlinarith
    have h3 : |(z.1 : ℝ) - Real.arcsin (1 * Real.pi / 180)| ≤ 1 / 10 ^ 7 := hn
    linarith [(abs_le.mp h3).2]

/-! ## C92: logarithms of small numbers -/

/-- C92 for every number between 0 and 1: the logarithm is correct to 2·10^-16 and the error of a series that is cut off after 999 terms, which is at
most (1 - x)^1000 / x. -/
theorem C92_ln_small_partial (K : Keys) (debug : Bool) (L : d.Laws) (f : F64 F) (config : Config) (c : Context D)
    (hc : d.context K debug f config = .ok c) (os : List (Op D)) (x : D) (h0 : 0 < L.val x) (h1 : L.val x < 1) :
    ∃ z, evalTokens ((c.runAll K debug os).view K) (callTokens (str "ln") [x]) = .ok z ∧
      |(L.val z : ℝ) - Real.log (L.val x)| ≤ 2 / 10 ^ 16 + (1 - (L.val x : ℝ)) ^ 1000 / L.val x := by
  rw [decimal_call hc os (g := (Dec.fn1 (str "ln") d.ln).fn) rfl]
  obtain ⟨z, hz, hn⟩ := L.ln_below_one 2 h0 h1
  refine ⟨z, hz, hn.trans ?_⟩
  generalize (1 - (L.val x : ℝ)) ^ 1000 / L.val x = P
  linarith

/-! ## C95: inverse hyperbolic functions -/

/-- C95 for `asinh` from -4 to 10^14: correct to 3·10^-16, if the square root it uses ends (see C90). Missing: other numbers. -/
theorem C95_asinh_partial (K : Keys) (debug : Bool) (L : d.Laws) (hfuel : 100 ≤ d.fuel) (f : F64 F) (S : L.SqrtStart f) (config : Config)
    (c : Context D) (hc : d.context K debug f config = .ok c) (os : List (Op D)) (x : D) (h4 : -4 ≤ L.val x) (h14 : L.val x ≤ 10 ^ 14) :
    let ev := evalTokens ((c.runAll K debug os).view K)
    ev (callTokens (str "asinh") [x]) = .panic ∨ ∃ z, ev (callTokens (str "asinh") [x]) = .ok z ∧
      |(L.val z : ℝ) - Real.arsinh (L.val x)| ≤ 3 / 10 ^ 16 := by
  intro ev
  have h1 : ev (callTokens (str "asinh") [x]) = d.asinh f x := decimal_call hc os (g := (Dec.fn1 (str "asinh") (d.asinh f)).fn) rfl [x]
  rw [h1]
  exact L.asinh_near hfuel S h4 h14

/-- C95 for `acosh` up to 10^14: numbers below 1 are refused, others correct to 6·10^-14, if the square root it uses ends. Missing: larger numbers,
and 1. -/
theorem C95_acosh_partial (K : Keys) (debug : Bool) (L : d.Laws) (hfuel : 100 ≤ d.fuel) (f : F64 F) (S : L.SqrtStart f) (config : Config)
    (c : Context D) (hc : d.context K debug f config = .ok c) (os : List (Op D)) (x : D) :
    let ev := evalTokens ((c.runAll K debug os).view K)
    (L.val x < 1 → ev (callTokens (str "acosh") [x]) = .err .overflow) ∧
    (1 < L.val x → L.val x ≤ 10 ^ 14 → ev (callTokens (str "acosh") [x]) = .panic ∨ ∃ z, ev (callTokens (str "acosh") [x]) = .ok z ∧
      |(L.val z : ℝ) - Real.arcosh (L.val x)| ≤ 6 / 10 ^ 14) := by
  intro ev
  have h1 : ev (callTokens (str "acosh") [x]) = d.acosh f x := decimal_call hc os (g := (Dec.fn1 (str "acosh") (d.acosh f)).fn) rfl [x]
  have v1 : L.val d.one = 1 := L.nat_val (n := 1) (by decide)
  rw [h1]
  refine ⟨fun h => ?_, fun h h' => L.acosh_near hfuel S h h'⟩
  unfold Dec.acosh
  rw [if_pos (by rw [L.lt, v1]; exact h)]

/-- C95 for `atanh` from -9/11 on: correct to 2·10^-16; numbers beyond -1 and 1 are refused. Missing: between -1 and -9/11, where the logarithm of a
small number is used. -/
theorem C95_atanh_partial (K : Keys) (debug : Bool) (L : d.Laws) (hfuel : 100 ≤ d.fuel) (f : F64 F) (config : Config)
    (c : Context D) (hc : d.context K debug f config = .ok c) (os : List (Op D)) (x : D) :
    let ev := evalTokens ((c.runAll K debug os).view K)
    (1 < |L.val x| → ev (callTokens (str "atanh") [x]) = .err .overflow) ∧
    (-9 / 11 ≤ L.val x → L.val x < 1 → ∃ z, ev (callTokens (str "atanh") [x]) = .ok z ∧
      |(L.val z : ℝ) - Real.artanh (L.val x)| ≤ 2 / 10 ^ 16) := by
  intro ev
  have h1 : ev (callTokens (str "atanh") [x]) = d.atanh x := decimal_call hc os (g := (Dec.fn1 (str "atanh") d.atanh).fn) rfl [x]
  have v1 : L.val d.one = 1 := L.nat_val (n := 1) (by decide)
  have vm : L.val d.oneMinus = -1 := by rw [L.oneMinus]; norm_num
  rw [h1]
  refine ⟨fun h => ?_, fun h h' => L.atanh_near hfuel h h'⟩
  unfold Dec.atanh
  rw [if_pos]
  rw [Bool.or_eq_true, L.lt, L.lt, v1, vm]
  rcases lt_abs.mp h with h | h
  · exact .inr h
  · exact .inl (by linarith)

/-- `atanh(1/2)` is near the logarithm of 3, halved, and `acosh(1/2)` is refused. -/
example : ∃ c, Demo.realDec.context Demo.keys true Demo.real Config.new = .ok c ∧
    (∃ z, evalTokens (c.view Demo.keys) (callTokens (str "atanh") [Demo.decimal 5 1]) = .ok z ∧ |(z.1 : ℝ) - Real.log 3 / 2| ≤ 2 / 10 ^ 16) ∧
    evalTokens (c.view Demo.keys) (callTokens (str "acosh") [Demo.decimal 5 1]) = .err .overflow ∧
    (evalTokens (c.view Demo.keys) (callTokens (str "asinh") [Demo.decimal 5 1]) = .panic ∨
      ∃ z, evalTokens (c.view Demo.keys) (callTokens (str "asinh") [Demo.decimal 5 1]) = .ok z ∧ |(z.1 : ℝ) - Real.arsinh (1 / 2)| ≤ 3 / 10 ^ 16) := by
  obtain ⟨c, hc, -⟩ := decimal_build Demo.keys true Demo.realDec Demo.real Config.new
  have h5 : Demo.realDecLaws.val (Demo.decimal 5 1) = 1 / 2 := by decide +kernel
  have hf : 100 ≤ Demo.realDec.fuel := by decide
  have hA := C95_asinh_partial Demo.keys true Demo.realDecLaws hf Demo.real Demo.realStart Config.new c hc [] (Demo.decimal 5 1)
    (by rw [h5]; norm_num) (by rw [h5]; norm_num)
  obtain ⟨z, hz, hn⟩ := (C95_atanh_partial Demo.keys true Demo.realDecLaws hf Demo.real Config.new c hc [] (Demo.decimal 5 1)).2
    (by rw [h5]; norm_num) (by rw [h5]; norm_num)
  refine ⟨c, hc, ⟨z, hz, ?_⟩,
    (C95_acosh_partial Demo.keys true Demo.realDecLaws hf Demo.real Demo.realStart Config.new c hc [] (Demo.decimal 5 1)).1 (by rw [h5]; norm_num), ?_⟩
  · rw [h5] at hn
    push_cast at hn
    rw [Real.artanh_eq_half_log (by constructor <;> norm_num), show (1 + 1 / 2 : ℝ) / (1 - 1 / 2) = 3 by norm_num,
      show 1 / 2 * Real.log 3 = Real.log 3 / 2 by ring] at hn
    exact hn
  · rw [h5] at hA
    push_cast at hA
    exact hA

/-! ## C102: inverse reciprocal hyperbolic functions -/

/-- C102 is false: `asech` is refused on the whole domain of the inverse of the hyperbolic secant below 1, and `acoth` on that of the hyperbolic
cotangent; and `acsch(x)` is the reciprocal of `asinh(x)` instead of `asinh(1/x)`. -/
theorem C102_counterexample (K : Keys) (debug : Bool) (L : d.Laws) (f : F64 F) (config : Config)
    (c : Context D) (hc : d.context K debug f config = .ok c) (os : List (Op D)) (x : D) :
    let ev := evalTokens ((c.runAll K debug os).view K)
    (L.val x < 1 → ev (callTokens (str "asech") [x]) = .err .overflow) ∧
    (1 < |L.val x| → ev (callTokens (str "acoth") [x]) = .err .overflow) ∧
    (∀ y, ev (callTokens (str "asinh") [x]) = .ok y → L.val y ≠ 0 →
      ∃ z, ev (callTokens (str "acsch") [x]) = .ok z ∧ |(L.val z - 1 / L.val y : ℝ)| ≤ 2 / 10 ^ 28 * max 1 |(1 / L.val y : ℝ)|) := by
  intro ev
  have h1 : ev (callTokens (str "asech") [x]) = (d.acosh f x).bind d.checkedInv :=
    decimal_call hc os (g := (d.checkedInvFn (str "asech") (d.acosh f)).fn) rfl [x]
  have h2 : ev (callTokens (str "acoth") [x]) = (d.atanh x).bind d.checkedInv :=
    decimal_call hc os (g := (d.checkedInvFn (str "acoth") d.atanh).fn) rfl [x]
  have h3 : ev (callTokens (str "acsch") [x]) = (d.asinh f x).bind d.inv :=
    decimal_call hc os (g := (Dec.fn1 (str "acsch") (fun x => (d.asinh f x).bind d.inv)).fn) rfl [x]
  have h4 : ev (callTokens (str "asinh") [x]) = d.asinh f x := decimal_call hc os (g := (Dec.fn1 (str "asinh") (d.asinh f)).fn) rfl [x]
  have v1 : L.val d.one = 1 := L.nat_val (n := 1) (by decide)
  have vm : L.val d.oneMinus = -1 := by rw [L.oneMinus]; norm_num
  rw [h1, h2, h3, h4]
  refine ⟨fun h => ?_, fun h => ?_, fun y hy hy0 => ?_⟩
  · unfold Dec.acosh
    rw [if_pos (by rw [L.lt, v1]; exact h)]
    rfl
  · unfold Dec.atanh
    rw [if_pos]
    · rfl
    rw [Bool.or_eq_true, L.lt, L.lt, v1, vm]
    rcases lt_abs.mp h with h | h
    · exact .inr h
    · exact .inl (by linarith)
  · obtain ⟨z, hz, hn, -⟩ := inv_near L hy0
    rw [hy, Res.bind_ok]
    exact ⟨z, hz, hn⟩

/-- `asech(1/2)` and `acoth(2)` are refused. -/
example : ∃ c, Demo.realDec.context Demo.keys true Demo.real Config.new = .ok c ∧
    evalTokens (c.view Demo.keys) (callTokens (str "asech") [Demo.decimal 5 1]) = .err .overflow ∧
    evalTokens (c.view Demo.keys) (callTokens (str "acoth") [Demo.decimal 2]) = .err .overflow := by
  obtain ⟨c, hc, -⟩ := decimal_build Demo.keys true Demo.realDec Demo.real Config.new
  have h5 : Demo.realDecLaws.val (Demo.decimal 5 1) = 1 / 2 := by decide +kernel
  have h2 : Demo.realDecLaws.val (Demo.decimal 2) = 2 := by decide +kernel
  have k := C102_counterexample Demo.keys true Demo.realDecLaws Demo.real Config.new c hc []
  exact ⟨c, hc, (k (Demo.decimal 5 1)).1 (by rw [h5]; norm_num), (k (Demo.decimal 2)).2.1 (by rw [h2]; norm_num)⟩

end Prexel
