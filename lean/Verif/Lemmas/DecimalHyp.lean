import Verif.Lemmas.DecimalExp
import Verif.Lemmas.DecimalLog
/-!
# Hyperbolic functions and powers of decimals
-/

set_option linter.unusedVariables false

namespace Prexel
variable {D F : Type} {d : Dec D F}

theorem exp_le_20 {X : ℝ} (h : X ≤ 20) : Real.exp X ≤ 49 * 10 ^ 7 := by
  have h : Real.exp X ≤ Real.exp 20 := Real.exp_le_exp.mpr h
  have e20 : Real.exp 20 = Real.exp 1 ^ 20 := by rw [← Real.exp_nat_mul]; norm_num
  have h1 := Real.exp_one_lt_d9
  have : Real.exp 1 ^ 20 ≤ 2.7182818286 ^ 20 := pow_le_pow_left₀ (Real.exp_pos 1).le h1.le 20
  rw [e20] at h
  exact h.trans (this.trans (by norm_num))

namespace Dec.Laws
variable (L : d.Laws)
include L

omit L in
theorem unwrap_ok {x : Res D} {z : D} (h : x = .ok z) : x.unwrapNone = .ok z := by rw [h]; rfl

/-- The two exponentials and half their sum or difference. -/
theorem hyp_parts {x : D} (hx : |L.val x| ≤ 20) : ∃ a b s c s' c', d.exp x = .ok a ∧ d.exp (d.neg x) = .ok b ∧
    d.sub a b = .ok s ∧ d.div s d.two = .ok s' ∧ d.add a b = .ok c ∧ d.div c d.two = .ok c' ∧
    |(L.val s' : ℝ) - Real.sinh (L.val x)| ≤ 3 / 10 ^ 16 * (1 + Real.cosh (L.val x)) ∧
    |(L.val c' : ℝ) - Real.cosh (L.val x)| ≤ 3 / 10 ^ 16 * (1 + Real.cosh (L.val x)) := by
  have hX : |(L.val x : ℝ)| ≤ 20 := by
    have := (Rat.cast_le (K := ℝ)).mpr hx
    push_cast at this
    exact this
  have hxs := abs_le.mp hX
  obtain ⟨a, ea, na⟩ := L.exp_near hx
  obtain ⟨b, eb, nb⟩ := L.exp_near (x := d.neg x) (by rw [L.neg, abs_neg]; exact hx)
  rw [L.neg] at nb
  push_cast at nb
  have E1 := Real.exp_pos (L.val x : ℝ)
  have E2 := Real.exp_pos (-(L.val x : ℝ))
  have B1 := exp_le_20 (X := L.val x) hxs.2
  have B2 := exp_le_20 (X := -(L.val x : ℝ)) (by linarith [hxs.1])
  have hs := Real.sinh_eq (L.val x : ℝ)
  have hc := Real.cosh_eq (L.val x : ℝ)
  generalize Real.exp (L.val x) = A at *
  generalize Real.exp (-(L.val x : ℝ)) = B at *
  have nas := abs_le.mp na
  have nbs := abs_le.mp nb
  have v2 : (L.val d.two : ℝ) = 2 := by rw [show L.val d.two = 2 from L.nat_val (n := 2) (by decide)]; norm_num
  obtain ⟨s, es, ns⟩ := L.csub_real (x := a) (y := b) (a := 10 ^ 9) (by norm_num) (by
    push_cast; rw [abs_le]; constructor <;> linarith [nas.1, nas.2, nbs.1, nbs.2]) (by norm_num)
  obtain ⟨c, ec, nc⟩ := L.cadd_real (x := a) (y := b) (a := 10 ^ 9) (by norm_num) (by
    push_cast; rw [abs_le]; constructor <;> linarith [nas.1, nas.2, nbs.1, nbs.2]) (by norm_num)
  push_cast at ns nc
  have nss := abs_le.mp ns
  have ncs := abs_le.mp nc
  obtain ⟨s', es', ns'⟩ := L.cdiv_real (x := s) (y := d.two) (a := 10 ^ 9) (by rw [v2]; norm_num) (by norm_num) (by
    push_cast; rw [v2, abs_le]; constructor <;> linarith [nas.1, nas.2, nbs.1, nbs.2, nss.1, nss.2]) (by norm_num)
  obtain ⟨c', ec', nc'⟩ := L.cdiv_real (x := c) (y := d.two) (a := 10 ^ 9) (by rw [v2]; norm_num) (by norm_num) (by
    push_cast; rw [v2, abs_le]; constructor <;> linarith [nas.1, nas.2, nbs.1, nbs.2, ncs.1, ncs.2]) (by norm_num)
  push_cast at ns' nc'
  rw [v2] at ns' nc'
  have nss' := abs_le.mp ns'
  have ncs' := abs_le.mp nc'
  refine ⟨a, b, s, c, s', c', ea, eb, unwrap_ok es, unwrap_ok es', unwrap_ok ec, unwrap_ok ec', ?_, ?_⟩
  · rw [hs, hc, abs_le]
    constructor <;> linarith [nas.1, nas.2, nbs.1, nbs.2, nss.1, nss.2, nss'.1, nss'.2]
  · rw [hc, abs_le]
    constructor <;> linarith [nas.1, nas.2, nbs.1, nbs.2, ncs.1, ncs.2, ncs'.1, ncs'.2]

theorem hyp_near {x : D} (hx : |L.val x| ≤ 20) : ∃ s c t, d.sinh x = .ok s ∧ d.cosh x = .ok c ∧ d.tanh x = .ok t ∧
    |(L.val s : ℝ) - Real.sinh (L.val x)| ≤ 3 / 10 ^ 16 * (1 + Real.cosh (L.val x)) ∧
    |(L.val c : ℝ) - Real.cosh (L.val x)| ≤ 3 / 10 ^ 16 * (1 + Real.cosh (L.val x)) ∧
    |(L.val t : ℝ) - Real.tanh (L.val x)| ≤ 13 / 10 ^ 16 := by
  obtain ⟨a, b, s0, c0, s, c, ea, eb, es0, es, ec0, ec, ns, nc⟩ := L.hyp_parts hx
  have hs : d.sinh x = .ok s := by simp only [Dec.sinh, Res.bind_eq, ea, eb, es0, es, Res.bind_ok]
  have hc : d.cosh x = .ok c := by simp only [Dec.cosh, Res.bind_eq, ea, eb, ec0, ec, Res.bind_ok]
  have hC1 : 1 ≤ Real.cosh (L.val x) := by nlinarith [Real.cosh_pos (L.val x : ℝ), Real.cosh_sq (L.val x : ℝ), sq_nonneg (Real.sinh (L.val x))]
  have hS := Real.cosh_sq (L.val x : ℝ)
  have hT := Real.tanh_eq_sinh_div_cosh (L.val x : ℝ)
  rw [hT]
  generalize Real.sinh (L.val x) = S at *
  generalize Real.cosh (L.val x) = C at *
  have hSC : |S| ≤ C := abs_le_of_sq_le_sq (by linarith) (by linarith)
  have ns6 : |(L.val s : ℝ) - S| ≤ 6 / 10 ^ 16 * C := ns.trans (by linarith)
  have nc6 : |(L.val c : ℝ) - C| ≤ 6 / 10 ^ 16 * C := nc.trans (by linarith)
  have ncs := abs_le.mp nc6
  have hcp : 99 / 100 * C ≤ L.val c := by linarith [ncs.1]
  have hc0 : (0 : ℝ) < L.val c := by linarith
  have hq : |(L.val s : ℝ) / L.val c - S / C| ≤ 125 / 10 ^ 17 := by
    have e : (L.val s : ℝ) / L.val c - S / C = ((L.val s - S) * C - S * (L.val c - C)) / (L.val c * C) := by field_simp; ring
    have hC0 : 0 < C := by linarith
    rw [e, abs_div, abs_of_pos (show (0 : ℝ) < L.val c * C by positivity), div_le_iff₀ (by positivity)]
    have h1 : |((L.val s : ℝ) - S) * C - S * (L.val c - C)| ≤ 12 / 10 ^ 16 * C * C := by
      refine (abs_sub _ _).trans ?_
      rw [abs_mul, abs_mul, abs_of_pos hC0]
      have h2 := mul_le_mul_of_nonneg_right ns6 hC0.le
      have h3 := mul_le_mul hSC nc6 (abs_nonneg _) hC0.le
      linarith
    have h4 := mul_le_mul_of_nonneg_right hcp hC0.le
    nlinarith
  have hb : |S / C| ≤ 1 := by
    rw [abs_div, abs_of_pos (show 0 < C by linarith)]
    exact (div_le_one (by linarith)).mpr hSC
  have hqs := abs_le.mp hq
  have hbs := abs_le.mp hb
  obtain ⟨t, et, nt⟩ := L.cdiv_real (x := s) (y := c) (a := 2) hc0.ne' (by norm_num) (by
    push_cast; rw [abs_le]; constructor <;> linarith [hqs.1, hqs.2, hbs.1, hbs.2]) (by norm_num)
  push_cast at nt
  have nts := abs_le.mp nt
  refine ⟨s, c, t, hs, hc, ?_, ns, nc, ?_⟩
  · simp only [Dec.tanh, Res.bind_eq, hs, hc, Res.bind_ok]
    exact unwrap_ok et
  · rw [abs_le]
    constructor <;> linarith [hqs.1, hqs.2, nts.1, nts.2]

/-! ## Powers -/

omit L in
theorem exp_close {a b : ℝ} (h : |a - b| ≤ 1) : |Real.exp a - Real.exp b| ≤ 2 * |a - b| * Real.exp b := by
  have e : Real.exp a - Real.exp b = (Real.exp (a - b) - 1) * Real.exp b := by rw [sub_mul, ← Real.exp_add]; ring_nf
  rw [e, abs_mul, abs_of_pos (Real.exp_pos b)]
  refine mul_le_mul_of_nonneg_right ?_ (Real.exp_pos b).le
  exact Real.abs_exp_sub_one_le h

theorem powd_near (hfuel : 100 ≤ d.fuel) {x y : D} (hx : 1 / 10 ≤ L.val x) (hy : ∀ n : ℤ, L.val y ≠ n) (hy10 : |L.val y| ≤ 10 ^ 10)
    (hr : |(L.val y : ℝ) * Real.log (L.val x)| ≤ 19) :
    ∃ z, d.powd x y = .ok z ∧ |(L.val z : ℝ) - (L.val x : ℝ) ^ (L.val y : ℝ)| ≤ 1 / 10 ^ 15 * (1 + |(L.val y : ℝ)|) * (1 + (L.val x : ℝ) ^ (L.val y : ℝ)) := by
  have hxp : (0 : ℝ) < L.val x := by
    have : 0 < L.val x := by linarith
    exact_mod_cast this
  have hP : (L.val x : ℝ) ^ (L.val y : ℝ) = Real.exp (L.val y * Real.log (L.val x)) := by
    rw [Real.rpow_def_of_pos hxp, mul_comm]
  have hYR : |(L.val y : ℝ)| ≤ 10 ^ 10 := by
    have := (Rat.cast_le (K := ℝ)).mpr hy10
    push_cast at this
    exact this
  rw [hP]
  have ni : ¬ d.isInteger y = true := by
    unfold Dec.isInteger
    rw [L.isZero, L.fract]
    rintro ⟨n, hn⟩
    exact hy n hn
  have nz : ¬ d.isZero x = true := by rw [L.isZero]; linarith
  have hrs := abs_le.mp hr
  have hY0 := abs_nonneg (L.val y : ℝ)
  have hE := Real.exp_pos (L.val y * Real.log (L.val x) : ℝ)
  unfold Dec.powd
  rw [if_neg ni, if_neg nz]
  by_cases h1 : d.isOne x = true
  · rw [if_pos h1]
    rw [L.isOne] at h1
    refine ⟨x, rfl, ?_⟩
    rw [h1]
    simp only [Rat.cast_one, Real.log_one, mul_zero, Real.exp_zero, sub_self, abs_zero]
    positivity
  rw [if_neg h1]
  -- what remains once the exponent is known
  have fin : ∀ (b : D), |(L.val b : ℝ) - L.val y * Real.log (L.val x)| ≤ 3 / 10 ^ 16 * (1 + |(L.val y : ℝ)|) →
      ∃ z, d.exp b = .ok z ∧ |(L.val z : ℝ) - Real.exp (L.val y * Real.log (L.val x))| ≤
        1 / 10 ^ 15 * (1 + |(L.val y : ℝ)|) * (1 + Real.exp (L.val y * Real.log (L.val x))) := by
    intro b nb
    have nbs := abs_le.mp nb
    have hb20 : |L.val b| ≤ 20 := cast_abs_le (by
      push_cast; rw [abs_le]; constructor <;> linarith [nbs.1, nbs.2])
    obtain ⟨z, ez, nzz⟩ := L.exp_near hb20
    have hcl := exp_close (a := L.val b) (b := L.val y * Real.log (L.val x)) (nb.trans (by linarith))
    refine ⟨z, ez, ?_⟩
    have hcl' : |Real.exp (L.val b) - Real.exp (L.val y * Real.log (L.val x))| ≤ 6 / 10 ^ 16 * (1 + |(L.val y : ℝ)|) * Real.exp (L.val y * Real.log (L.val x)) := by
      refine hcl.trans ?_
      exact mul_le_mul_of_nonneg_right (by linarith) hE.le
    generalize Real.exp (L.val y * Real.log (L.val x)) = P at *
    generalize Real.exp (L.val b) = Q at *
    generalize |(L.val y : ℝ)| = Y at *
    have hclS := abs_le.mp hcl'
    have nzS := abs_le.mp nzz
    have hs : Q ≤ P * 2 := by nlinarith [hclS.2]
    have key : 2 / 10 ^ 16 * (1 + Q) + 6 / 10 ^ 16 * (1 + Y) * P ≤ 1 / 10 ^ 15 * (1 + Y) * (1 + P) := by nlinarith [mul_nonneg hY0 hE.le]
    rw [abs_le]
    constructor <;> linarith [nzS.1, nzS.2, hclS.1, hclS.2]
  by_cases hxe : d.eq x d.e = true
  · rw [if_pos hxe]
    rw [L.eq] at hxe
    refine fin y ?_
    have he : L.val d.e = 27182818284590452353602874714 / 10 ^ 28 := by
      have := L.e
      rw [eq_div_iff (by norm_num)]
      push_cast at this
      exact this
    have hlog : |1 - Real.log (L.val x : ℝ)| ≤ 1 / 10 ^ 18 := by
      have hn := abs_le.mp Real.exp_one_near_20
      have hxv : (L.val x : ℝ) = 27182818284590452353602874714 / 10 ^ 28 := by rw [hxe, he]; push_cast; rfl
      have e0 := Real.exp_pos 1
      have l1 := Real.log_le_sub_one_of_pos (div_pos hxp e0)
      have l2 := Real.log_le_sub_one_of_pos (div_pos e0 hxp)
      rw [Real.log_div hxp.ne' e0.ne', Real.log_exp] at l1
      rw [Real.log_div e0.ne' hxp.ne', Real.log_exp] at l2
      have q1 : (L.val x : ℝ) / Real.exp 1 - 1 ≤ 1 / 10 ^ 18 := by
        rw [sub_le_iff_le_add, div_le_iff₀ e0, hxv]
        linarith [hn.1, hn.2]
      have q2 : Real.exp 1 / (L.val x : ℝ) - 1 ≤ 1 / 10 ^ 18 := by
        rw [sub_le_iff_le_add, div_le_iff₀ hxp, hxv]
        linarith [hn.1, hn.2]
      rw [abs_le]
      constructor <;> linarith
    have e : (L.val y : ℝ) - L.val y * Real.log (L.val x) = L.val y * (1 - Real.log (L.val x)) := by ring
    rw [e, abs_mul]
    have := mul_le_mul_of_nonneg_left hlog hY0
    linarith
  rw [if_neg hxe]
  obtain ⟨l, el, nl⟩ := L.ln_near hfuel hx
  have nls := abs_le.mp nl
  have hprod : |(L.val l : ℝ) * L.val y - L.val y * Real.log (L.val x)| ≤ 2 / 10 ^ 16 * |(L.val y : ℝ)| := by
    have e : (L.val l : ℝ) * L.val y - L.val y * Real.log (L.val x) = (L.val l - Real.log (L.val x)) * L.val y := by ring
    rw [e, abs_mul]
    exact mul_le_mul_of_nonneg_right nl hY0
  have hps := abs_le.mp hprod
  obtain ⟨b, eb, nb, -⟩ := L.cmul_real (x := l) (y := y) (a := 20) (by norm_num) (by
    push_cast; rw [abs_le]; constructor <;> linarith [hps.1, hps.2]) (by norm_num)
  push_cast at nb
  have nbs := abs_le.mp nb
  obtain ⟨z, ez, h⟩ := fin b (by rw [abs_le]; constructor <;> linarith [hps.1, hps.2, nbs.1, nbs.2])
  refine ⟨z, ?_, h⟩
  simp only [Res.bind_eq, el, eb, ez, Res.bind_ok]

end Dec.Laws
end Prexel
