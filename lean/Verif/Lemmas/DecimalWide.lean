import Verif.Lemmas.DecimalExpWide
import Verif.Lemmas.DecimalHyp
/-!
# Hyperbolic functions up to 50 and powers up to `e^49`
-/

set_option linter.unusedVariables false

namespace Prexel
variable {D F : Type} {d : Dec D F}

namespace Dec.Laws
variable (L : d.Laws)
include L

omit L in
/-- The error of half the sum or the difference of two approximated numbers. -/
theorem half_gap {A B la lb l l' : ℝ} (E1 : 0 < A) (E2 : 0 < B) (hAB : A * B = 1) (na : |la - A| ≤ 2 / 10 ^ 16 + 2 / 10 ^ 25 * (A + A * A))
    (nb : |lb - B| ≤ 2 / 10 ^ 16 + 2 / 10 ^ 25 * (B + B * B)) {k m : ℝ}
    (hkm : (k = la - lb ∧ m = A - B) ∨ (k = la + lb ∧ m = A + B)) (n0 : |l - k| ≤ 2 / 10 ^ 28 * (2 * (A + B) + 2))
    (n1 : |l' - l / 2| ≤ 2 / 10 ^ 28 * (2 * (A + B) + 3)) :
    |l' - m / 2| ≤ 3 / 10 ^ 16 + 1 / 10 ^ 24 * ((A + B) / 2) ^ 2 := by
  have hC1 : 2 ≤ A + B := by nlinarith [sq_nonneg (A - B)]
  have hCC : 2 * (A + B) ≤ (A + B) * (A + B) := mul_le_mul_of_nonneg_right hC1 (by linarith)
  have e : ((A + B) / 2) ^ 2 = (A * A + B * B + 2) / 4 := by linear_combination (1 / 2) * hAB
  have e2 : (A + B) * (A + B) = A * A + B * B + 2 := by linear_combination 2 * hAB
  rw [e]
  rw [e2] at hCC
  generalize A * A = AA at *
  generalize B * B = BB at *
  clear e e2
  have nas := abs_le.mp na
  have nbs := abs_le.mp nb
  have n0s := abs_le.mp n0
  have n1s := abs_le.mp n1
  rw [abs_le]
  rcases hkm with ⟨rfl, rfl⟩ | ⟨rfl, rfl⟩ <;> constructor <;> linarith [nas.1, nas.2, nbs.1, nbs.2, n0s.1, n0s.2, n1s.1, n1s.2]

/-- The two exponentials and half their sum or difference. -/
theorem hyp_wide_parts {x : D} (hx : |L.val x| ≤ 50) : ∃ a b s c s' c', d.exp x = .ok a ∧ d.exp (d.neg x) = .ok b ∧
    d.sub a b = .ok s ∧ d.div s d.two = .ok s' ∧ d.add a b = .ok c ∧ d.div c d.two = .ok c' ∧
    |(L.val s' : ℝ) - Real.sinh (L.val x)| ≤ 3 / 10 ^ 16 + 1 / 10 ^ 24 * Real.cosh (L.val x) ^ 2 ∧
    |(L.val c' : ℝ) - Real.cosh (L.val x)| ≤ 3 / 10 ^ 16 + 1 / 10 ^ 24 * Real.cosh (L.val x) ^ 2 := by
  have hX : |(L.val x : ℝ)| ≤ 50 := by
    have := (Rat.cast_le (K := ℝ)).mpr hx
    push_cast at this
    exact this
  have hxs := abs_le.mp hX
  have hxq := abs_le.mp hx
  obtain ⟨a, ea, na⟩ := L.exp_wide (x := x) (by linarith [hxq.1]) hxq.2
  obtain ⟨b, eb, nb⟩ := L.exp_wide (x := d.neg x) (by rw [L.neg]; linarith [hxq.2]) (by rw [L.neg]; linarith [hxq.1])
  rw [L.neg] at nb
  push_cast at nb
  have E1 := Real.exp_pos (L.val x : ℝ)
  have E2 := Real.exp_pos (-(L.val x : ℝ))
  have B1 := exp_le_50 (X := L.val x) hxs.2
  have B2 := exp_le_50 (X := -(L.val x : ℝ)) (by linarith [hxs.1])
  have hAB : Real.exp (L.val x) * Real.exp (-(L.val x : ℝ)) = 1 := by rw [← Real.exp_add]; simp
  have hs := Real.sinh_eq (L.val x : ℝ)
  have hc := Real.cosh_eq (L.val x : ℝ)
  generalize Real.exp (L.val x) = A at *
  generalize Real.exp (-(L.val x : ℝ)) = B at *
  have hAA : A * A ≤ 6 * 10 ^ 21 * A := mul_le_mul_of_nonneg_right B1 E1.le
  have hBB : B * B ≤ 6 * 10 ^ 21 * B := mul_le_mul_of_nonneg_right B2 E2.le
  have na' : |(L.val a : ℝ) - A| ≤ 2 / 10 ^ 16 + 2 / 10 ^ 25 * (A + A * A) := na.trans (by linarith)
  have nb' : |(L.val b : ℝ) - B| ≤ 2 / 10 ^ 16 + 2 / 10 ^ 25 * (B + B * B) := nb.trans (by linarith)
  have nas := abs_le.mp na'
  have nbs := abs_le.mp nb'
  have v2 : (L.val d.two : ℝ) = 2 := by rw [show L.val d.two = 2 from L.nat_val (n := 2) (by decide)]; norm_num
  have down : ∀ {q : Rat}, |(q : ℝ)| ≤ 2 * (A + B) + 4 → |q| ≤ 4 * (6 * 10 ^ 21) + 4 := by
    intro q hq
    have h2 : ((|q| : Rat) : ℝ) ≤ ((4 * (6 * 10 ^ 21) + 4 : Rat) : ℝ) := by push_cast; linarith
    exact (Rat.cast_le (K := ℝ)).mp h2
  have bs : |(L.val a - L.val b : ℝ)| ≤ 2 * (A + B) + 1 := by rw [abs_le]; constructor <;> linarith [nas.1, nas.2, nbs.1, nbs.2]
  have bc : |(L.val a + L.val b : ℝ)| ≤ 2 * (A + B) + 1 := by rw [abs_le]; constructor <;> linarith [nas.1, nas.2, nbs.1, nbs.2]
  have ds := down (q := L.val a - L.val b) (by push_cast; linarith)
  have dc := down (q := L.val a + L.val b) (by push_cast; linarith)
  obtain ⟨s, es, ns⟩ := L.csub_real (x := a) (y := b) (a := |L.val a - L.val b| + 1) (by linarith [abs_nonneg (L.val a - L.val b)]) (by
    push_cast; linarith) (by linarith)
  obtain ⟨c, ec, nc⟩ := L.cadd_real (x := a) (y := b) (a := |L.val a + L.val b| + 1) (by linarith [abs_nonneg (L.val a + L.val b)]) (by
    push_cast; linarith) (by linarith)
  push_cast at ns nc
  have ns0 : |(L.val s : ℝ) - (L.val a - L.val b)| ≤ 2 / 10 ^ 28 * (2 * (A + B) + 2) := ns.trans (by linarith)
  have nc0 : |(L.val c : ℝ) - (L.val a + L.val b)| ≤ 2 / 10 ^ 28 * (2 * (A + B) + 2) := nc.trans (by linarith)
  have nss := abs_le.mp ns0
  have ncs := abs_le.mp nc0
  have bss := abs_le.mp bs
  have bcs := abs_le.mp bc
  have bs' : |(L.val s / L.val d.two : ℝ)| ≤ 2 * (A + B) + 2 := by rw [v2, abs_le]; constructor <;> linarith [nss.1, nss.2, bss.1, bss.2]
  have bc' : |(L.val c / L.val d.two : ℝ)| ≤ 2 * (A + B) + 2 := by rw [v2, abs_le]; constructor <;> linarith [ncs.1, ncs.2, bcs.1, bcs.2]
  have ds' := down (q := L.val s / L.val d.two) (by push_cast; linarith)
  have dc' := down (q := L.val c / L.val d.two) (by push_cast; linarith)
  obtain ⟨s', es', ns'⟩ := L.cdiv_real (x := s) (y := d.two) (a := |L.val s / L.val d.two| + 1) (by rw [v2]; norm_num)
    (by linarith [abs_nonneg (L.val s / L.val d.two)]) (by push_cast; linarith) (by linarith)
  obtain ⟨c', ec', nc'⟩ := L.cdiv_real (x := c) (y := d.two) (a := |L.val c / L.val d.two| + 1) (by rw [v2]; norm_num)
    (by linarith [abs_nonneg (L.val c / L.val d.two)]) (by push_cast; linarith) (by linarith)
  push_cast at ns' nc'
  have ns1 : |(L.val s' : ℝ) - L.val s / L.val d.two| ≤ 2 / 10 ^ 28 * (2 * (A + B) + 3) := ns'.trans (by linarith)
  have nc1 : |(L.val c' : ℝ) - L.val c / L.val d.two| ≤ 2 / 10 ^ 28 * (2 * (A + B) + 3) := nc'.trans (by linarith)
  rw [v2] at ns1 nc1
  have nss' := abs_le.mp ns1
  have ncs' := abs_le.mp nc1
  refine ⟨a, b, s, c, s', c', ea, eb, unwrap_ok es, unwrap_ok es', unwrap_ok ec, unwrap_ok ec', ?_, ?_⟩
  · rw [hs, hc]
    exact half_gap E1 E2 hAB na' nb' (Or.inl ⟨rfl, rfl⟩) ns0 ns1
  · rw [hc]
    exact half_gap E1 E2 hAB na' nb' (Or.inr ⟨rfl, rfl⟩) nc0 nc1

theorem hyp_wide {x : D} (hx : |L.val x| ≤ 50) : ∃ s c t, d.sinh x = .ok s ∧ d.cosh x = .ok c ∧ d.tanh x = .ok t ∧
    |(L.val s : ℝ) - Real.sinh (L.val x)| ≤ 3 / 10 ^ 16 + 1 / 10 ^ 24 * Real.cosh (L.val x) ^ 2 ∧
    |(L.val c : ℝ) - Real.cosh (L.val x)| ≤ 3 / 10 ^ 16 + 1 / 10 ^ 24 * Real.cosh (L.val x) ^ 2 ∧
    |(L.val t : ℝ) - Real.tanh (L.val x)| ≤ 7 / 10 ^ 16 + 3 / 10 ^ 24 * Real.cosh (L.val x) := by
  obtain ⟨a, b, s0, c0, s, c, ea, eb, es0, es, ec0, ec, ns, nc⟩ := L.hyp_wide_parts hx
  have hs : d.sinh x = .ok s := by simp only [Dec.sinh, Res.bind_eq, ea, eb, es0, es, Res.bind_ok]
  have hc : d.cosh x = .ok c := by simp only [Dec.cosh, Res.bind_eq, ea, eb, ec0, ec, Res.bind_ok]
  have hX : |(L.val x : ℝ)| ≤ 50 := by
    have := (Rat.cast_le (K := ℝ)).mpr hx
    push_cast at this
    exact this
  have hxs := abs_le.mp hX
  have hC1 : 1 ≤ Real.cosh (L.val x) := by nlinarith [Real.cosh_pos (L.val x : ℝ), Real.cosh_sq (L.val x : ℝ), sq_nonneg (Real.sinh (L.val x : ℝ))]
  have hCu : Real.cosh (L.val x) ≤ 6 * 10 ^ 21 := by
    rw [Real.cosh_eq]
    have := exp_le_50 (X := L.val x) hxs.2
    have := exp_le_50 (X := -(L.val x : ℝ)) (by linarith [hxs.1])
    linarith
  have hS := Real.cosh_sq (L.val x : ℝ)
  have hT := Real.tanh_eq_sinh_div_cosh (L.val x : ℝ)
  rw [hT]
  generalize Real.sinh (L.val x) = S at *
  generalize Real.cosh (L.val x) = C at *
  have hC0 : 0 < C := by linarith
  have hSC : |S| ≤ C := abs_le_of_sq_le_sq (by linarith) (by linarith)
  have hk : 3 / 10 ^ 16 + 1 / 10 ^ 24 * C ^ 2 ≤ 1 / 100 * C := by nlinarith
  have ncs := abs_le.mp nc
  have hcp : 99 / 100 * C ≤ L.val c := by linarith [ncs.1]
  have hc0 : (0 : ℝ) < L.val c := by linarith
  have hq : |(L.val s : ℝ) / L.val c - S / C| ≤ 62 / 10 ^ 17 + 25 / 10 ^ 25 * C := by
    have e : (L.val s : ℝ) / L.val c - S / C = ((L.val s - S) * C - S * (L.val c - C)) / (L.val c * C) := by field_simp; ring
    rw [e, abs_div, abs_of_pos (show (0 : ℝ) < L.val c * C by positivity), div_le_iff₀ (by positivity)]
    have h1 : |((L.val s : ℝ) - S) * C - S * (L.val c - C)| ≤ 2 * (3 / 10 ^ 16 + 1 / 10 ^ 24 * C ^ 2) * C := by
      refine (abs_sub _ _).trans ?_
      rw [abs_mul, abs_mul, abs_of_pos hC0]
      have h2 := mul_le_mul_of_nonneg_right ns hC0.le
      have h3 := mul_le_mul hSC nc (abs_nonneg _) hC0.le
      linarith
    refine h1.trans ?_
    rw [← mul_assoc]
    refine mul_le_mul_of_nonneg_right ?_ hC0.le
    have h4 : (62 / 10 ^ 17 + 25 / 10 ^ 25 * C) * (99 / 100 * C) ≤ (62 / 10 ^ 17 + 25 / 10 ^ 25 * C) * L.val c :=
      mul_le_mul_of_nonneg_left hcp (by positivity)
    refine le_trans ?_ h4
    nlinarith
  have hb : |S / C| ≤ 1 := by
    rw [abs_div, abs_of_pos hC0]
    exact (div_le_one hC0).mpr hSC
  have hqs := abs_le.mp hq
  have hbs := abs_le.mp hb
  obtain ⟨t, et, nt⟩ := L.cdiv_real (x := s) (y := c) (a := 2) hc0.ne' (by norm_num) (by
    push_cast; rw [abs_le]; constructor <;> linarith [hqs.1, hqs.2, hbs.1, hbs.2]) (by norm_num)
  push_cast at nt
  have nts := abs_le.mp nt
  refine ⟨s, c, t, hs, hc, ?_, ns, nc, ?_⟩
  · simp only [Dec.tanh, Res.bind_eq, hs, hc, Res.bind_ok]
    exact unwrap_ok et
  · rw [abs_le]
    constructor <;> linarith [hqs.1, hqs.2, nts.1, nts.2]

theorem powd_wide (hfuel : 100 ≤ d.fuel) {x y : D} (hx : 1 / 10 ≤ L.val x) (hy : ∀ n : ℤ, L.val y ≠ n) (hy10 : |L.val y| ≤ 10 ^ 10)
    (hr0 : -99 ≤ (L.val y : ℝ) * Real.log (L.val x)) (hr1 : (L.val y : ℝ) * Real.log (L.val x) ≤ 49) :
    ∃ z, d.powd x y = .ok z ∧ |(L.val z : ℝ) - (L.val x : ℝ) ^ (L.val y : ℝ)| ≤ 1 / 10 ^ 15 * (1 + |(L.val y : ℝ)|) * (1 + (L.val x : ℝ) ^ (L.val y : ℝ)) +
        3 / 10 ^ 25 * ((L.val x : ℝ) ^ (L.val y : ℝ)) ^ 2 := by
  have hxp : (0 : ℝ) < L.val x := by
    have : 0 < L.val x := by linarith
    exact_mod_cast this
  have hP : (L.val x : ℝ) ^ (L.val y : ℝ) = Real.exp (L.val y * Real.log (L.val x)) := by
    rw [Real.rpow_def_of_pos hxp, mul_comm]
  have hYR : |(L.val y : ℝ)| ≤ 10 ^ 10 := by
    have := (Rat.cast_le (K := ℝ)).mpr hy10
    push_cast at this
    exact this
  rw [hP]
  have ni : ¬ d.isInteger y = true := by
    unfold Dec.isInteger
    rw [L.isZero, L.fract]
    rintro ⟨n, hn⟩
    exact hy n hn
  have nz : ¬ d.isZero x = true := by rw [L.isZero]; linarith
  have hY0 := abs_nonneg (L.val y : ℝ)
  have hE := Real.exp_pos (L.val y * Real.log (L.val x) : ℝ)
  unfold Dec.powd
  rw [if_neg ni, if_neg nz]
  by_cases h1 : d.isOne x = true
  · rw [if_pos h1]
    rw [L.isOne] at h1
    refine ⟨x, rfl, ?_⟩
    rw [h1]
    simp only [Rat.cast_one, Real.log_one, mul_zero, Real.exp_zero, sub_self, abs_zero]
    positivity
  rw [if_neg h1]
  -- what remains once the exponent is known
  have fin : ∀ (b : D), |(L.val b : ℝ) - L.val y * Real.log (L.val x)| ≤ 3 / 10 ^ 16 * (1 + |(L.val y : ℝ)|) →
      ∃ z, d.exp b = .ok z ∧ |(L.val z : ℝ) - Real.exp (L.val y * Real.log (L.val x))| ≤
        1 / 10 ^ 15 * (1 + |(L.val y : ℝ)|) * (1 + Real.exp (L.val y * Real.log (L.val x))) +
          3 / 10 ^ 25 * Real.exp (L.val y * Real.log (L.val x)) ^ 2 := by
    intro b nb
    have nbs := abs_le.mp nb
    have hb0 : -100 ≤ L.val b := by
      have : ((-100 : Rat) : ℝ) ≤ L.val b := by push_cast; linarith [nbs.1]
      exact (Rat.cast_le (K := ℝ)).mp this
    have hb1 : L.val b ≤ 50 := by
      have : (L.val b : ℝ) ≤ ((50 : Rat) : ℝ) := by push_cast; linarith [nbs.2]
      exact (Rat.cast_le (K := ℝ)).mp this
    obtain ⟨z, ez, nzz⟩ := L.exp_wide hb0 hb1
    have hcl := exp_close (a := L.val b) (b := L.val y * Real.log (L.val x)) (nb.trans (by linarith))
    refine ⟨z, ez, ?_⟩
    have hcl' : |Real.exp (L.val b) - Real.exp (L.val y * Real.log (L.val x))| ≤ 6 / 10 ^ 16 * (1 + |(L.val y : ℝ)|) * Real.exp (L.val y * Real.log (L.val x)) := by
      refine hcl.trans ?_
      exact mul_le_mul_of_nonneg_right (by linarith) hE.le
    generalize Real.exp (L.val y * Real.log (L.val x)) = P at *
    have hQ := Real.exp_pos (L.val b : ℝ)
    generalize Real.exp (L.val b) = Q at *
    generalize |(L.val y : ℝ)| = Y at *
    have hclS := abs_le.mp hcl'
    have nzS := abs_le.mp nzz
    have hQ0 : 0 ≤ Q := hQ.le
    have hs : Q ≤ P * (101 / 100) := by nlinarith [hclS.2]
    have hs2 : Q * Q ≤ (P * (101 / 100)) * (P * (101 / 100)) := mul_le_mul hs hs hQ0 (by positivity)
    have key : 2 / 10 ^ 16 + 2 / 10 ^ 25 * Q * (1 + Q) + 6 / 10 ^ 16 * (1 + Y) * P ≤ 1 / 10 ^ 15 * (1 + Y) * (1 + P) + 3 / 10 ^ 25 * P ^ 2 := by
      nlinarith [mul_nonneg hY0 hE.le]
    rw [abs_le]
    constructor <;> linarith [nzS.1, nzS.2, hclS.1, hclS.2]
  by_cases hxe : d.eq x d.e = true
  · rw [if_pos hxe]
    rw [L.eq] at hxe
    refine fin y ?_
    have he : L.val d.e = 27182818284590452353602874714 / 10 ^ 28 := by
      have := L.e
      rw [eq_div_iff (by norm_num)]
      push_cast at this
      exact this
    have hlog : |1 - Real.log (L.val x : ℝ)| ≤ 1 / 10 ^ 18 := by
      have hn := abs_le.mp Real.exp_one_near_20
      have hxv : (L.val x : ℝ) = 27182818284590452353602874714 / 10 ^ 28 := by rw [hxe, he]; push_cast; rfl
      have e0 := Real.exp_pos 1
      have l1 := Real.log_le_sub_one_of_pos (div_pos hxp e0)
      have l2 := Real.log_le_sub_one_of_pos (div_pos e0 hxp)
      rw [Real.log_div hxp.ne' e0.ne', Real.log_exp] at l1
      rw [Real.log_div e0.ne' hxp.ne', Real.log_exp] at l2
      have q1 : (L.val x : ℝ) / Real.exp 1 - 1 ≤ 1 / 10 ^ 18 := by
        rw [sub_le_iff_le_add, div_le_iff₀ e0, hxv]
        linarith [hn.1, hn.2]
      have q2 : Real.exp 1 / (L.val x : ℝ) - 1 ≤ 1 / 10 ^ 18 := by
        rw [sub_le_iff_le_add, div_le_iff₀ hxp, hxv]
        linarith [hn.1, hn.2]
      rw [abs_le]
      constructor <;> linarith
    have e : (L.val y : ℝ) - L.val y * Real.log (L.val x) = L.val y * (1 - Real.log (L.val x)) := by ring
    rw [e, abs_mul]
    have := mul_le_mul_of_nonneg_left hlog hY0
    linarith
  rw [if_neg hxe]
  obtain ⟨l, el, nl⟩ := L.ln_near hfuel hx
  have nls := abs_le.mp nl
  have hprod : |(L.val l : ℝ) * L.val y - L.val y * Real.log (L.val x)| ≤ 2 / 10 ^ 16 * |(L.val y : ℝ)| := by
    have e : (L.val l : ℝ) * L.val y - L.val y * Real.log (L.val x) = (L.val l - Real.log (L.val x)) * L.val y := by ring
    rw [e, abs_mul]
    exact mul_le_mul_of_nonneg_right nl hY0
  have hps := abs_le.mp hprod
  obtain ⟨b, eb, nb, -⟩ := L.cmul_real (x := l) (y := y) (a := 100) (by norm_num) (by
    push_cast; rw [abs_le]; constructor <;> linarith [hps.1, hps.2]) (by norm_num)
  push_cast at nb
  have nbs := abs_le.mp nb
  obtain ⟨z, ez, h⟩ := fin b (by rw [abs_le]; constructor <;> linarith [hps.1, hps.2, nbs.1, nbs.2])
  refine ⟨z, ?_, h⟩
  simp only [Res.bind_eq, el, eb, ez, Res.bind_ok]

end Dec.Laws
end Prexel
