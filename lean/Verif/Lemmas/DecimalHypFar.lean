import Verif.Lemmas.DecimalExpFar
import Verif.Lemmas.DecimalHyp
/-!
# Hyperbolic functions far from zero
-/

namespace Prexel
variable {D F : Type} {d : Dec D F}

namespace Dec.Laws
variable (L : d.Laws)
include L

/-- What `exp(-10000)` gives, between two bounds. -/
theorem exp_far_minus {x : D} (hx : L.val x = -10000) : ∃ z, d.exp x = .ok z ∧ -14 / 100 ≤ L.val z ∧ L.val z ≤ -12 / 100 := by
  have v1 : L.val d.one = 1 := L.nat_val (n := 1) (by decide)
  have v2 : L.val d.two = 2 := L.nat_val (n := 2) (by decide)
  have u : unit = 2 / 10 ^ 28 := rfl
  obtain ⟨a0, ea, -, ra⟩ := L.cmul_near (x := x) (y := x) (a := 10 ^ 8) (by norm_num) (by rw [hx]; norm_num) (by norm_num)
  have va : L.val a0 = 10 ^ 8 := by
    rw [hx] at ra
    have := ra.eq (by
      have : (-10000 * -10000 : Rat) = ((100000000 : Nat) : Rat) := by norm_num
      rw [this]
      exact representable_nat (by decide))
    rw [this]; norm_num
  obtain ⟨f1, f2, f3⟩ := farLoop_val
  have v402 : L.val (d.nat 402) = 402 := L.nat_val (n := 402) (by decide)
  obtain ⟨w, ew, w1, w2⟩ := L.expLoop_far va 99 (d.nat 402) 402 402 (by omega) v402.ge v402.le f1
  have w1 := f2.trans w1
  have w2 := w2.trans f3
  have hw0 : 0 < L.val w := by linarith
  have q1 : 7692 ≤ 10 ^ 8 / L.val w := by rw [le_div_iff₀ hw0]; linarith
  have q2 : 10 ^ 8 / L.val w ≤ 7752 := by rw [div_le_iff₀ hw0]; linarith
  obtain ⟨q, eq, nq, -⟩ := L.cdiv_near (x := a0) (y := w) (a := 8000) hw0.ne' (by norm_num) (by
    rw [va, abs_of_nonneg (by linarith)]; linarith) (by norm_num)
  rw [va, u] at nq
  have nqs := abs_le.mp nq
  obtain ⟨s, es, ns, -⟩ := L.csub_near (x := d.two) (y := x) (a := 20000) (by norm_num) (by rw [v2, hx]; norm_num) (by norm_num)
  rw [v2, hx, u] at ns
  have nss := abs_le.mp ns
  obtain ⟨V, eV, nV, -⟩ := L.cadd_near (x := s) (y := q) (a := 20000) (by norm_num) (by
    rw [abs_le]; constructor <;> linarith [nqs.1, nqs.2, nss.1, nss.2]) (by norm_num)
  rw [u] at nV
  have nVs := abs_le.mp nV
  have V1 : 17690 ≤ L.val V := by linarith [nqs.1, nqs.2, nss.1, nss.2, nVs.1, nVs.2]
  have V2 : L.val V ≤ 17760 := by linarith [nqs.1, nqs.2, nss.1, nss.2, nVs.1, nVs.2]
  have hV0 : 0 < L.val V := by linarith
  obtain ⟨t, et, nt, -⟩ := L.cmul_near (x := d.two) (y := x) (a := 20000) (by norm_num) (by rw [v2, hx]; norm_num) (by norm_num)
  rw [v2, hx, u] at nt
  have nts := abs_le.mp nt
  have p1 : -1135 / 1000 ≤ L.val t / L.val V := by rw [le_div_iff₀ hV0]; linarith [nts.1]
  have p2 : L.val t / L.val V ≤ -1125 / 1000 := by rw [div_le_iff₀ hV0]; linarith [nts.2]
  obtain ⟨p, ep, np, -⟩ := L.cdiv_near (x := t) (y := V) (a := 2) hV0.ne' (by norm_num) (by
    rw [abs_le]; constructor <;> linarith) (by norm_num)
  rw [u] at np
  have nps := abs_le.mp np
  obtain ⟨y, ey, ny, -⟩ := L.cadd_near (x := d.one) (y := p) (a := 2) (by norm_num) (by
    rw [v1, abs_le]; constructor <;> linarith [nps.1, nps.2]) (by norm_num)
  rw [v1, u] at ny
  have nys := abs_le.mp ny
  obtain ⟨z, ez, nz, -⟩ := L.approx_near y
  have nzs := abs_le.mp nz
  refine ⟨z, ?_, by linarith [nps.1, nys.1, nzs.1], by linarith [nps.2, nys.2, nzs.2]⟩
  have c0 : ¬ d.isZero x = true := by rw [L.isZero, hx]; norm_num
  have c1 : ¬ d.isOne x = true := by rw [L.isOne, hx]; norm_num
  have ew' : d.expLoop a0 (Dec.iterations - 1) (4 * Dec.iterations - 2) (d.nat (4 * Dec.iterations + 2)) = .ok w := ew
  unfold Dec.exp
  rw [if_neg c0, if_neg c1]
  simp only [Res.bind_eq, ea, ew', es, eq, eV, et, ep, ey, ez, Res.bind_ok]

/-- What `exp(10000)` gives: a number between -8 and -7.6. -/
theorem exp_far_plus {x : D} (hx : L.val x = 10000) : ∃ z, d.exp x = .ok z ∧ -8 ≤ L.val z ∧ L.val z ≤ -76 / 10 := by
  have v1 : L.val d.one = 1 := L.nat_val (n := 1) (by decide)
  have v2 : L.val d.two = 2 := L.nat_val (n := 2) (by decide)
  have u : unit = 2 / 10 ^ 28 := rfl
  obtain ⟨a0, ea, -, ra⟩ := L.cmul_near (x := x) (y := x) (a := 10 ^ 8) (by norm_num) (by rw [hx]; norm_num) (by norm_num)
  have va : L.val a0 = 10 ^ 8 := by
    rw [hx] at ra
    have := ra.eq (by
      have : (10000 * 10000 : Rat) = ((100000000 : Nat) : Rat) := by norm_num
      rw [this]
      exact representable_nat (by decide))
    rw [this]; norm_num
  obtain ⟨f1, f2, f3⟩ := farLoop_val
  have v402 : L.val (d.nat 402) = 402 := L.nat_val (n := 402) (by decide)
  obtain ⟨w, ew, w1, w2⟩ := L.expLoop_far va 99 (d.nat 402) 402 402 (by omega) v402.ge v402.le f1
  have w1 := f2.trans w1
  have w2 := w2.trans f3
  have hw0 : 0 < L.val w := by linarith
  have q1 : 7692 ≤ 10 ^ 8 / L.val w := by rw [le_div_iff₀ hw0]; linarith
  have q2 : 10 ^ 8 / L.val w ≤ 7752 := by rw [div_le_iff₀ hw0]; linarith
  obtain ⟨q, eq, nq, -⟩ := L.cdiv_near (x := a0) (y := w) (a := 8000) hw0.ne' (by norm_num) (by
    rw [va, abs_of_nonneg (by linarith)]; linarith) (by norm_num)
  rw [va, u] at nq
  have nqs := abs_le.mp nq
  obtain ⟨s, es, ns, -⟩ := L.csub_near (x := d.two) (y := x) (a := 20000) (by norm_num) (by rw [v2, hx]; norm_num) (by norm_num)
  rw [v2, hx, u] at ns
  have nss := abs_le.mp ns
  obtain ⟨V, eV, nV, -⟩ := L.cadd_near (x := s) (y := q) (a := 20000) (by norm_num) (by
    rw [abs_le]; constructor <;> linarith [nqs.1, nqs.2, nss.1, nss.2]) (by norm_num)
  rw [u] at nV
  have nVs := abs_le.mp nV
  have V1 : -2310 ≤ L.val V := by linarith [nqs.1, nqs.2, nss.1, nss.2, nVs.1, nVs.2]
  have V2 : L.val V ≤ -2240 := by linarith [nqs.1, nqs.2, nss.1, nss.2, nVs.1, nVs.2]
  have hV0 : L.val V < 0 := by linarith
  obtain ⟨t, et, nt, -⟩ := L.cmul_near (x := d.two) (y := x) (a := 20000) (by norm_num) (by rw [v2, hx]; norm_num) (by norm_num)
  rw [v2, hx, u] at nt
  have nts := abs_le.mp nt
  have p1 : -895 / 100 ≤ L.val t / L.val V := by rw [le_div_iff_of_neg hV0]; linarith [nts.1, nts.2]
  have p2 : L.val t / L.val V ≤ -865 / 100 := by rw [div_le_iff_of_neg hV0]; linarith [nts.1, nts.2]
  obtain ⟨p, ep, np, -⟩ := L.cdiv_near (x := t) (y := V) (a := 10) hV0.ne (by norm_num) (by
    rw [abs_le]; constructor <;> linarith) (by norm_num)
  rw [u] at np
  have nps := abs_le.mp np
  obtain ⟨y, ey, ny, -⟩ := L.cadd_near (x := d.one) (y := p) (a := 10) (by norm_num) (by
    rw [v1, abs_le]; constructor <;> linarith [nps.1, nps.2]) (by norm_num)
  rw [v1, u] at ny
  have nys := abs_le.mp ny
  obtain ⟨z, ez, nz, -⟩ := L.approx_near y
  have nzs := abs_le.mp nz
  refine ⟨z, ?_, by linarith [nps.1, nys.1, nzs.1], by linarith [nps.2, nys.2, nzs.2]⟩
  have c0 : ¬ d.isZero x = true := by rw [L.isZero, hx]; norm_num
  have c1 : ¬ d.isOne x = true := by rw [L.isOne, hx]; norm_num
  have ew' : d.expLoop a0 (Dec.iterations - 1) (4 * Dec.iterations - 2) (d.nat (4 * Dec.iterations + 2)) = .ok w := ew
  unfold Dec.exp
  rw [if_neg c0, if_neg c1]
  simp only [Res.bind_eq, ea, ew', es, eq, eV, et, ep, ey, ez, Res.bind_ok]

/-- What the hyperbolic functions give for 10000: numbers far from the truth. -/
theorem hyp_far {x : D} (hx : L.val x = 10000) : ∃ s c t, d.sinh x = .ok s ∧ d.cosh x = .ok c ∧ d.tanh x = .ok t ∧
    L.val s ≤ -3 ∧ L.val c ≤ -3 ∧ L.val t ≤ 98 / 100 := by
  obtain ⟨a, ea, a1, a2⟩ := L.exp_far_plus hx
  obtain ⟨b, eb, b1, b2⟩ := L.exp_far_minus (x := d.neg x) (by rw [L.neg, hx])
  have u : unit = 2 / 10 ^ 28 := rfl
  have v2 : L.val d.two = 2 := L.nat_val (n := 2) (by decide)
  obtain ⟨s, es, ns, -⟩ := L.csub_near (x := a) (y := b) (a := 10) (by norm_num) (by rw [abs_le]; constructor <;> linarith) (by norm_num)
  obtain ⟨c, ec, nc, -⟩ := L.cadd_near (x := a) (y := b) (a := 10) (by norm_num) (by rw [abs_le]; constructor <;> linarith) (by norm_num)
  rw [u] at ns nc
  have nss := abs_le.mp ns
  have ncs := abs_le.mp nc
  obtain ⟨s', es', ns', -⟩ := L.cdiv_near (x := s) (y := d.two) (a := 10) (by rw [v2]; norm_num) (by norm_num) (by
    rw [v2, abs_le]; constructor <;> linarith) (by norm_num)
  obtain ⟨c', ec', nc', -⟩ := L.cdiv_near (x := c) (y := d.two) (a := 10) (by rw [v2]; norm_num) (by norm_num) (by
    rw [v2, abs_le]; constructor <;> linarith) (by norm_num)
  rw [v2, u] at ns' nc'
  have nss' := abs_le.mp ns'
  have ncs' := abs_le.mp nc'
  have hc0 : L.val c' < 0 := by linarith
  have q1 : 0 ≤ L.val s' / L.val c' := div_nonneg_of_nonpos (by linarith) hc0.le
  have q2 : L.val s' / L.val c' ≤ 975 / 1000 := by rw [div_le_iff_of_neg hc0]; linarith
  obtain ⟨t, et, nt, -⟩ := L.cdiv_near (x := s') (y := c') (a := 2) hc0.ne (by norm_num) (by
    rw [abs_le]; constructor <;> linarith) (by norm_num)
  rw [u] at nt
  have nts := abs_le.mp nt
  have es1 : d.sub a b = .ok s := unwrap_ok es
  have es2 : d.div s d.two = .ok s' := unwrap_ok es'
  have ec1 : d.add a b = .ok c := unwrap_ok ec
  have ec2 : d.div c d.two = .ok c' := unwrap_ok ec'
  have hs : d.sinh x = .ok s' := by simp only [Dec.sinh, Res.bind_eq, ea, eb, es1, es2, Res.bind_ok]
  have hc : d.cosh x = .ok c' := by simp only [Dec.cosh, Res.bind_eq, ea, eb, ec1, ec2, Res.bind_ok]
  refine ⟨s', c', t, hs, hc, ?_, by linarith, by linarith, by linarith⟩
  simp only [Dec.tanh, Res.bind_eq, hs, hc, Res.bind_ok]
  exact unwrap_ok et

end Dec.Laws
end Prexel
