import Verif.Lemmas.DecimalExp
/-!
# The exponential function far from zero

Bounds for what the loop of the exponential function computes for `-10000`, by interval arithmetic.
-/

namespace Prexel
variable {D F : Type} {d : Dec D F}

/-- Bounds for what `k` rounds of the loop compute from a number between `lo` and `hi`, and whether all numbers stay between 100 and 10^6. -/
def farLoop : Nat → Rat → Rat → Bool × Rat × Rat
  | 0, lo, hi => (100 ≤ lo && hi ≤ 10 ^ 6, lo, hi)
  | k + 1, lo, hi =>
    let r := farLoop k (4 * (k + 1) + 2 + 10 ^ 8 / hi - 1 / 10 ^ 20) (4 * (k + 1) + 2 + 10 ^ 8 / lo + 1 / 10 ^ 20)
    (100 ≤ lo && hi ≤ 10 ^ 6 && r.1, r.2)

theorem farLoop_val : (farLoop 99 402 402).1 = true ∧ 12900 ≤ (farLoop 99 402 402).2.1 ∧ (farLoop 99 402 402).2.2 ≤ 13000 := by
  decide +kernel

namespace Dec.Laws
variable (L : d.Laws)
include L

theorem expLoop_far {a0 : D} (ha : L.val a0 = 10 ^ 8) : ∀ (k : Nat) (r : D) (lo hi : Rat), k < 100 → lo ≤ L.val r → L.val r ≤ hi →
    (farLoop k lo hi).1 = true →
    ∃ z, d.expLoop a0 k (4 * k + 2) r = .ok z ∧ (farLoop k lo hi).2.1 ≤ L.val z ∧ L.val z ≤ (farLoop k lo hi).2.2 := by
  intro k
  induction k with
  | zero => exact fun r lo hi _ h1 h2 _ => ⟨r, rfl, h1, h2⟩
  | succ k ih =>
    intro r lo hi hk h1 h2 hok
    simp only [farLoop, Bool.and_eq_true, decide_eq_true_eq] at hok ⊢
    obtain ⟨⟨hlo, hhi⟩, hok⟩ := hok
    have hlo0 : 0 < lo := by linarith
    have hr0 : 0 < L.val r := by linarith
    have u : unit = 2 / 10 ^ 28 := rfl
    have q1 : 10 ^ 8 / hi ≤ 10 ^ 8 / L.val r := div_le_div_of_nonneg_left (by norm_num) hr0 h2
    have q2 : 10 ^ 8 / L.val r ≤ 10 ^ 8 / lo := div_le_div_of_nonneg_left (by norm_num) hlo0 h1
    have q3 : 10 ^ 8 / lo ≤ 10 ^ 6 := by rw [div_le_iff₀ hlo0]; linarith
    have q4 : 0 ≤ 10 ^ 8 / hi := by
      have : 0 < hi := by linarith
      positivity
    obtain ⟨q, eq, nq, -⟩ := L.cdiv_near (x := a0) (y := r) (a := 10 ^ 6) hr0.ne' (by norm_num) (by
      rw [ha, abs_of_nonneg (by linarith)]; linarith) (by norm_num)
    rw [ha, u] at nq
    have nqs := abs_le.mp nq
    have v : L.val (d.nat (4 * (k + 1) + 2)) = 4 * (k + 1) + 2 := by
      rw [L.nat_val (lt_of_le_of_lt (show 4 * (k + 1) + 2 ≤ 500 by omega) (by decide))]
      push_cast
      ring
    have hk' : (k : Rat) ≤ 99 := by exact_mod_cast (show k ≤ 99 by omega)
    have hk0 : (0 : Rat) ≤ k := by positivity
    obtain ⟨z, ez, nz, -⟩ := L.cadd_near (x := d.nat (4 * (k + 1) + 2)) (y := q) (a := 10 ^ 7) (by norm_num) (by
      rw [v, abs_le]; constructor <;> linarith [nqs.1, nqs.2]) (by norm_num)
    rw [v, u] at nz
    have nzs := abs_le.mp nz
    obtain ⟨w, ew, w1, w2⟩ := ih z (4 * (k + 1) + 2 + 10 ^ 8 / hi - 1 / 10 ^ 20) (4 * (k + 1) + 2 + 10 ^ 8 / lo + 1 / 10 ^ 20) (by omega)
      (by linarith [nqs.1, nqs.2, nzs.1, nzs.2]) (by linarith [nqs.1, nqs.2, nzs.1, nzs.2]) hok
    refine ⟨w, ?_, w1, w2⟩
    rw [← ew]
    simp only [Dec.expLoop, Res.bind_eq, eq, ez, Res.bind_ok]
    rfl

/-- The exponential of -10000 is below -1/10. -/
theorem exp_far {x : D} (hx : L.val x = -10000) : ∃ z, d.exp x = .ok z ∧ L.val z ≤ - (1 / 10) := by
  have v1 : L.val d.one = 1 := L.nat_val (n := 1) (by decide)
  have v2 : L.val d.two = 2 := L.nat_val (n := 2) (by decide)
  have u : unit = 2 / 10 ^ 28 := rfl
  obtain ⟨a0, ea, -, ra⟩ := L.cmul_near (x := x) (y := x) (a := 10 ^ 8) (by norm_num) (by rw [hx]; norm_num) (by norm_num)
  have va : L.val a0 = 10 ^ 8 := by
    rw [hx] at ra
    have := ra.eq (by
      have : (-10000 * -10000 : Rat) = ((100000000 : Nat) : Rat) := by norm_num
      rw [this]
      exact representable_nat (by decide))
    rw [this]; norm_num
  obtain ⟨f1, f2, f3⟩ := farLoop_val
  have v402 : L.val (d.nat 402) = 402 := L.nat_val (n := 402) (by decide)
  obtain ⟨w, ew, w1, w2⟩ := L.expLoop_far va 99 (d.nat 402) 402 402 (by omega) v402.ge v402.le f1
  have w1 := f2.trans w1
  have w2 := w2.trans f3
  have hw0 : 0 < L.val w := by linarith
  have q1 : 7692 ≤ 10 ^ 8 / L.val w := by rw [le_div_iff₀ hw0]; linarith
  have q2 : 10 ^ 8 / L.val w ≤ 7752 := by rw [div_le_iff₀ hw0]; linarith
  obtain ⟨q, eq, nq, -⟩ := L.cdiv_near (x := a0) (y := w) (a := 8000) hw0.ne' (by norm_num) (by
    rw [va, abs_of_nonneg (by linarith)]; linarith) (by norm_num)
  rw [va, u] at nq
  have nqs := abs_le.mp nq
  obtain ⟨s, es, ns, -⟩ := L.csub_near (x := d.two) (y := x) (a := 20000) (by norm_num) (by rw [v2, hx]; norm_num) (by norm_num)
  rw [v2, hx, u] at ns
  have nss := abs_le.mp ns
  obtain ⟨V, eV, nV, -⟩ := L.cadd_near (x := s) (y := q) (a := 20000) (by norm_num) (by
    rw [abs_le]; constructor <;> linarith [nqs.1, nqs.2, nss.1, nss.2]) (by norm_num)
  rw [u] at nV
  have nVs := abs_le.mp nV
  have V1 : 17690 ≤ L.val V := by linarith [nqs.1, nqs.2, nss.1, nss.2, nVs.1, nVs.2]
  have V2 : L.val V ≤ 17760 := by linarith [nqs.1, nqs.2, nss.1, nss.2, nVs.1, nVs.2]
  have hV0 : 0 < L.val V := by linarith
  obtain ⟨t, et, nt, -⟩ := L.cmul_near (x := d.two) (y := x) (a := 20000) (by norm_num) (by rw [v2, hx]; norm_num) (by norm_num)
  rw [v2, hx, u] at nt
  have nts := abs_le.mp nt
  have p1 : -2 ≤ L.val t / L.val V := by rw [le_div_iff₀ hV0]; linarith [nts.1]
  have p2 : L.val t / L.val V ≤ -112 / 100 := by rw [div_le_iff₀ hV0]; linarith [nts.2]
  obtain ⟨p, ep, np, -⟩ := L.cdiv_near (x := t) (y := V) (a := 2) hV0.ne' (by norm_num) (by
    rw [abs_le]; constructor <;> linarith) (by norm_num)
  rw [u] at np
  have nps := abs_le.mp np
  obtain ⟨y, ey, ny, -⟩ := L.cadd_near (x := d.one) (y := p) (a := 2) (by norm_num) (by
    rw [v1, abs_le]; constructor <;> linarith [nps.1, nps.2]) (by norm_num)
  rw [v1, u] at ny
  have nys := abs_le.mp ny
  obtain ⟨z, ez, nz, -⟩ := L.approx_near y
  have nzs := abs_le.mp nz
  refine ⟨z, ?_, by linarith [nps.2, nys.2, nzs.2]⟩
  have c0 : ¬ d.isZero x = true := by rw [L.isZero, hx]; norm_num
  have c1 : ¬ d.isOne x = true := by rw [L.isOne, hx]; norm_num
  have ew' : d.expLoop a0 (Dec.iterations - 1) (4 * Dec.iterations - 2) (d.nat (4 * Dec.iterations + 2)) = .ok w := ew
  unfold Dec.exp
  rw [if_neg c0, if_neg c1]
  simp only [Res.bind_eq, ea, ew', es, eq, eV, et, ep, ey, ez, Res.bind_ok]

end Dec.Laws
end Prexel
