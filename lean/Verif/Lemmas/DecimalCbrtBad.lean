import Verif.Lemmas.DecimalCbrt
/-!
# Where the cube root of decimals goes wrong
-/

set_option linter.unusedVariables false

namespace Prexel
variable {D F : Type} {d : Dec D F}

namespace Dec.Laws
variable (L : d.Laws)
include L

/-- From 10^15 on the square of the second iterate is too large. -/
theorem cbrt_large {v : D} (h1 : 10 ^ 15 ≤ L.val v) (h2 : L.val v ≤ 10 ^ 28) : d.cbrt v = .err .overflow := by
  have u : unit = 2 / 10 ^ 28 := rfl
  have ho : ¬ d.isOne v := by
    intro h
    have := (L.isOne v).mp h
    rw [this] at h1; norm_num at h1
  have r1 : Representable (1 : Rat) := by decide +kernel
  obtain ⟨xx, e1, -, k1⟩ := L.cmul_near (x := d.one) (y := d.one) (a := 1) le_rfl (by rw [L.one_val]; norm_num) (by norm_num)
  rw [L.one_val, one_mul] at k1
  have k1 := k1.eq r1
  obtain ⟨x2, e2, -, k2⟩ := L.cmul_near (x := d.two) (y := d.one) (a := 2) (by norm_num) (by rw [L.one_val, L.two_val]; norm_num) (by norm_num)
  rw [L.one_val, L.two_val, mul_one] at k2
  have k2 := k2.eq (by decide +kernel)
  obtain ⟨q, e3, -, k3⟩ := L.cdiv_near (x := v) (y := xx) (a := 10 ^ 28) (by rw [k1]; norm_num) (by norm_num)
    (by rw [k1, div_one, abs_of_nonneg (by linarith)]; exact h2) (by norm_num)
  rw [k1, div_one] at k3
  have k3 := k3.eq (L.range v)
  obtain ⟨s, e4, n4, -⟩ := L.cadd_near (x := q) (y := x2) (a := 1 + L.val v + 2) (by linarith)
    (by rw [k2, k3, abs_of_nonneg (by linarith)]; linarith) (by linarith)
  rw [k2, k3, abs_le, u] at n4
  obtain ⟨t1, t0⟩ := L.third_val
  rw [abs_le, u] at t1
  have m1 : L.val s / 4 ≤ L.val s * L.val d.third := by nlinarith
  have m2 : L.val s * L.val d.third ≤ L.val s := by nlinarith
  have m3 : L.val s * (1 / 3 - 1 / 10 ^ 20) ≤ L.val s * L.val d.third := mul_le_mul_of_nonneg_left (by linarith) (by linarith)
  obtain ⟨z, e5, n5, -⟩ := L.cmul_near (x := s) (y := d.third) (a := 1 + L.val s) (by linarith)
    (by rw [abs_of_nonneg (by linarith)]; linarith) (by linarith)
  rw [abs_le, u] at n5
  have hz : 3 * 10 ^ 14 ≤ L.val z := by linarith
  have e6 : d.cmul z z = .err .overflow := by
    have : d.checkedMul z z = none := L.mulOver z z (.inr (by push_cast; nlinarith))
    simp [Dec.cmul, this, Ops.orOverflow, Res.ofOption]
  unfold Dec.cbrt
  obtain ⟨k, hk⟩ : ∃ k, iterations = k + 1 + 1 := ⟨98, rfl⟩
  rw [if_neg ho, hk]
  simp only [Dec.cbrtLoop, e1, Res.bind_eq, Res.bind_ok, e2, e3, e4, e5, e6]
  rfl

theorem cbrtLoop_zero {v : D} (hv : L.val v = 0) (k : Nat) : ∀ (j : Nat) (x : D), j + k ≤ 100 → (6 / 10) ^ j ≤ L.val x → L.val x ≤ 1 →
    d.cbrtLoop v k x = .err .overflow ∨ ∃ z, d.cbrtLoop v k x = .ok z ∧ (6 / 10) ^ (j + k) ≤ L.val z := by
  have u : unit = 2 / 10 ^ 28 := rfl
  induction k with
  | zero => intro j x hj h1 h2; exact .inr ⟨x, rfl, h1⟩
  | succ k ih =>
    intro j x hj h1 h2
    have hp : (6 / 10 : Rat) ^ 100 ≤ (6 / 10) ^ j := pow_le_pow_of_le_one (by norm_num) (by norm_num) (by omega)
    have hp2 : (1 : Rat) / 10 ^ 23 ≤ (6 / 10) ^ 100 := by norm_num
    obtain ⟨xx, e1, n1, -⟩ := L.cmul_near (x := x) (y := x) (a := 1) le_rfl (by rw [abs_le]; constructor <;> nlinarith) (by norm_num)
    obtain ⟨x2, e2, n2, -⟩ := L.cmul_near (x := d.two) (y := x) (a := 2) (by norm_num) (by rw [L.two_val, abs_of_nonneg (by linarith)]; linarith) (by norm_num)
    rw [L.two_val, abs_le, u] at n2
    by_cases h0 : L.val xx = 0
    · left
      have e3 : d.cdiv v xx = .err .overflow := by
        simp [Dec.cdiv, L.divZero v xx h0, Ops.orOverflow, Res.ofOption]
      simp only [Dec.cbrtLoop, e1, Res.bind_eq, Res.bind_ok, e2, e3]
      rfl
    · obtain ⟨q, e3, -, k3⟩ := L.cdiv_near (x := v) (y := xx) (a := 1) h0 le_rfl (by rw [hv]; norm_num) (by norm_num)
      rw [hv, zero_div] at k3
      have k3 := k3.eq (by decide +kernel)
      obtain ⟨s, e4, -, k4⟩ := L.cadd_near (x := q) (y := x2) (a := 3) (by norm_num) (by rw [k3, abs_le]; constructor <;> linarith) (by norm_num)
      rw [k3, zero_add] at k4
      have k4 := k4.eq (L.range x2)
      obtain ⟨t1, t0⟩ := L.third_val
      rw [abs_le, u] at t1
      have m2 : L.val x2 * L.val d.third ≤ L.val x2 * (1 / 3 + 1 / 10 ^ 27) := mul_le_mul_of_nonneg_left (by linarith) (by linarith)
      have m3 : L.val x2 * (1 / 3 - 1 / 10 ^ 27) ≤ L.val x2 * L.val d.third := mul_le_mul_of_nonneg_left (by linarith) (by linarith)
      obtain ⟨z, e5, n5, -⟩ := L.cmul_near (x := s) (y := d.third) (a := 1) le_rfl
        (by rw [k4, abs_le]; constructor <;> linarith) (by norm_num)
      rw [k4, abs_le, u] at n5
      have := ih (j + 1) z (by omega) (by rw [pow_succ]; linarith) (by linarith)
      simp only [Dec.cbrtLoop, e1, Res.bind_eq, Res.bind_ok, e2, e3, e4, e5]
      rw [show j + (k + 1) = j + 1 + k by omega]
      exact this

/-- The cube root of zero is never zero. -/
theorem cbrt_zero {v : D} (hv : L.val v = 0) : d.cbrt v = .err .overflow ∨ ∃ z, d.cbrt v = .ok z ∧ 0 < L.val z := by
  have ho : ¬ d.isOne v := by
    intro h
    have := (L.isOne v).mp h
    rw [this] at hv; norm_num at hv
  unfold Dec.cbrt
  rw [if_neg ho]
  rcases L.cbrtLoop_zero hv iterations 0 d.one (by decide) (by rw [L.one_val]; norm_num) (by rw [L.one_val]) with h | ⟨z, h, hz⟩
  · exact .inl h
  · exact .inr ⟨z, h, lt_of_lt_of_le (by positivity) hz⟩

end Dec.Laws
end Prexel
