import Verif.Lemmas.DecimalSqrt
/-!
# The cube root of decimals
-/

set_option linter.unusedVariables false

namespace Prexel
variable {D F : Type} {d : Dec D F}

namespace Dec.Laws
variable (L : d.Laws)
include L

theorem third_val : |L.val d.third - 1 / 3| ≤ unit / 2 ∧ 0 < L.val d.third := by
  have h := L.third
  push_cast at h
  have : L.val d.third = 3333333333333333333333333333 / 10 ^ 28 := by rw [eq_div_iff (by norm_num)]; exact h
  rw [this, abs_le]
  unfold unit
  norm_num

theorem two_val : L.val d.two = 2 := by
  have := L.nat 2 (by norm_num)
  exact_mod_cast this

theorem one_val : L.val d.one = 1 := by
  have := L.nat 1 (by norm_num)
  exact_mod_cast this

/-- The operations up to a common sign `e`. -/
theorem cmul_signed {e : Rat} (he : e = 1 ∨ e = -1) {x y : D} {Y a : Rat} (hy : L.val y = e * Y) (h1 : 1 ≤ a) (ha : |L.val x * Y| ≤ a) (hm : a ≤ 79 * 10 ^ 27) :
    ∃ z, d.cmul x y = .ok z ∧ |e * L.val z - L.val x * Y| ≤ unit * a := by
  rcases he with rfl | rfl
  · rw [one_mul] at hy
    obtain ⟨z, e1, n, -⟩ := L.cmul_near (x := x) (y := y) h1 (by rw [hy]; exact ha) hm
    rw [hy] at n
    exact ⟨z, e1, by rw [one_mul]; exact n⟩
  · obtain ⟨z, e1, n, -⟩ := L.cmul_near (x := x) (y := y) h1 (by rw [hy, show L.val x * (-1 * Y) = -(L.val x * Y) by ring, abs_neg]; exact ha) hm
    refine ⟨z, e1, ?_⟩
    rw [hy, ← abs_neg] at n
    convert n using 2
    ring

theorem cmul_signed_left {e : Rat} (he : e = 1 ∨ e = -1) {x y : D} {X a : Rat} (hx : L.val x = e * X) (h1 : 1 ≤ a) (ha : |X * L.val y| ≤ a) (hm : a ≤ 79 * 10 ^ 27) :
    ∃ z, d.cmul x y = .ok z ∧ |e * L.val z - X * L.val y| ≤ unit * a := by
  rcases he with rfl | rfl
  · rw [one_mul] at hx
    obtain ⟨z, e1, n, -⟩ := L.cmul_near (x := x) (y := y) h1 (by rw [hx]; exact ha) hm
    rw [hx] at n
    exact ⟨z, e1, by rw [one_mul]; exact n⟩
  · obtain ⟨z, e1, n, -⟩ := L.cmul_near (x := x) (y := y) h1 (by rw [hx, show -1 * X * L.val y = -(X * L.val y) by ring, abs_neg]; exact ha) hm
    refine ⟨z, e1, ?_⟩
    rw [hx, ← abs_neg] at n
    convert n using 2
    ring

theorem cdiv_signed {e : Rat} (he : e = 1 ∨ e = -1) {x y : D} {X a : Rat} (hx : L.val x = e * X) (h0 : L.val y ≠ 0) (h1 : 1 ≤ a) (ha : |X / L.val y| ≤ a) (hm : a ≤ 79 * 10 ^ 27) :
    ∃ z, d.cdiv x y = .ok z ∧ |e * L.val z - X / L.val y| ≤ unit * a := by
  rcases he with rfl | rfl
  · rw [one_mul] at hx
    obtain ⟨z, e1, n, -⟩ := L.cdiv_near (x := x) (y := y) h0 h1 (by rw [hx]; exact ha) hm
    rw [hx] at n
    exact ⟨z, e1, by rw [one_mul]; exact n⟩
  · obtain ⟨z, e1, n, -⟩ := L.cdiv_near (x := x) (y := y) h0 h1 (by rw [hx, show -1 * X / L.val y = -(X / L.val y) by ring, abs_neg]; exact ha) hm
    refine ⟨z, e1, ?_⟩
    rw [hx, ← abs_neg] at n
    convert n using 2
    ring

theorem cadd_signed {e : Rat} (he : e = 1 ∨ e = -1) {x y : D} {X Y a : Rat} (hx : L.val x = e * X) (hy : L.val y = e * Y) (h1 : 1 ≤ a) (ha : |X + Y| ≤ a) (hm : a ≤ 79 * 10 ^ 27) :
    ∃ z, d.cadd x y = .ok z ∧ |e * L.val z - (X + Y)| ≤ unit * a := by
  rcases he with rfl | rfl
  · rw [one_mul] at hx hy
    obtain ⟨z, e1, n, -⟩ := L.cadd_near (x := x) (y := y) h1 (by rw [hx, hy]; exact ha) hm
    rw [hx, hy] at n
    exact ⟨z, e1, by rw [one_mul]; exact n⟩
  · obtain ⟨z, e1, n, -⟩ := L.cadd_near (x := x) (y := y) h1 (by rw [hx, hy, show -1 * X + -1 * Y = -(X + Y) by ring, abs_neg]; exact ha) hm
    refine ⟨z, e1, ?_⟩
    rw [hx, hy, ← abs_neg] at n
    convert n using 2
    ring

/-- One Newton step and its rounding error, for numbers of the sign `e`. -/
theorem cbrt_step {e : Rat} (he : e = 1 ∨ e = -1) {v x : D} {V y : Rat} (hV : L.val v = e * V) (hy : L.val x = e * y)
    (hv : 0 < V) (hv2 : V ≤ 8 * 10 ^ 14) (hx : 3 / 10 ≤ y) (hx2 : y ≤ 27 * 10 ^ 13) :
    ∃ xx x2 q s z, d.cmul x x = .ok xx ∧ d.cmul d.two x = .ok x2 ∧ d.cdiv v xx = .ok q ∧ d.cadd q x2 = .ok s ∧ d.cmul s d.third = .ok z ∧
      |e * L.val z - (V / y ^ 2 + 2 * y) / 3| ≤ 9 * unit * (1 + V / y ^ 2 + 2 * y) := by
  have ee : e * e = 1 := by rcases he with rfl | rfl <;> norm_num
  have u : unit = 2 / 10 ^ 28 := rfl
  have hyy : 0 < y ^ 2 := by positivity
  obtain ⟨q0, hq0⟩ : ∃ q0, V / y ^ 2 = q0 := ⟨_, rfl⟩
  have hq0y : q0 * y ^ 2 = V := by rw [← hq0]; exact div_mul_cancel₀ _ hyy.ne'
  have hq0p : 0 < q0 := by rw [← hq0]; positivity
  have hyq : 9 / 100 ≤ y ^ 2 := by nlinarith
  have hq0b : q0 ≤ 90 * 10 ^ 14 := by
    rw [← hq0, div_le_iff₀ hyy]; linarith
  have hyq2 : y ^ 2 ≤ 7.3 * 10 ^ 28 := by nlinarith
  have hxy : L.val x * L.val x = y ^ 2 := by rw [hy]; linear_combination y ^ 2 * ee
  obtain ⟨xx, e1, n1, -⟩ := L.cmul_near (x := x) (y := x) (a := 1 + y ^ 2) (by linarith)
    (by rw [hxy, abs_of_pos hyy]; linarith) (by linarith)
  rw [hxy, abs_le] at n1
  obtain ⟨x2, e2, n2⟩ := L.cmul_signed he (x := d.two) (y := x) (a := 1 + 2 * y) hy (by linarith)
    (by rw [L.two_val, abs_of_pos (by linarith)]; linarith) (by linarith)
  rw [L.two_val, abs_le] at n2
  have hxx1 : y ^ 2 * (1 - 13 * unit) ≤ L.val xx := by rw [u] at n1 ⊢; linarith [n1.1]
  have hxx2 : L.val xx ≤ y ^ 2 * (1 + 13 * unit) := by rw [u] at n1 ⊢; linarith [n1.2]
  have hxxp : 0 < L.val xx := by
    refine lt_of_lt_of_le ?_ hxx1
    rw [u]; nlinarith
  have hqq : |V / L.val xx - q0| ≤ 14 * unit * q0 := by
    have hd : V / L.val xx - q0 = q0 * (y ^ 2 - L.val xx) / L.val xx := by
      rw [eq_div_iff hxxp.ne', sub_mul, div_mul_cancel₀ _ hxxp.ne', ← hq0y]; ring
    rw [hd, abs_div, abs_mul, abs_of_pos hq0p, abs_of_pos hxxp, div_le_iff₀ hxxp]
    have h1 : |y ^ 2 - L.val xx| ≤ 13 * unit * y ^ 2 := by rw [abs_le]; constructor <;> linarith
    have h2 : 13 * unit * y ^ 2 ≤ 14 * unit * L.val xx := by
      rw [u] at hxx1 ⊢; linarith
    calc q0 * |y ^ 2 - L.val xx| ≤ q0 * (14 * unit * L.val xx) := mul_le_mul_of_nonneg_left (h1.trans h2) hq0p.le
      _ = 14 * unit * q0 * L.val xx := by ring
  rw [abs_le] at hqq
  have uq : unit * q0 ≤ q0 / 10 ^ 20 := by rw [u]; linarith
  obtain ⟨q, e3, n3⟩ := L.cdiv_signed he (x := v) (y := xx) (a := 1 + 2 * q0) hV hxxp.ne' (by linarith)
    (by rw [abs_of_pos (div_pos hv hxxp)]; linarith) (by linarith)
  rw [abs_le] at n3
  obtain ⟨Q, hQ⟩ : ∃ Q, e * L.val q = Q := ⟨_, rfl⟩
  obtain ⟨X2, hX2⟩ : ∃ X2, e * L.val x2 = X2 := ⟨_, rfl⟩
  rw [hQ] at n3
  rw [hX2] at n2
  have hs : |Q + X2 - (q0 + 2 * y)| ≤ 17 * unit * (1 + q0 + 2 * y) := by
    rw [abs_le]; constructor <;> rw [u] at * <;> linarith
  rw [abs_le] at hs
  obtain ⟨s, e4, n4⟩ := L.cadd_signed he (x := q) (y := x2) (X := Q) (Y := X2) (a := 2 * (1 + q0 + 2 * y))
    (by rw [← hQ]; linear_combination (-L.val q) * ee) (by rw [← hX2]; linear_combination (-L.val x2) * ee) (by linarith)
    (by rw [abs_le]; constructor <;> rw [u] at hs <;> linarith) (by linarith)
  rw [abs_le] at n4
  obtain ⟨S, hS⟩ : ∃ S, e * L.val s = S := ⟨_, rfl⟩
  rw [hS] at n4
  have hs2 : |S - (q0 + 2 * y)| ≤ 19 * unit * (1 + q0 + 2 * y) := by
    rw [abs_le]; constructor <;> linarith
  obtain ⟨t1, t0⟩ := L.third_val
  have t2 : L.val d.third ≤ 1 / 2 := by rw [abs_le, u] at t1; linarith
  have hprod : |S * L.val d.third - (q0 + 2 * y) / 3| ≤ 8 * unit * (1 + q0 + 2 * y) := by
    have hd : S * L.val d.third - (q0 + 2 * y) / 3 =
        (S - (q0 + 2 * y)) * L.val d.third + (q0 + 2 * y) * (L.val d.third - 1 / 3) := by ring
    have t3 : L.val d.third ≤ 1 / 3 + 1 / 100 := by rw [abs_le, u] at t1; linarith
    have m1 : |(S - (q0 + 2 * y)) * L.val d.third| ≤ 19 * unit * (1 + q0 + 2 * y) * (1 / 3 + 1 / 100) := by
      rw [abs_mul, abs_of_pos t0]
      exact mul_le_mul hs2 t3 t0.le (by rw [u]; positivity)
    have m2 : |(q0 + 2 * y) * (L.val d.third - 1 / 3)| ≤ (q0 + 2 * y) * (unit / 2) := by
      rw [abs_mul, abs_of_pos (by linarith)]
      exact mul_le_mul_of_nonneg_left t1 (by linarith)
    rw [hd]
    refine (abs_add_le _ _).trans ?_
    rw [u] at m1 m2 ⊢
    linarith
  rw [abs_le] at hprod
  obtain ⟨z, e5, n5⟩ := L.cmul_signed_left he (x := s) (y := d.third) (X := S) (a := 1 + q0 + 2 * y)
    (by rw [← hS]; linear_combination (-L.val s) * ee) (by linarith)
    (by rw [abs_le]; constructor <;> rw [u] at hprod <;> linarith) (by linarith)
  rw [abs_le] at n5
  refine ⟨xx, x2, q, s, z, e1, e2, e3, e4, e5, ?_⟩
  rw [hq0, abs_le]
  constructor <;> linarith

omit L in
theorem cbrtLoop_next {v x xx x2 q s z : D} (e1 : d.cmul x x = .ok xx) (e2 : d.cmul d.two x = .ok x2) (e3 : d.cdiv v xx = .ok q)
    (e4 : d.cadd q x2 = .ok s) (e5 : d.cmul s d.third = .ok z) (k : Nat) : d.cbrtLoop v (k + 1) x = d.cbrtLoop v k z := by
  simp only [Dec.cbrtLoop, e1]
  show (d.cmul d.two x).bind _ = _
  rw [e2]
  show (d.cdiv v xx).bind _ = _
  rw [e3]
  show (d.cadd q x2).bind _ = _
  rw [e4]
  show (d.cmul s d.third).bind _ = _
  rw [e5]
  rfl

/-- The loop follows the steps. -/
theorem cbrtLoop_step {e : Rat} (he : e = 1 ∨ e = -1) {v x : D} {V y : Rat} (hV : L.val v = e * V) (hy : L.val x = e * y)
    (hv : 0 < V) (hv2 : V ≤ 8 * 10 ^ 14) (hx : 3 / 10 ≤ y) (hx2 : y ≤ 27 * 10 ^ 13) :
    ∃ z, (∀ k, d.cbrtLoop v (k + 1) x = d.cbrtLoop v k z) ∧
      |((e * L.val z : Rat) : ℝ) - ((V : ℝ) / (y : ℝ) ^ 2 + 2 * (y : ℝ)) / 3| ≤ 9 * (2 / 10 ^ 28) * (1 + (V : ℝ) / (y : ℝ) ^ 2 + 2 * (y : ℝ)) := by
  obtain ⟨xx, x2, q, s, z, e1, e2, e3, e4, e5, h⟩ := L.cbrt_step he hV hy hv hv2 hx hx2
  refine ⟨z, fun k => cbrtLoop_next e1 e2 e3 e4 e5 k, ?_⟩
  have := (Rat.cast_le (K := ℝ)).mpr h
  unfold unit at this
  push_cast at this ⊢
  exact this

theorem cbrtLoop_phase {e : Rat} (he : e = 1 ∨ e = -1) {v : D} {V : Rat} (hV : L.val v = e * V) (hv : 0 < V) (hv2 : V ≤ 8 * 10 ^ 14) (P : Nat → ℝ → Prop)
    (hP : ∀ n y, P n y → 3 / 10 ≤ y ∧ y ≤ 27 * 10 ^ 13)
    (step : ∀ n y z, P n y → |z - ((V : ℝ) / y ^ 2 + 2 * y) / 3| ≤ 9 * (2 / 10 ^ 28) * (1 + (V : ℝ) / y ^ 2 + 2 * y) → P (n + 1) z)
    (j : Nat) : ∀ (n : Nat) (x : D), P n ((e * L.val x : Rat) : ℝ) →
      ∃ z, (∀ k, d.cbrtLoop v (j + k) x = d.cbrtLoop v k z) ∧ P (n + j) ((e * L.val z : Rat) : ℝ) := by
  have ee : e * e = 1 := by rcases he with rfl | rfl <;> norm_num
  induction j with
  | zero => intro n x h; exact ⟨x, fun k => by rw [Nat.zero_add], h⟩
  | succ j ih =>
    intro n x h
    obtain ⟨h1, h2⟩ := hP n _ h
    obtain ⟨z, hz, hn⟩ := L.cbrtLoop_step he (x := x) (y := e * L.val x) hV (by linear_combination (-L.val x) * ee) hv hv2 (by
      have : ((3 / 10 : ℚ) : ℝ) ≤ (e * L.val x : Rat) := by push_cast at h1 ⊢; exact h1
      exact_mod_cast this) (by
      have : ((e * L.val x : Rat) : ℝ) ≤ ((27 * 10 ^ 13 : ℚ) : ℝ) := by push_cast at h2 ⊢; exact h2
      exact_mod_cast this)
    obtain ⟨w, hw, hp⟩ := ih (n + 1) z (step n _ _ h hn)
    refine ⟨w, fun k => ?_, by rw [show n + (j + 1) = n + 1 + j by omega]; exact hp⟩
    rw [show j + 1 + k = j + k + 1 by omega, hz, hw]

end Dec.Laws

/-- The error of an exact step. -/
theorem newton_cube {c y : ℝ} (hy : 0 < y) : (c ^ 3 / y ^ 2 + 2 * y) / 3 - c = (y - c) ^ 2 * (2 * y + c) / (3 * y ^ 2) := by
  field_simp
  ring

/-- What a rounded step does to the error. -/
theorem cube_step {c y z : ℝ} (hc : 1 ≤ c) (h1 : c - c / 100 ≤ y)
    (h : |z - (c ^ 3 / y ^ 2 + 2 * y) / 3| ≤ 9 * (2 / 10 ^ 28) * (1 + c ^ 3 / y ^ 2 + 2 * y)) (hyb : y ≤ 27 * 10 ^ 13) :
    (y ≤ 10 ^ 20 * c → c - c / 100 ≤ z) ∧ (c / 10 ≤ y - c → z - c ≤ 7 / 10 * (y - c)) ∧
    (∀ w, w ≤ 1 / 10 → |y - c| ≤ w * c → |z - c| ≤ (1.4 * w ^ 2 + 1 / 10 ^ 26) * c) := by
  have hy : 0 < y := by linarith
  have hy2 : 0 < y ^ 2 := by positivity
  have hn := newton_cube (c := c) hy
  have hsq : (99 / 100 * c) ^ 2 ≤ y ^ 2 := pow_le_pow_left₀ (by linarith) (by linarith) 2
  have hq : c ^ 3 / y ^ 2 ≤ 2 * c := by
    rw [div_le_iff₀ hy2]
    have := mul_le_mul_of_nonneg_left hsq (show 0 ≤ 2 * c by linarith)
    have h3 : 0 < c ^ 3 := by positivity
    nlinarith
  have hq0 : 0 < c ^ 3 / y ^ 2 := by positivity
  have hg : 0 ≤ (y - c) ^ 2 * (2 * y + c) / (3 * y ^ 2) := by positivity
  rw [abs_le] at h
  refine ⟨fun hb => ?_, fun hbig => ?_, fun w hw hs => ?_⟩
  · rw [← hn] at hg
    linarith
  · have hg2 : (c ^ 3 / y ^ 2 + 2 * y) / 3 - c ≤ 2 / 3 * (y - c) := by
      rw [hn, div_le_iff₀ (by positivity)]
      have e : (y - c) ^ 2 * (2 * y + c) = (y - c) * ((y - c) * (2 * y + c)) := by ring
      have e2 : 2 / 3 * (y - c) * (3 * y ^ 2) = (y - c) * (2 * y ^ 2) := by ring
      rw [e, e2]
      refine mul_le_mul_of_nonneg_left ?_ (by linarith)
      nlinarith
    linarith
  · have hw0 : 0 ≤ w := by
      by_contra hneg
      push Not at hneg
      have := abs_nonneg (y - c)
      nlinarith
    have hs' := abs_le.mp hs
    have hwc : w * c ≤ c / 10 := by nlinarith
    have hg2 : (y - c) ^ 2 * (2 * y + c) / (3 * y ^ 2) ≤ 1.4 * w ^ 2 * c := by
      rw [div_le_iff₀ (by positivity)]
      have k1 : (y - c) ^ 2 ≤ (w * c) ^ 2 := by rw [← sq_abs]; exact pow_le_pow_left₀ (abs_nonneg _) hs 2
      have k2 : c * (2 * y + c) ≤ 4.2 * y ^ 2 := by nlinarith
      calc (y - c) ^ 2 * (2 * y + c) ≤ (w * c) ^ 2 * (2 * y + c) := mul_le_mul_of_nonneg_right k1 (by linarith)
        _ = w ^ 2 * c * (c * (2 * y + c)) := by ring
        _ ≤ w ^ 2 * c * (4.2 * y ^ 2) := mul_le_mul_of_nonneg_left k2 (by positivity)
        _ = 1.4 * w ^ 2 * c * (3 * y ^ 2) := by ring
    rw [← hn] at hg hg2
    rw [abs_le, add_mul]
    constructor <;> linarith

/-- The relative errors of the last steps. -/
noncomputable def cubeErr : Nat → ℝ
  | 0 => 1 / 10
  | 1 => 15 / 1000
  | 2 => 32 / 10 ^ 5
  | 3 => 15 / 10 ^ 8
  | 4 => 32 / 10 ^ 15
  | _ => 2 / 10 ^ 26

theorem cubeErr_le (n : Nat) : cubeErr n ≤ 1 / 10 := by
  unfold cubeErr; split <;> norm_num

theorem cubeErr_step (n : Nat) : 1.4 * cubeErr n ^ 2 + 1 / 10 ^ 26 ≤ cubeErr (n + 1) := by
  match n with
  | 0 | 1 | 2 | 3 | 4 => norm_num [cubeErr]
  | n + 5 =>
    show 1.4 * (2 / 10 ^ 26 : ℝ) ^ 2 + 1 / 10 ^ 26 ≤ 2 / 10 ^ 26
    norm_num

/-- Once an iterate is at most `5·c^3`, 98 rounds give 25 digits. -/
theorem Dec.Laws.cbrt_rounds (L : d.Laws) {e : Rat} (he : e = 1 ∨ e = -1) {v : D} {V : Rat} (hV : L.val v = e * V) (hv : 0 < V) (hv2 : V ≤ 8 * 10 ^ 14)
    {c : ℝ} (hc : 1 ≤ c) (hcv : c ^ 3 = V) {x : D} (h1 : c - c / 100 ≤ ((e * L.val x : Rat) : ℝ)) (h2 : ((e * L.val x : Rat) : ℝ) - c ≤ 4 * c ^ 3)
    (h3 : ((e * L.val x : Rat) : ℝ) ≤ 27 * 10 ^ 13) :
    ∃ z, (∀ k, d.cbrtLoop v (98 + k) x = d.cbrtLoop v k z) ∧ |((e * L.val z : Rat) : ℝ) - c| ≤ 2 / 10 ^ 26 * c := by
  have hV2 : c ^ 3 ≤ 8 * 10 ^ 14 := by
    rw [hcv]
    have := (Rat.cast_le (K := ℝ)).mpr hv2
    push_cast at this
    exact this
  have hcb : c ≤ 93000 := by
    by_contra hgt
    push Not at hgt
    have : (93000 : ℝ) ^ 3 < c ^ 3 := pow_lt_pow_left₀ hgt (by norm_num) (by norm_num)
    linarith
  have hc3 : c ≤ c ^ 3 := le_self_pow₀ hc (by norm_num)
  obtain ⟨x2, s2, p2⟩ := L.cbrtLoop_phase he hV hv hv2 (fun n y => c - c / 100 ≤ y ∧ y - c ≤ max ((7 / 10) ^ n * (4 * c ^ 3)) (c / 10) ∧ y ≤ 27 * 10 ^ 13)
    (fun n y h => ⟨by linarith [h.1], h.2.2⟩)
    (fun n y z h hz => by
      obtain ⟨a, b, e⟩ := h
      rw [← hcv] at hz
      obtain ⟨k1, k2, k3⟩ := cube_step hc a hz e
      have k1 := k1 (by linarith)
      rw [pow_succ, show (7 / 10 : ℝ) ^ n * (7 / 10) * (4 * c ^ 3) = 7 / 10 * ((7 / 10) ^ n * (4 * c ^ 3)) by ring]
      by_cases hb : c / 10 ≤ y - c
      · have k2 := k2 hb
        refine ⟨k1, ?_, by linarith⟩
        rcases le_max_iff.mp b with hE | hE
        · exact le_max_of_le_left (by linarith)
        · exact le_max_of_le_right (by linarith)
      · have k3 := k3 (1 / 10) le_rfl (by rw [abs_le]; constructor <;> linarith)
        have k3 := (abs_le.mp k3).2
        norm_num at k3
        exact ⟨k1, le_max_of_le_right (by linarith), by linarith⟩) 76 0 x
    ⟨by linarith, le_max_of_le_left (by rw [pow_zero, one_mul]; linarith), by linarith⟩
  have hmax : max ((7 / 10) ^ (0 + 76) * (4 * c ^ 3)) (c / 10) ≤ c / 10 := by
    refine max_le ?_ le_rfl
    have h1 : c ^ 3 = c * c ^ 2 := by ring
    have h2 : c ^ 2 ≤ 93000 ^ 2 := pow_le_pow_left₀ (by linarith) hcb 2
    have h3 : ((7 / 10) ^ (0 + 76) * 4 : ℝ) * 93000 ^ 2 ≤ 1 / 10 := by norm_num
    have h4 : (0 : ℝ) < (7 / 10) ^ (0 + 76) * 4 := by positivity
    calc ((7 / 10) ^ (0 + 76) : ℝ) * (4 * c ^ 3) = c * ((7 / 10) ^ (0 + 76) * 4 * c ^ 2) := by rw [h1]; ring
      _ ≤ c * (1 / 10) := mul_le_mul_of_nonneg_left ((mul_le_mul_of_nonneg_left h2 h4.le).trans h3) (by linarith)
      _ = c / 10 := by ring
  obtain ⟨a2, b2, -⟩ := p2
  obtain ⟨x3, s3, p3⟩ := L.cbrtLoop_phase he hV hv hv2 (fun n y => c - c / 100 ≤ y ∧ |y - c| ≤ cubeErr n * c)
    (fun n y h => by
      have h2 := (abs_le.mp h.2).2
      have h3 := mul_le_mul_of_nonneg_right (cubeErr_le n) (show 0 ≤ c by linarith)
      exact ⟨by linarith [h.1], by linarith⟩)
    (fun n y z h hz => by
      obtain ⟨a, b⟩ := h
      rw [← hcv] at hz
      have h2 := (abs_le.mp b).2
      have h3 := mul_le_mul_of_nonneg_right (cubeErr_le n) (show 0 ≤ c by linarith)
      obtain ⟨k1, k2, k3⟩ := cube_step hc a hz (by linarith)
      exact ⟨k1 (by linarith), (k3 _ (cubeErr_le n) b).trans (mul_le_mul_of_nonneg_right (cubeErr_step n) (by linarith))⟩) 22 0 x2
    ⟨a2, by
      show |((e * L.val x2 : Rat) : ℝ) - c| ≤ 1 / 10 * c
      rw [abs_le]; constructor <;> linarith⟩
  refine ⟨x3, fun k => ?_, ?_⟩
  · rw [show 98 + k = 76 + (22 + k) by omega, s2, s3]
  · have := p3.2
    simpa [cubeErr] using this

/-- The cube root of anything between 1 and 8·10^14 is correct to 25 digits. -/
theorem Dec.Laws.cbrt_close (L : d.Laws) {v : D} (hv1 : 1 ≤ L.val v) (hv2 : L.val v ≤ 8 * 10 ^ 14) {c : ℝ} (hc : 1 ≤ c) (hcv : c ^ 3 = L.val v) :
    ∃ z, d.cbrt v = .ok z ∧ |(L.val z : ℝ) - c| ≤ 2 / 10 ^ 26 * c := by
  unfold Dec.cbrt
  by_cases ho : d.isOne v
  · refine ⟨v, by rw [if_pos ho], ?_⟩
    have h1 : L.val v = 1 := (L.isOne v).mp ho
    rw [h1] at hcv ⊢
    have : c = 1 := by
      push_cast at hcv
      have h2 : c ≤ c ^ 3 := le_self_pow₀ hc (by norm_num)
      linarith
    rw [this]; norm_num
  · rw [if_neg ho]
    have hv : 0 < L.val v := by linarith
    have hV2 : c ^ 3 ≤ 8 * 10 ^ 14 := by
      rw [hcv]
      have := (Rat.cast_le (K := ℝ)).mpr hv2
      push_cast at this
      exact this
    have hc3 : c ≤ c ^ 3 := le_self_pow₀ hc (by norm_num)
    have hV := (one_mul (L.val v)).symm
    obtain ⟨x1, s1, e1⟩ := L.cbrtLoop_step (.inl rfl) (v := v) (x := d.one) (y := 1) hV (by rw [L.one_val, one_mul]) hv hv2 (by norm_num) (by norm_num)
    rw [← hcv] at e1
    push_cast at e1
    rw [one_pow, div_one, abs_le] at e1
    have g1 : 0 ≤ (c ^ 3 + 2 * 1) / 3 - c := by nlinarith [sq_nonneg (c - 1)]
    have p1 : 1 ≤ c ^ 3 := by linarith
    have b1 : c - c / 100 ≤ 1 * (L.val x1 : ℝ) ∧ 1 * (L.val x1 : ℝ) - c ≤ c ^ 3 / 2 ∧ 1 * (L.val x1 : ℝ) ≤ 26.9 * 10 ^ 13 :=
      ⟨by linarith, by linarith, by linarith⟩
    have hcb : c ≤ 93000 := by
      by_contra hgt
      push Not at hgt
      have : (93000 : ℝ) ^ 3 < c ^ 3 := pow_lt_pow_left₀ hgt (by norm_num) (by norm_num)
      linarith
    obtain ⟨x2, s2, e2⟩ := L.cbrtLoop_step (.inl rfl) (v := v) (x := x1) (y := L.val x1) hV (one_mul _).symm hv hv2 (by
      have : ((3 / 10 : ℚ) : ℝ) ≤ L.val x1 := by push_cast; linarith
      exact_mod_cast this) (by
      have : (L.val x1 : ℝ) ≤ ((27 * 10 ^ 13 : ℚ) : ℝ) := by push_cast; linarith
      exact_mod_cast this)
    rw [← hcv] at e2
    obtain ⟨k1, k2, k3⟩ := cube_step hc (by linarith) e2 (by linarith)
    have k1 := k1 (by linarith)
    have k4 : ((1 * L.val x2 : Rat) : ℝ) - c ≤ c ^ 3 / 2 ∧ ((1 * L.val x2 : Rat) : ℝ) ≤ 27 * 10 ^ 13 := by
      by_cases hb : c / 10 ≤ (L.val x1 : ℝ) - c
      · exact ⟨by linarith [k2 hb], by linarith [k2 hb]⟩
      · have := k3 (1 / 10) le_rfl (by rw [abs_le]; constructor <;> linarith)
        have := (abs_le.mp this).2
        norm_num at this ⊢
        constructor <;> linarith
    obtain ⟨z, s3, e3⟩ := L.cbrt_rounds (.inl rfl) hV hv hv2 hc hcv (x := x2) k1 (by linarith [k4.1]) k4.2
    refine ⟨z, ?_, by simpa using e3⟩
    rw [show iterations = 99 + 1 from rfl, s1, show 99 = 98 + 1 from rfl, s2, show 98 = 98 + 0 from rfl, s3]
    rfl

end Prexel
