import Verif.Lemmas.DecimalCbrt
/-!
# The cube root of decimals between 0 and 1
-/

set_option linter.unusedVariables false

namespace Prexel
variable {D F : Type} {d : Dec D F}

/-- The smallest positive decimal. -/
theorem Representable.pos_le {q : Rat} (h : Representable q) (h0 : 0 < q) : 1 / 10 ^ 28 ≤ q := by
  obtain ⟨s, hs, c, -, hq⟩ := h
  have hp : (0 : Rat) < 10 ^ s := by positivity
  push_cast at hq
  have hc : 0 < c := by
    have : (0 : Rat) < c := by rw [← hq]; positivity
    exact_mod_cast this
  have hc1 : (1 : Rat) ≤ c := by exact_mod_cast hc
  rw [← hq] at hc1
  rw [div_le_iff₀ (by positivity)]
  refine hc1.trans (mul_le_mul_of_nonneg_left (pow_le_pow_right₀ (by norm_num) hs) h0.le)

namespace Dec.Laws
variable (L : d.Laws)
include L

/-- One Newton step below 1 and its rounding error. -/
theorem cbrt_step_small {v x : D} {V y : Rat} (hV : L.val v = V) (hy : L.val x = y)
    (hv : 0 < V) (hx : 0 < y) (hx1 : 1 / 10 ^ 19 ≤ y ^ 2) (hx2 : y ≤ 12 / 10) (hq : V / y ^ 2 ≤ 11 / 10) :
    ∃ xx x2 q s z, d.cmul x x = .ok xx ∧ d.cmul d.two x = .ok x2 ∧ d.cdiv v xx = .ok q ∧ d.cadd q x2 = .ok s ∧ d.cmul s d.third = .ok z ∧
      |L.val z - (V / y ^ 2 + 2 * y) / 3| ≤ unit * (V / y ^ 2 / y ^ 2 + 7) := by
  have u : unit = 2 / 10 ^ 28 := rfl
  have hyy : 0 < y ^ 2 := by positivity
  obtain ⟨w, hw⟩ : ∃ w, y ^ 2 = w := ⟨_, rfl⟩
  rw [hw] at hyy hx1 hq ⊢
  obtain ⟨q0, hq0⟩ : ∃ q0, V / w = q0 := ⟨_, rfl⟩
  have hq0y : q0 * w = V := by rw [← hq0]; exact div_mul_cancel₀ _ hyy.ne'
  have hq0p : 0 < q0 := by rw [← hq0]; positivity
  rw [hq0] at hq ⊢
  have hw2 : w ≤ 15 / 10 := by rw [← hw]; nlinarith
  have hxy : L.val x * L.val x = w := by rw [hy, ← hw]; ring
  obtain ⟨xx, e1, n1, -⟩ := L.cmul_near (x := x) (y := x) (a := 2) (by norm_num)
    (by rw [hxy, abs_of_pos hyy]; linarith) (by norm_num)
  rw [hxy] at n1
  obtain ⟨x2, e2, n2, -⟩ := L.cmul_near (x := d.two) (y := x) (a := 3) (by norm_num)
    (by rw [L.two_val, hy, abs_of_pos (by linarith)]; linarith) (by norm_num)
  rw [L.two_val, hy, abs_le, u] at n2
  have n1' := abs_le.mp n1
  have hxx1 : w * (9 / 10) ≤ L.val xx := by rw [u] at n1'; linarith
  have hxxp : 0 < L.val xx := by linarith
  obtain ⟨g, hg⟩ : ∃ g, q0 / w = g := ⟨_, rfl⟩
  have hgw : g * w = q0 := by rw [← hg]; exact div_mul_cancel₀ _ hyy.ne'
  have hgp : 0 < g := by rw [← hg]; positivity
  rw [hg]
  have hqq : |V / L.val xx - q0| ≤ 2.3 * (unit * g) := by
    have hd : V / L.val xx - q0 = q0 * (w - L.val xx) / L.val xx := by
      rw [eq_div_iff hxxp.ne', sub_mul, div_mul_cancel₀ _ hxxp.ne', ← hq0y]; ring
    rw [hd, abs_div, abs_mul, abs_of_pos hq0p, abs_of_pos hxxp, div_le_iff₀ hxxp, abs_sub_comm]
    calc q0 * |L.val xx - w| ≤ q0 * (unit * 2) := mul_le_mul_of_nonneg_left n1 hq0p.le
      _ ≤ q0 * (unit * (2.3 * (9 / 10))) := mul_le_mul_of_nonneg_left (by rw [u]; norm_num) hq0p.le
      _ = 2.3 * (unit * g) * (w * (9 / 10)) := by rw [← hgw]; ring
      _ ≤ 2.3 * (unit * g) * L.val xx := mul_le_mul_of_nonneg_left hxx1 (by rw [u]; positivity)
  have hgb : g ≤ 11 * 10 ^ 18 := by
    have h1 : g * (1 / 10 ^ 19) ≤ g * w := mul_le_mul_of_nonneg_left hx1 hgp.le
    linarith
  rw [abs_le, u] at hqq
  obtain ⟨q, e3, n3, -⟩ := L.cdiv_near (x := v) (y := xx) (a := 2) hxxp.ne' (by norm_num)
    (by rw [hV, abs_of_pos (div_pos hv hxxp)]; linarith) (by norm_num)
  rw [hV, abs_le, u] at n3
  obtain ⟨s, e4, n4, -⟩ := L.cadd_near (x := q) (y := x2) (a := 4) (by norm_num)
    (by rw [abs_le]; constructor <;> linarith) (by norm_num)
  rw [abs_le, u] at n4
  obtain ⟨h, hh⟩ : ∃ h, g / 10 ^ 28 = h := ⟨_, rfl⟩
  have hhp : 0 < h := by rw [← hh]; positivity
  have hs2 : |L.val s - (q0 + 2 * y)| ≤ 4.6 * h + 18 / 10 ^ 28 := by
    rw [← hh, abs_le]; constructor <;> linarith
  obtain ⟨t1, t0⟩ := L.third_val
  have t3 : L.val d.third ≤ 1 / 3 + 1 / 10 ^ 28 := by rw [abs_le, u] at t1; linarith
  have hprod : |L.val s * L.val d.third - (q0 + 2 * y) / 3| ≤ 1.6 * h + 11 / 10 ^ 28 := by
    have hd : L.val s * L.val d.third - (q0 + 2 * y) / 3 =
        (L.val s - (q0 + 2 * y)) * L.val d.third + (q0 + 2 * y) * (L.val d.third - 1 / 3) := by ring
    have m1 : |(L.val s - (q0 + 2 * y)) * L.val d.third| ≤ (4.6 * h + 18 / 10 ^ 28) * (1 / 3 + 1 / 10 ^ 28) := by
      rw [abs_mul, abs_of_pos t0]
      exact mul_le_mul hs2 t3 t0.le (by positivity)
    have m2 : |(q0 + 2 * y) * (L.val d.third - 1 / 3)| ≤ 4 * (unit / 2) := by
      rw [abs_mul, abs_of_pos (by linarith)]
      exact mul_le_mul (by linarith) t1 (abs_nonneg _) (by norm_num)
    rw [hd]
    refine (abs_add_le _ _).trans ?_
    rw [u] at m2
    linarith
  rw [abs_le] at hprod
  have hhb : h ≤ 11 / 10 ^ 10 := by rw [← hh]; linarith
  obtain ⟨z, e5, n5, -⟩ := L.cmul_near (x := s) (y := d.third) (a := 1.3) (by norm_num)
    (by rw [abs_le]; constructor <;> linarith) (by norm_num)
  rw [abs_le, u] at n5
  refine ⟨xx, x2, q, s, z, e1, e2, e3, e4, e5, ?_⟩
  rw [u, abs_le]
  have : g = h * 10 ^ 28 := by rw [← hh]; exact (div_mul_cancel₀ _ (by norm_num)).symm
  rw [this]
  constructor <;> linarith

end Dec.Laws

/-- What the size of an iterate says about the step. -/
theorem small_sizes {c y : ℝ} (hc : 46 / 10 ^ 11 ≤ c) (hc1 : c ≤ 1) (h1 : c - c / 100 ≤ y) :
    1 / 10 ^ 19 ≤ y ^ 2 ∧ c ^ 3 / y ^ 2 ≤ 11 / 10 ∧ c ^ 3 / y ^ 2 / y ^ 2 ≤ 1.05 / c := by
  have hcp : 0 < c := by linarith
  have hy : 0 < y := by linarith
  have hy2 : 0 < y ^ 2 := by positivity
  have hsq : (99 / 100 * c) ^ 2 ≤ y ^ 2 := pow_le_pow_left₀ (by linarith) (by linarith) 2
  have hcc : (46 / 10 ^ 11) ^ 2 ≤ c ^ 2 := pow_le_pow_left₀ (by norm_num) hc 2
  have hsq' : 98 / 100 * c ^ 2 ≤ y ^ 2 := by nlinarith
  refine ⟨by norm_num at hcc ⊢; linarith, ?_, ?_⟩
  · rw [div_le_iff₀ hy2]
    have : c ^ 3 ≤ c ^ 2 := by nlinarith [sq_nonneg c]
    linarith [sq_nonneg c]
  · have hq : (99 / 100 * c) ^ 4 ≤ y ^ 4 := pow_le_pow_left₀ (by linarith) (by linarith) 4
    rw [div_div, ← pow_add, div_le_div_iff₀ (by positivity) hcp]
    norm_num at hq ⊢
    nlinarith [pow_pos hcp 4]

/-- What a rounded step does to the error, with an absolute bound on the rounding. -/
theorem cube_step_small {c y z E : ℝ} (hc : 0 < c) (hE : E ≤ c / 10 ^ 6) (h1 : c - c / 100 ≤ y)
    (h : |z - (c ^ 3 / y ^ 2 + 2 * y) / 3| ≤ E) :
    c - c / 100 ≤ z ∧ (c / 10 ≤ y - c → z - c ≤ 7 / 10 * (y - c)) ∧
    (∀ w, w ≤ 11 / 100 → |y - c| ≤ w * c → |z - c| ≤ 1.4 * w ^ 2 * c + E) := by
  have hy : 0 < y := by linarith
  have hy2 : 0 < y ^ 2 := by positivity
  have hn := newton_cube (c := c) hy
  have hg : 0 ≤ (y - c) ^ 2 * (2 * y + c) / (3 * y ^ 2) := by positivity
  rw [abs_le] at h
  refine ⟨?_, fun hbig => ?_, fun w hw hs => ?_⟩
  · rw [← hn] at hg
    linarith
  · have hg2 : (c ^ 3 / y ^ 2 + 2 * y) / 3 - c ≤ 2 / 3 * (y - c) := by
      rw [hn, div_le_iff₀ (by positivity)]
      have e : (y - c) ^ 2 * (2 * y + c) = (y - c) * ((y - c) * (2 * y + c)) := by ring
      have e2 : 2 / 3 * (y - c) * (3 * y ^ 2) = (y - c) * (2 * y ^ 2) := by ring
      rw [e, e2]
      refine mul_le_mul_of_nonneg_left ?_ (by linarith)
      nlinarith
    linarith
  · have hw0 : 0 ≤ w := by
      by_contra hneg
      push Not at hneg
      have := abs_nonneg (y - c)
      nlinarith
    have hs' := abs_le.mp hs
    have hwc : w * c ≤ 11 / 100 * c := by nlinarith
    have hg2 : (y - c) ^ 2 * (2 * y + c) / (3 * y ^ 2) ≤ 1.4 * w ^ 2 * c := by
      rw [div_le_iff₀ (by positivity)]
      have k1 : (y - c) ^ 2 ≤ (w * c) ^ 2 := by rw [← sq_abs]; exact pow_le_pow_left₀ (abs_nonneg _) hs 2
      have k2 : c * (2 * y + c) ≤ 4.2 * y ^ 2 := by nlinarith
      calc (y - c) ^ 2 * (2 * y + c) ≤ (w * c) ^ 2 * (2 * y + c) := mul_le_mul_of_nonneg_right k1 (by linarith)
        _ = w ^ 2 * c * (c * (2 * y + c)) := by ring
        _ ≤ w ^ 2 * c * (4.2 * y ^ 2) := mul_le_mul_of_nonneg_left k2 (by positivity)
        _ = 1.4 * w ^ 2 * c * (3 * y ^ 2) := by ring
    rw [← hn] at hg hg2
    rw [abs_le]
    constructor <;> linarith

/-- The relative errors of the last steps, without the rounding. -/
noncomputable def smallErr : Nat → ℝ
  | 0 => 1 / 10
  | 1 => 15 / 1000
  | 2 => 32 / 10 ^ 5
  | 3 => 15 / 10 ^ 8
  | 4 => 32 / 10 ^ 15
  | 5 => 2 / 10 ^ 27
  | _ => 1 / 10 ^ 50

theorem smallErr_le (n : Nat) : smallErr n ≤ 1 / 10 := by
  unfold smallErr; split <;> norm_num

theorem smallErr_pos (n : Nat) : 0 < smallErr n := by
  unfold smallErr; split <;> norm_num

theorem smallErr_step (n : Nat) : 1.4 * smallErr n ^ 2 ≤ smallErr (n + 1) := by
  match n with
  | 0 | 1 | 2 | 3 | 4 | 5 => norm_num [smallErr]
  | n + 6 =>
    show 1.4 * (1 / 10 ^ 50 : ℝ) ^ 2 ≤ 1 / 10 ^ 50
    norm_num

namespace Dec.Laws
variable (L : d.Laws)
include L

theorem cbrtLoop_phase_small {v : D} {c : ℝ} (hc : 46 / 10 ^ 11 ≤ c) (hc1 : c ≤ 1) (hcv : c ^ 3 = L.val v) (P : Nat → ℝ → Prop)
    (hP : ∀ n y, P n y → c - c / 100 ≤ y ∧ y ≤ 12 / 10)
    (step : ∀ n y z, P n y → |z - (c ^ 3 / y ^ 2 + 2 * y) / 3| ≤ 17 / 10 ^ 28 / c → P (n + 1) z)
    (j : Nat) : ∀ (n : Nat) (x : D), P n (L.val x) →
      ∃ z, (∀ k, d.cbrtLoop v (j + k) x = d.cbrtLoop v k z) ∧ P (n + j) (L.val z) := by
  have hcp : 0 < c := by linarith
  have hvp : 0 < L.val v := by
    have : (0 : ℝ) < L.val v := by rw [← hcv]; positivity
    exact_mod_cast this
  induction j with
  | zero => intro n x h; exact ⟨x, fun k => by rw [Nat.zero_add], h⟩
  | succ j ih =>
    intro n x h
    obtain ⟨h1, h2⟩ := hP n _ h
    obtain ⟨g1, g2, g3⟩ := small_sizes hc hc1 h1
    have hxp : 0 < L.val x := by
      have : (0 : ℝ) < L.val x := by linarith
      exact_mod_cast this
    obtain ⟨xx, x2, q, s, z, e1, e2, e3, e4, e5, hn⟩ := L.cbrt_step_small (v := v) (x := x) rfl rfl hvp hxp (by
      have : ((1 / 10 ^ 19 : ℚ) : ℝ) ≤ (L.val x ^ 2 : ℚ) := by push_cast; exact g1
      exact_mod_cast this) (by
      have : (L.val x : ℝ) ≤ ((12 / 10 : ℚ) : ℝ) := by push_cast; exact h2
      exact_mod_cast this) (by
      have : ((L.val v / L.val x ^ 2 : ℚ) : ℝ) ≤ ((11 / 10 : ℚ) : ℝ) := by push_cast; rw [← hcv]; exact g2
      exact_mod_cast this)
    have hn := (Rat.cast_le (K := ℝ)).mpr hn
    unfold unit at hn
    push_cast at hn
    rw [← hcv] at hn
    have hE : (2 / 10 ^ 28 : ℝ) * (c ^ 3 / (L.val x : ℝ) ^ 2 / (L.val x : ℝ) ^ 2 + 7) ≤ 17 / 10 ^ 28 / c := by
      have h7 : 7 ≤ 7 / c := by rw [le_div_iff₀ hcp]; linarith
      have e : (17 / 10 ^ 28 / c : ℝ) = 2 / 10 ^ 28 * (8.5 / c) := by ring
      have e2 : 1.05 / c + 7 / c = 8.05 / c := by rw [← add_div]; norm_num
      have e3 : 8.05 / c ≤ 8.5 / c := div_le_div_of_nonneg_right (by norm_num) hcp.le
      rw [e]
      exact mul_le_mul_of_nonneg_left (by linarith) (by norm_num)
    obtain ⟨w, hw, hp⟩ := ih (n + 1) z (step n _ _ h (hn.trans hE))
    refine ⟨w, fun k => ?_, by rw [show n + (j + 1) = n + 1 + j by omega]; exact hp⟩
    rw [show j + 1 + k = j + k + 1 by omega, cbrtLoop_next e1 e2 e3 e4 e5, hw]

/-- The cube root of anything between 0 and 1: the error is at most 36·10^-28 divided by the root. -/
theorem cbrt_close_small {v : D} (hv1 : 0 < L.val v) (hv2 : L.val v < 1) {c : ℝ} (hc0 : 0 < c) (hcv : c ^ 3 = L.val v) :
    ∃ z, d.cbrt v = .ok z ∧ c * |(L.val z : ℝ) - c| ≤ 36 / 10 ^ 28 := by
  unfold Dec.cbrt
  have ho : ¬ d.isOne v := by
    intro h
    have := (L.isOne v).mp h
    rw [this] at hv2; norm_num at hv2
  rw [if_neg ho]
  have hvl : (1 / 10 ^ 28 : ℝ) ≤ c ^ 3 := by
    rw [hcv]
    have := (Rat.cast_le (K := ℝ)).mpr ((L.range v).pos_le hv1)
    push_cast at this
    exact this
  have hvu : c ^ 3 < 1 := by rw [hcv]; exact_mod_cast hv2
  have hc1 : c ≤ 1 := by
    by_contra h
    push Not at h
    have : 1 ≤ c ^ 3 := one_le_pow₀ h.le
    linarith
  have hc : 46 / 10 ^ 11 ≤ c := by
    by_contra h
    push Not at h
    have h1 : c ^ 3 < (46 / 10 ^ 11) ^ 3 := pow_lt_pow_left₀ h hc0.le (by norm_num)
    have h2 : ((46 / 10 ^ 11) ^ 3 : ℝ) ≤ 1 / 10 ^ 28 := by norm_num
    linarith
  obtain ⟨E, hEd⟩ : ∃ E : ℝ, 17 / 10 ^ 28 / c = E := ⟨_, rfl⟩
  have hEc : E * c = 17 / 10 ^ 28 := by rw [← hEd]; exact div_mul_cancel₀ _ hc0.ne'
  have hEp : 0 < E := by rw [← hEd]; positivity
  have hE : E ≤ c / 10 ^ 6 := by
    rw [← hEd, div_le_iff₀ hc0]
    have : (46 / 10 ^ 11) ^ 2 ≤ c ^ 2 := pow_le_pow_left₀ (by norm_num) hc 2
    norm_num at this ⊢
    nlinarith
  obtain ⟨x2, s2, p2⟩ := L.cbrtLoop_phase_small hc hc1 hcv (fun n y => c - c / 100 ≤ y ∧ y - c ≤ max ((7 / 10) ^ n) (c / 10) ∧ y ≤ 12 / 10)
    (fun n y h => ⟨h.1, h.2.2⟩)
    (fun n y z h hz => by
      obtain ⟨a, b, e⟩ := h
      rw [hEd] at hz
      obtain ⟨k1, k2, k3⟩ := cube_step_small hc0 hE a hz
      rw [pow_succ]
      by_cases hb : c / 10 ≤ y - c
      · have k2 := k2 hb
        refine ⟨k1, ?_, by linarith⟩
        rcases le_max_iff.mp b with hE | hE
        · exact le_max_of_le_left (by linarith)
        · exact le_max_of_le_right (by linarith)
      · have k3 := k3 (1 / 10) (by norm_num) (by rw [abs_le]; constructor <;> linarith)
        have k3 := (abs_le.mp k3).2
        norm_num at k3
        exact ⟨k1, le_max_of_le_right (by linarith), by linarith⟩) 70 0 d.one
    ⟨by rw [L.one_val]; push_cast; linarith, le_max_of_le_left (by rw [L.one_val]; push_cast; linarith), by rw [L.one_val]; norm_num⟩
  have hmax : max ((7 / 10) ^ (0 + 70)) (c / 10) ≤ c / 10 := by
    refine max_le ?_ le_rfl
    have : ((7 / 10) ^ (0 + 70) : ℝ) ≤ 46 / 10 ^ 12 := by norm_num
    linarith
  obtain ⟨a2, b2, -⟩ := p2
  obtain ⟨x3, s3, p3⟩ := L.cbrtLoop_phase_small hc hc1 hcv (fun n y => c - c / 100 ≤ y ∧ |y - c| ≤ smallErr n * c + 2 * E)
    (fun n y h => by
      have h2 := (abs_le.mp h.2).2
      have h3 := mul_le_mul_of_nonneg_right (smallErr_le n) hc0.le
      exact ⟨h.1, by linarith⟩)
    (fun n y z h hz => by
      obtain ⟨a, b⟩ := h
      rw [hEd] at hz
      obtain ⟨k1, k2, k3⟩ := cube_step_small hc0 hE a hz
      obtain ⟨t, ht⟩ : ∃ t, E / c = t := ⟨_, rfl⟩
      have htc : t * c = E := by rw [← ht]; exact div_mul_cancel₀ _ hc0.ne'
      have htp : 0 < t := by rw [← ht]; positivity
      have hts : t ≤ 1 / 10 ^ 6 := by rw [← ht, div_le_iff₀ hc0]; linarith
      have h3 := smallErr_le n
      have h4 := smallErr_pos n
      have h5 := smallErr_step n
      have k3 := k3 (smallErr n + 2 * t) (by linarith) (by rw [add_mul, mul_assoc, htc]; exact b)
      refine ⟨k1, k3.trans ?_⟩
      have h6 : 1.4 * (smallErr n + 2 * t) ^ 2 ≤ smallErr (n + 1) + t := by nlinarith
      have := mul_le_mul_of_nonneg_right h6 hc0.le
      rw [add_mul, htc] at this
      linarith) 30 0 x2
    ⟨a2, by
      show |(L.val x2 : ℝ) - c| ≤ 1 / 10 * c + 2 * E
      rw [abs_le]; constructor <;> linarith⟩
  refine ⟨x3, ?_, ?_⟩
  · rw [show iterations = 70 + 30 from rfl, s2, show 30 = 30 + 0 from rfl, s3]
    rfl
  · have h := p3.2
    have h : |(L.val x3 : ℝ) - c| ≤ 1 / 10 ^ 50 * c + 2 * E := by simpa [smallErr] using h
    have := mul_le_mul_of_nonneg_left h hc0.le
    nlinarith

end Dec.Laws
end Prexel
