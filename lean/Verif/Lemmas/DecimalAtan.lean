import Verif.Lemmas.AtanFraction
import Verif.Lemmas.DecimalExp
/-!
# The arctangent of decimals
-/

set_option linter.unusedVariables false

namespace Prexel
variable {D F : Type} {d : Dec D F}

namespace Dec.Laws
variable (L : d.Laws)
include L

theorem add_real {x y : D} {a : Rat} (h1 : 1 ≤ a) (ha : |(L.val x + L.val y : ℝ)| ≤ a) (hm : a ≤ 79 * 10 ^ 27) :
    ∃ z, d.add x y = .ok z ∧ |(L.val z - (L.val x + L.val y) : ℝ)| ≤ 2 / 10 ^ 28 * a ∧ Rounded (L.val z) (L.val x + L.val y) := by
  obtain ⟨z, e, n, hr⟩ := L.add_near h1 (cast_abs_le (by push_cast; exact ha)) hm
  have := (Rat.cast_le (K := ℝ)).mpr n
  rw [show unit = 2 / 10 ^ 28 from rfl] at this
  push_cast at this
  exact ⟨z, e, this, hr⟩

theorem sub_real {x y : D} {a : Rat} (h1 : 1 ≤ a) (ha : |(L.val x - L.val y : ℝ)| ≤ a) (hm : a ≤ 79 * 10 ^ 27) :
    ∃ z, d.sub x y = .ok z ∧ |(L.val z - (L.val x - L.val y) : ℝ)| ≤ 2 / 10 ^ 28 * a ∧ Rounded (L.val z) (L.val x - L.val y) := by
  obtain ⟨z, e, n, hr⟩ := L.sub_near h1 (cast_abs_le (by push_cast; exact ha)) hm
  have := (Rat.cast_le (K := ℝ)).mpr n
  rw [show unit = 2 / 10 ^ 28 from rfl] at this
  push_cast at this
  exact ⟨z, e, this, hr⟩

theorem mul_real {x y : D} {a : Rat} (h1 : 1 ≤ a) (ha : |(L.val x * L.val y : ℝ)| ≤ a) (hm : a ≤ 79 * 10 ^ 27) :
    ∃ z, d.mul x y = .ok z ∧ |(L.val z - L.val x * L.val y : ℝ)| ≤ 2 / 10 ^ 28 * a ∧ Rounded (L.val z) (L.val x * L.val y) := by
  obtain ⟨z, e, n, hr⟩ := L.mul_near h1 (cast_abs_le (by push_cast; exact ha)) hm
  have := (Rat.cast_le (K := ℝ)).mpr n
  rw [show unit = 2 / 10 ^ 28 from rfl] at this
  push_cast at this
  exact ⟨z, e, this, hr⟩

theorem div_real {x y : D} {a : Rat} (h0 : (L.val y : ℝ) ≠ 0) (h1 : 1 ≤ a) (ha : |(L.val x / L.val y : ℝ)| ≤ a) (hm : a ≤ 79 * 10 ^ 27) :
    ∃ z, d.div x y = .ok z ∧ |(L.val z - L.val x / L.val y : ℝ)| ≤ 2 / 10 ^ 28 * a ∧ Rounded (L.val z) (L.val x / L.val y) := by
  obtain ⟨z, e, n, hr⟩ := L.div_near (by exact_mod_cast h0) h1 (cast_abs_le (by push_cast; exact ha)) hm
  have := (Rat.cast_le (K := ℝ)).mpr n
  rw [show unit = 2 / 10 ^ 28 from rfl] at this
  push_cast at this
  exact ⟨z, e, this, hr⟩

omit L in
/-- The error after some steps of the continued fraction. -/
theorem atan_err_step {k : Nat} (hk : k < 99) : (50 / 4 ^ (99 - (k + 1)) + 2 / 10 ^ 23 : ℝ) / 4 + 1 / 10 ^ 23 ≤ 50 / 4 ^ (99 - k) + 2 / 10 ^ 23 := by
  have e : (4 : ℝ) ^ (99 - k) = 4 ^ (99 - (k + 1)) * 4 := by rw [← pow_succ]; congr 1; omega
  rw [e]
  have : (50 : ℝ) / (4 ^ (99 - (k + 1)) * 4) = 50 / 4 ^ (99 - (k + 1)) / 4 := by rw [div_div]
  rw [this]
  linarith

/-- One step of the continued fraction. -/
theorem atanStep_near {x r : D} {k : Nat} (hk : k < 99) (hx : |(L.val x : ℝ)| ≤ 1) (h3 : (2 * k + 3 : Rat) ≤ L.val r)
    (hr : |(L.val r : ℝ) - atanFrac (L.val x) (k + 1)| ≤ 50 / 4 ^ (99 - (k + 1)) + 2 / 10 ^ 23) :
    ∃ z z2 q t c w, d.mul x (d.nat (k + 1)) = .ok z ∧ d.mul z z = .ok z2 ∧ d.div z2 r = .ok q ∧ d.mul d.two (d.nat (k + 2)) = .ok t ∧
      d.sub t d.three = .ok c ∧ d.add q c = .ok w ∧ (2 * k + 1 : Rat) ≤ L.val w ∧
      |(L.val w : ℝ) - atanFrac (L.val x) k| ≤ 50 / 4 ^ (99 - k) + 2 / 10 ^ 23 := by
  have v2 : L.val d.two = 2 := L.nat_val (n := 2) (by decide)
  have v3 : L.val d.three = 3 := L.nat_val (n := 3) (by decide)
  have vk : L.val (d.nat (k + 1)) = (k + 1 : Nat) := L.nat_val (lt_of_lt_of_le (show k + 1 < 100 by omega) (by decide))
  have vk2 : L.val (d.nat (k + 2)) = (k + 2 : Nat) := L.nat_val (lt_of_lt_of_le (show k + 2 < 101 by omega) (by decide))
  have hkR : (k : ℝ) ≤ 98 := by exact_mod_cast (show k ≤ 98 by omega)
  have hk0 : (0 : ℝ) ≤ k := by positivity
  set X : ℝ := ((L.val x : ℚ) : ℝ) with hX
  have hX2 : X ^ 2 ≤ 1 := by rw [← sq_abs]; nlinarith [abs_nonneg X]
  have vkR : ((L.val (d.nat (k + 1)) : ℚ) : ℝ) = k + 1 := by rw [vk]; push_cast; rfl
  obtain ⟨z, ez, nz, -⟩ := L.mul_real (x := x) (y := d.nat (k + 1)) (a := 100) (by norm_num) (by
    rw [vkR, ← hX, abs_mul, abs_of_nonneg (show (0 : ℝ) ≤ k + 1 by positivity)]
    push_cast
    nlinarith [abs_nonneg X]) (by norm_num)
  rw [vkR, ← hX] at nz
  push_cast at nz
  set Z : ℝ := ((L.val z : ℚ) : ℝ) with hZ
  have bz0 : |X * (k + 1)| ≤ k + 1 := by
    rw [abs_mul, abs_of_nonneg (show (0 : ℝ) ≤ k + 1 by positivity)]
    nlinarith [abs_nonneg X]
  have bz : |Z| ≤ k + 1 + 2 / 10 ^ 26 := by
    rw [abs_le] at nz bz0 ⊢
    constructor <;> linarith [nz.1, nz.2, bz0.1, bz0.2]
  have bz1 : |Z| ≤ 100 := by linarith
  obtain ⟨z2, ez2, nz2, rz2⟩ := L.mul_real (x := z) (y := z) (a := 10000) (by norm_num) (by
    rw [← hZ, abs_mul]
    push_cast
    nlinarith [abs_nonneg Z]) (by norm_num)
  rw [← hZ] at nz2
  push_cast at nz2
  have z20 : (0 : Rat) ≤ L.val z2 := (rz2 0 (by exact_mod_cast representable_nat (n := 0) (by decide))).1 (mul_self_nonneg _)
  have z20R : (0 : ℝ) ≤ L.val z2 := by exact_mod_cast z20
  set Z2 : ℝ := ((L.val z2 : ℚ) : ℝ) with hZ2
  have nsq : |Z2 - ((k + 1) * X) ^ 2| ≤ 7 / 10 ^ 24 := by
    have e1 : Z2 - ((k + 1) * X) ^ 2 = (Z2 - Z * Z) + (Z - X * (k + 1)) * (Z + X * (k + 1)) := by ring
    rw [e1]
    refine (abs_add_le _ _).trans ?_
    rw [abs_mul]
    have h4 : |Z + X * (k + 1)| ≤ 200 := (abs_add_le _ _).trans (by linarith)
    have := mul_le_mul nz h4 (abs_nonneg _) (by norm_num)
    linarith
  have hrR : (2 * k + 3 : ℝ) ≤ L.val r := by
    have := (Rat.cast_le (K := ℝ)).mpr h3
    push_cast at this
    exact this
  set R : ℝ := ((L.val r : ℚ) : ℝ) with hR
  have hR0 : 0 < R := by linarith
  have hsq : ((k + 1) * X) ^ 2 ≤ (k + 1) ^ 2 := by rw [mul_pow]; nlinarith [sq_nonneg ((k : ℝ) + 1)]
  have hsq0 : 0 ≤ ((k + 1) * X) ^ 2 := sq_nonneg _
  have bq : Z2 / R ≤ 50 := by
    rw [div_le_iff₀ hR0]
    have := (abs_le.mp nsq).2
    nlinarith
  obtain ⟨q, eq, nq, rq⟩ := L.div_real (x := z2) (y := r) (a := 50) (by rw [← hR]; exact hR0.ne') (by norm_num) (by
    rw [← hZ2, ← hR, abs_of_nonneg (div_nonneg z20R hR0.le)]
    push_cast
    exact bq) (by norm_num)
  rw [← hZ2, ← hR] at nq
  push_cast at nq
  have h3' : (0 : Rat) < L.val r := lt_of_lt_of_le (by positivity) h3
  have q0 : (0 : Rat) ≤ L.val q := (rq 0 (by exact_mod_cast representable_nat (n := 0) (by decide))).1 (div_nonneg z20 h3'.le)
  have q0R : (0 : ℝ) ≤ L.val q := by exact_mod_cast q0
  have ht1 : (L.val d.two * L.val (d.nat (k + 2)) : Rat) = ((2 * (k + 2) : Nat) : Rat) := by rw [v2, vk2]; push_cast; ring
  obtain ⟨t, et, -, rt⟩ := L.mul_near (x := d.two) (y := d.nat (k + 2)) (a := 202) (by norm_num) (by
    rw [v2, vk2]
    have : ((k + 2 : Nat) : Rat) ≤ 101 := by exact_mod_cast (show k + 2 ≤ 101 by omega)
    rw [abs_of_nonneg (by positivity)]
    linarith) (by norm_num)
  have vt : L.val t = ((2 * (k + 2) : Nat) : Rat) := by
    rw [rt.eq (by rw [ht1]; exact representable_nat (lt_of_lt_of_le (show 2 * (k + 2) < 300 by omega) (by decide))), ht1]
  have hc1 : (L.val t - L.val d.three : Rat) = ((2 * k + 1 : Nat) : Rat) := by rw [vt, v3]; push_cast; ring
  obtain ⟨c, ec, -, rc⟩ := L.sub_near (x := t) (y := d.three) (a := 202) (by norm_num) (by
    rw [hc1, abs_of_nonneg (by positivity)]
    exact_mod_cast (show 2 * k + 1 ≤ 202 by omega)) (by norm_num)
  have hrep : Representable ((2 * k + 1 : Nat) : Rat) := representable_nat (lt_of_lt_of_le (show 2 * k + 1 < 300 by omega) (by decide))
  have vc : L.val c = ((2 * k + 1 : Nat) : Rat) := by rw [rc.eq (by rw [hc1]; exact hrep), hc1]
  have vcR : ((L.val c : ℚ) : ℝ) = 2 * k + 1 := by rw [vc]; push_cast; rfl
  have bq' : (L.val q : ℝ) ≤ 51 := by linarith [(abs_le.mp nq).2]
  obtain ⟨w, ew, nw, rw'⟩ := L.add_real (x := q) (y := c) (a := 300) (by norm_num) (by
    rw [vcR, abs_of_nonneg (by positivity)]
    push_cast
    linarith) (by norm_num)
  rw [vcR] at nw
  push_cast at nw
  refine ⟨z, z2, q, t, c, w, ez, ez2, eq, et, ec, ew, ?_, ?_⟩
  · have := (rw' _ hrep).1 (by rw [vc]; linarith)
    push_cast at this
    exact this
  · refine le_trans ?_ (atan_err_step hk)
    rw [atanFrac_rec]
    have hA := atanFrac_ge X (k + 1)
    push_cast at hA
    generalize atanFrac X (k + 1) = A at *
    have hA0 : 0 < A := by linarith
    have e1 : (L.val w : ℝ) - (2 * k + 1 + ((k + 1) * X) ^ 2 / A) = (L.val w - (L.val q + (2 * k + 1))) + (L.val q - Z2 / R) +
        (Z2 - ((k + 1) * X) ^ 2) / R + ((k + 1) * X) ^ 2 / (R * A) * (A - R) := by
      field_simp
      ring
    have h2 : |(Z2 - ((k + 1) * X) ^ 2) / R| ≤ 7 / 10 ^ 24 := by
      rw [abs_div, abs_of_pos hR0, div_le_iff₀ hR0]
      linarith
    have hth : ((k + 1) * X) ^ 2 / (R * A) ≤ 1 / 4 := by
      rw [div_le_div_iff₀ (by positivity) (by norm_num)]
      have : (2 * (k : ℝ) + 3) * (2 * (k + 1) + 1) ≤ R * A := mul_le_mul hrR hA (by positivity) hR0.le
      nlinarith
    have h5 : |((k + 1) * X) ^ 2 / (R * A) * (A - R)| ≤ (50 / 4 ^ (99 - (k + 1)) + 2 / 10 ^ 23) / 4 := by
      rw [abs_mul, abs_sub_comm, abs_of_nonneg (show (0 : ℝ) ≤ ((k + 1) * X) ^ 2 / (R * A) by positivity)]
      have := mul_le_mul hth hr (abs_nonneg _) (by norm_num)
      linarith
    rw [e1]
    have a1 := abs_add_le ((L.val w - (L.val q + (2 * k + 1)) : ℝ) + (L.val q - Z2 / R) + (Z2 - ((k + 1) * X) ^ 2) / R)
      (((k + 1) * X) ^ 2 / (R * A) * (A - R))
    have a2 := abs_add_le ((L.val w - (L.val q + (2 * k + 1)) : ℝ) + (L.val q - Z2 / R)) ((Z2 - ((k + 1) * X) ^ 2) / R)
    have a3 := abs_add_le (L.val w - (L.val q + (2 * k + 1)) : ℝ) (L.val q - Z2 / R)
    linarith

theorem atanLoop_near {x : D} (hx : |(L.val x : ℝ)| ≤ 1) : ∀ (k : Nat) (r : D), k ≤ 99 → (2 * k + 1 : Rat) ≤ L.val r →
    |(L.val r : ℝ) - atanFrac (L.val x) k| ≤ 50 / 4 ^ (99 - k) + 2 / 10 ^ 23 →
    ∃ w, d.atanLoop x k r = .ok w ∧ 1 ≤ L.val w ∧ |(L.val w : ℝ) - atanFrac (L.val x) 0| ≤ 3 / 10 ^ 23 := by
  intro k
  induction k with
  | zero =>
    intro r _ h1 h2
    refine ⟨r, rfl, by simpa using h1, h2.trans (by norm_num)⟩
  | succ k ih =>
    intro r hk h1 h2
    obtain ⟨z, z2, q, t, c, w, ez, ez2, eq, et, ec, ew, hw, nw⟩ := L.atanStep_near (by omega) hx (by push_cast at h1; linarith) h2
    obtain ⟨w', ew', h⟩ := ih w (by omega) hw nw
    refine ⟨w', ?_, h⟩
    simp only [Dec.atanLoop, Res.bind_eq, ez, ez2, eq, et, ec, ew, Res.bind_ok, ew']

theorem piQuarter_real : |(L.val d.piQuarter : ℝ) - Real.pi / 4| ≤ 1 / 10 ^ 27 := by
  have h := L.piQuarter
  have hp := L.pi
  have h1 := L.pi_real
  have e : L.val d.piQuarter = L.val d.pi / 4 + (-(1/4)) / 10^28 := by
    push_cast at h hp
    have e1 : L.val d.piQuarter = 7853981633974483096156608458 / 10 ^ 28 := by rw [eq_div_iff (by norm_num)]; exact_mod_cast h
    have e2 : L.val d.pi = 31415926535897932384626433833 / 10 ^ 28 := by rw [eq_div_iff (by norm_num)]; exact_mod_cast hp
    rw [e1, e2]
    norm_num
  rw [e]
  push_cast
  rw [abs_le] at h1 ⊢
  constructor <;> linarith [h1.1, h1.2]

/-- The arctangent between -1 and 1. -/
theorem atan_small_near (depth : Nat) {x : D} (hx : |L.val x| ≤ 1) :
    ∃ z, d.atanDepth (depth + 1) x = .ok z ∧ Snapped (Real.arctan (L.val x)) (L.val z) := by
  have v0 : L.val d.zero = 0 := L.nat_val (n := 0) (by decide)
  have v1 : L.val d.one = 1 := L.nat_val (n := 1) (by decide)
  have vm : L.val d.oneMinus = -1 := by rw [L.oneMinus]; norm_num
  have hxb := abs_le.mp hx
  have hxR : |(L.val x : ℝ)| ≤ 1 := by
    have := (Rat.cast_le (K := ℝ)).mpr hx
    push_cast at this
    exact this
  have hp := L.piQuarter_real
  have hpi := Real.pi_gt_d2
  have hpi' := Real.pi_lt_d2
  have hquarter : ∀ N : ℤ, 1 / 10 < |Real.pi / 4 - N| := by
    intro N
    by_contra hcon
    have h := abs_le.mp (not_lt.mp hcon)
    have h1 : (N : ℝ) < 1 := by linarith [h.1]
    have h2 : (0 : ℝ) < N := by linarith [h.2]
    have h1' : N < 1 := by exact_mod_cast h1
    have h2' : 0 < N := by exact_mod_cast h2
    omega
  unfold Dec.atanDepth
  split
  · rename_i h
    rw [L.isZero] at h
    refine ⟨_, rfl, ?_⟩
    rw [h, v0]
    norm_num
    refine ⟨by norm_num, fun N hN => ?_, by norm_num⟩
    have : (0 : ℤ) = N := int_eq_of_near (by push_cast; linarith)
    rw [← this]
    norm_num
  split
  · rename_i h
    rw [L.isOne] at h
    refine ⟨_, rfl, ?_⟩
    rw [h]
    push_cast
    rw [Real.arctan_one]
    refine ⟨hp.trans (by norm_num), fun N hN => ?_, fun _ => hp.trans (by norm_num)⟩
    linarith [hquarter N]
  split
  · rename_i h
    rw [L.eq, vm] at h
    refine ⟨_, rfl, ?_⟩
    rw [h, L.neg]
    push_cast
    rw [Real.arctan_neg, Real.arctan_one]
    have hp' : |(-(L.val d.piQuarter) - -(Real.pi / 4) : ℝ)| ≤ 1 / 10 ^ 27 := by
      rw [abs_sub_comm, show (-(Real.pi / 4) - -(L.val d.piQuarter) : ℝ) = L.val d.piQuarter - Real.pi / 4 by ring]
      exact hp
    have hq' : ∀ N : ℤ, 1 / 10 < |-(Real.pi / 4) - N| := by
      intro N
      have := hquarter (-N)
      rw [← abs_neg] at this
      push_cast at this
      rw [show -(Real.pi / 4 - -(N : ℝ)) = -(Real.pi / 4) - N by ring] at this
      exact this
    refine ⟨?_, fun N hN => ?_, fun _ => ?_⟩
    · push_cast; exact hp'.trans (by norm_num)
    · linarith [hq' N]
    · push_cast; exact hp'.trans (by norm_num)
  split
  · rename_i h
    rw [L.lt, vm] at h
    linarith [hxb.1]
  split
  · rename_i h
    rw [L.lt, v1] at h
    linarith [hxb.2]
  have v3 : L.val d.two = 2 := L.nat_val (n := 2) (by decide)
  have v4 : L.val (d.nat Dec.iterations) = 100 := L.nat_val (n := 100) (by decide)
  obtain ⟨t, ht, htv⟩ := L.cmul (x := d.two) (y := d.nat Dec.iterations) (by rw [v3, v4]; decide +kernel)
  rw [v3, v4] at htv
  have ht' : d.mul d.two (d.nat Dec.iterations) = .ok t := by simp [Dec.mul, ht, Res.unwrapNone]
  obtain ⟨c, hc, hcv⟩ := L.csub (x := t) (y := d.one) (by rw [htv, v1]; decide +kernel)
  rw [htv, v1] at hcv
  have hc' : d.sub t d.one = .ok c := by simp [Dec.sub, hc, Res.unwrapNone]
  have hcv' : L.val c = 199 := by rw [hcv]; norm_num
  obtain ⟨r, hr, hr1, nr⟩ := L.atanLoop_near hxR 99 c (by decide) (by rw [hcv']; norm_num) (by
    rw [hcv', atanFrac_rec]
    have hA := atanFrac_ge (L.val x) (99 + 1)
    push_cast at hA ⊢
    generalize atanFrac (L.val x) (99 + 1) = A at *
    have hA0 : 0 < A := by linarith
    have hs : (((99 : ℝ) + 1) * L.val x) ^ 2 ≤ 10000 := by
      rw [mul_pow, ← sq_abs (L.val x : ℝ)]
      nlinarith [abs_nonneg (L.val x : ℝ)]
    have h1 : (((99 : ℝ) + 1) * L.val x) ^ 2 / A ≤ 50 := by
      rw [div_le_iff₀ hA0]
      linarith
    have h2 : 0 ≤ (((99 : ℝ) + 1) * L.val x) ^ 2 / A := by positivity
    rw [abs_le]
    constructor <;> norm_num <;> norm_num at h1 h2 <;> linarith)
  have hr1R : (1 : ℝ) ≤ L.val r := by exact_mod_cast hr1
  have hr0 : (0 : ℝ) < L.val r := by linarith
  have hdiv : |(L.val x / L.val r : ℝ)| ≤ 1 := by
    rw [abs_div, abs_of_pos hr0, div_le_one hr0]
    linarith
  obtain ⟨q, hq, nq, -⟩ := L.div_real (x := x) (y := r) (a := 1) hr0.ne' (by norm_num) (by push_cast; exact hdiv) (by norm_num)
  push_cast at nq
  obtain ⟨w, hw, hws⟩ := L.snapped_approx (S := q) (v := Real.arctan (L.val x)) (by
    rw [← atanFrac_zero]
    have hA := atanFrac_ge (L.val x) 0
    push_cast at hA
    generalize atanFrac (L.val x) 0 = A at *
    have hA1 : 1 ≤ A := by linarith
    have e1 : (L.val q : ℝ) - L.val x / A = (L.val q - L.val x / L.val r) + L.val x * (A - L.val r) / (L.val r * A) := by
      field_simp
      ring
    rw [e1]
    refine (abs_add_le _ _).trans ?_
    have h2 : |(L.val x * (A - L.val r) / (L.val r * A) : ℝ)| ≤ 3 / 10 ^ 23 := by
      rw [abs_div, abs_of_pos (show (0 : ℝ) < L.val r * A by positivity), div_le_iff₀ (by positivity), abs_mul, abs_sub_comm A]
      have h3 : (1 : ℝ) ≤ L.val r * A := by nlinarith
      have := mul_le_mul hxR nr (abs_nonneg _) (by norm_num)
      nlinarith
    linarith)
  refine ⟨w, ?_, hws⟩
  simp only [Res.bind_eq, ht', Res.bind_ok, hc', show Dec.iterations - 1 = 99 from rfl, hr, hq, hw]

omit L in
theorem arctan_lipschitz (x y : ℝ) : |Real.arctan x - Real.arctan y| ≤ |x - y| := by
  have h := Convex.norm_image_sub_le_of_norm_hasDerivWithin_le (f := Real.arctan) (f' := fun x => 1 / (1 + x ^ 2)) (s := Set.univ) (C := 1)
    (fun x _ => (Real.hasDerivAt_arctan x).hasDerivWithinAt) (fun x _ => by
      rw [Real.norm_eq_abs, abs_of_nonneg (by positivity), div_le_one (by positivity)]
      nlinarith [sq_nonneg x]) convex_univ (Set.mem_univ y) (Set.mem_univ x)
  simpa using h

/-- The arctangent. -/
theorem atan_near (x : D) : ∃ z, d.atan x = .ok z ∧ |(L.val z : ℝ) - Real.arctan (L.val x)| ≤ 3 / 10 ^ 16 := by
  by_cases hx : |L.val x| ≤ 1
  · obtain ⟨z, hz, hs, -⟩ := L.atan_small_near 2 hx
    exact ⟨z, hz, hs.trans (by norm_num)⟩
  have v0 : L.val d.zero = 0 := L.nat_val (n := 0) (by decide)
  have v1 : L.val d.one = 1 := L.nat_val (n := 1) (by decide)
  have vm : L.val d.oneMinus = -1 := by rw [L.oneMinus]; norm_num
  rw [not_le] at hx
  have hx0 : L.val x ≠ 0 := by intro h; rw [h] at hx; norm_num at hx
  have hx0R : (L.val x : ℝ) ≠ 0 := by exact_mod_cast hx0
  have hxi : |L.val d.one / L.val x| ≤ 1 := by
    rw [v1, abs_div, abs_one, div_le_one (by linarith)]
    exact hx.le
  obtain ⟨y, hy, ny, ry⟩ := L.div_real (x := d.one) (y := x) (a := 1) hx0R (by norm_num) (by
    have := (Rat.cast_le (K := ℝ)).mpr hxi
    push_cast at this ⊢
    exact this) (by norm_num)
  have hyb : |L.val y| ≤ 1 := by
    have := ry.bounded (b := 1) (by exact_mod_cast representable_nat (n := 1) (by decide)) (abs_le.mp hxi)
    exact abs_le.mpr this
  obtain ⟨a, ha, hs, -⟩ := L.atan_small_near 1 hyb
  rw [v1] at ny
  push_cast at ny
  have hlip := arctan_lipschitz (L.val y) (1 / L.val x)
  have hyR : |(L.val y : ℝ)| ≤ 1 := by
    have := (Rat.cast_le (K := ℝ)).mpr hyb
    push_cast at this
    exact this
  have na : |(L.val a : ℝ) - Real.arctan (1 / L.val x)| ≤ 21 / 10 ^ 17 := by
    have := abs_sub_le (L.val a : ℝ) (Real.arctan (L.val y)) (Real.arctan (1 / L.val x))
    linarith
  have hph := L.piHalf_real
  have hpi := Real.pi_gt_d2
  have hpi' := Real.pi_lt_d2
  have hab : |(L.val a : ℝ)| ≤ 3 := by
    have h1 := Real.arctan_lt_pi_div_two (L.val y)
    have h2 := Real.neg_pi_div_two_lt_arctan (L.val y)
    have h3 := abs_le.mp hs
    rw [abs_le]
    constructor <;> linarith [h3.1, h3.2]
  have e1 : d.isZero x = false := by rw [← Bool.not_eq_true, L.isZero]; exact hx0
  have e2 : d.isOne x = false := by
    rw [← Bool.not_eq_true, L.isOne]
    intro h
    rw [h] at hx
    norm_num at hx
  have e3 : d.eq x d.oneMinus = false := by
    rw [← Bool.not_eq_true, L.eq, vm]
    intro h
    rw [h] at hx
    norm_num at hx
  rcases lt_abs.mp hx with hpos | hneg
  · have e4 : d.lt x d.oneMinus = false := by rw [← Bool.not_eq_true, L.lt, vm]; linarith
    have e5 : d.lt d.one x = true := by rw [L.lt, v1]; exact hpos
    have hposR : (0 : ℝ) < L.val x := by
      have : (0 : Rat) < L.val x := by linarith
      exact_mod_cast this
    obtain ⟨z, hz, nz, -⟩ := L.sub_real (x := d.piHalf) (y := a) (a := 10) (by norm_num) (by
      rw [abs_le] at hph hab ⊢
      push_cast
      constructor <;> linarith [hph.1, hph.2, hab.1, hab.2]) (by norm_num)
    refine ⟨z, ?_, ?_⟩
    · simp only [Dec.atan, Dec.atanDepth, Res.bind_eq] at ha ⊢
      simp only [e1, e2, e3, e4, e5, hy, Res.bind_ok, if_false, if_true, Bool.false_eq_true]
      erw [ha]
      rw [Res.bind_ok, hz]
    · have e : Real.arctan (L.val x) = Real.pi / 2 - Real.arctan (1 / L.val x) := by
        rw [one_div, Real.arctan_inv_of_pos hposR]
        ring
      rw [e]
      push_cast at nz
      rw [abs_le] at nz na hph ⊢
      constructor <;> linarith [nz.1, nz.2, na.1, na.2, hph.1, hph.2]
  · have e4 : d.lt x d.oneMinus = true := by rw [L.lt, vm]; linarith
    have hnegR : (L.val x : ℝ) < 0 := by
      have : L.val x < (0 : Rat) := by linarith
      exact_mod_cast this
    have vn : ((L.val (d.neg d.piHalf) : ℚ) : ℝ) = -(L.val d.piHalf : ℝ) := by rw [L.neg]; push_cast; rfl
    obtain ⟨z, hz, nz, -⟩ := L.sub_real (x := d.neg d.piHalf) (y := a) (a := 10) (by norm_num) (by
      rw [vn]
      rw [abs_le] at hph hab ⊢
      push_cast
      constructor <;> linarith [hph.1, hph.2, hab.1, hab.2]) (by norm_num)
    refine ⟨z, ?_, ?_⟩
    · simp only [Dec.atan, Dec.atanDepth, Res.bind_eq] at ha ⊢
      simp only [e1, e2, e3, e4, hy, Res.bind_ok, if_false, if_true, Bool.false_eq_true]
      erw [ha]
      rw [Res.bind_ok, hz]
    · have e : Real.arctan (L.val x) = -(Real.pi / 2) - Real.arctan (1 / L.val x) := by
        rw [one_div, Real.arctan_inv_of_neg hnegR]
        ring
      rw [e]
      rw [vn] at nz
      push_cast at nz
      rw [abs_le] at nz na hph ⊢
      constructor <;> linarith [nz.1, nz.2, na.1, na.2, hph.1, hph.2]

end Dec.Laws
end Prexel
