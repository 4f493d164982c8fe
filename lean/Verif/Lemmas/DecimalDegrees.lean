import Verif.Lemmas.DecimalTrig
/-!
# Trigonometric functions of degrees
-/

set_option linter.unusedVariables false

namespace Prexel
variable {D F : Type} {d : Dec D F}

/-- Multiples of an eighth of a turn are far from whole numbers. -/
theorem eighth_gap {m : ℤ} (h0 : m ≠ 0) (hm : |m| ≤ 3 * 10 ^ 9) (N : ℤ) : 1 / 10 ^ 11 < |m * Real.pi / 4 - N| := by
  have hI : 1 ≤ |m * 21053343141 - 2 * N * 13402974518| := by
    refine Int.one_le_abs fun h => ?_
    have hd : (13402974518 : ℤ) ∣ m * 21053343141 := ⟨2 * N, by linarith⟩
    have hc : IsCoprime (13402974518 : ℤ) 21053343141 := by
      rw [Int.isCoprime_iff_gcd_eq_one]; decide +kernel
    have := Int.le_of_dvd (abs_pos.mpr h0) ((dvd_abs _ _).mpr (hc.dvd_of_dvd_mul_right hd))
    omega
  have hR : (1 : ℝ) ≤ |(m : ℝ) * 21053343141 - 2 * N * 13402974518| := by exact_mod_cast hI
  have hm' : |(m : ℝ)| ≤ 3 * 10 ^ 9 := by exact_mod_cast hm
  have hp : |Real.pi / 2 - 21053343141 / 13402974518| ≤ 2 / 10 ^ 22 := by
    have := pi_near
    rw [abs_le] at this ⊢
    constructor <;> linarith [this.1, this.2]
  have e : (m : ℝ) * 21053343141 - 2 * N * 13402974518 =
      13402974518 * (2 * (m * Real.pi / 4 - N) - m * (Real.pi / 2 - 21053343141 / 13402974518)) := by ring
  rw [e, abs_mul, abs_of_pos (show (0 : ℝ) < 13402974518 by norm_num)] at hR
  have h1 : |2 * (m * Real.pi / 4 - N) - m * (Real.pi / 2 - 21053343141 / 13402974518)| ≤ 2 * |m * Real.pi / 4 - N| + 3 * 10 ^ 9 * (2 / 10 ^ 22) := by
    refine (abs_sub _ _).trans ?_
    rw [abs_mul, abs_mul, abs_of_pos (show (0 : ℝ) < 2 by norm_num)]
    exact add_le_add le_rfl (mul_le_mul hm' hp (abs_nonneg _) (by norm_num))
  nlinarith

/-- At multiples of a quarter turn the sine and the cosine are whole numbers. -/
theorem quarter_int (m : ℤ) : (∃ N : ℤ, Real.sin (m * Real.pi / 2) = N) ∧ ∃ N : ℤ, Real.cos (m * Real.pi / 2) = N := by
  have hz : ∀ k : ℤ, ∃ N : ℤ, ((-1 : ℝ)) ^ k = N := fun k => by
    rcases Int.even_or_odd k with h | h
    · exact ⟨1, by rw [h.neg_one_zpow]; simp⟩
    · exact ⟨-1, by rw [h.neg_one_zpow]; simp⟩
  rcases Int.even_or_odd' m with ⟨k, h | h⟩
  · have e : (m : ℝ) * Real.pi / 2 = k * Real.pi := by rw [h]; push_cast; ring
    rw [e, Real.sin_int_mul_pi, Real.cos_int_mul_pi]
    exact ⟨⟨0, by simp⟩, hz k⟩
  · have e : (m : ℝ) * Real.pi / 2 = k * Real.pi + Real.pi / 2 := by rw [h]; push_cast; ring
    rw [e, Real.sin_add_pi_div_two, Real.cos_add_pi_div_two, Real.sin_int_mul_pi, Real.cos_int_mul_pi]
    exact ⟨hz k, 0, by simp⟩

/-- `Snapped` with slightly larger errors. -/
def Near (v : ℝ) (q : Rat) : Prop := |(q : ℝ) - v| ≤ 21 / 10 ^ 17 ∧ (∀ N : ℤ, |v - N| ≤ 8 / 10 ^ 17 → q = N) ∧
  ((∀ N : ℤ, 3 / 10 ^ 16 < |v - N|) → |(q : ℝ) - v| ≤ 2 / 10 ^ 18)

theorem Snapped.near {v v' : ℝ} {q : Rat} (h : Snapped v q) (hv : |v' - v| ≤ 1 / 10 ^ 18) : Near v' q := by
  obtain ⟨h1, h2, h3⟩ := h
  refine ⟨?_, fun N hN => h2 N ?_, fun hf => ?_⟩
  · have e : (q : ℝ) - v' = (q - v) + -(v' - v) := by ring
    rw [e]
    refine (abs_add_le _ _).trans ?_
    rw [abs_neg]
    exact (add_le_add h1 hv).trans (by norm_num)
  · have e : v - N = (v' - N) + -(v' - v) := by ring
    rw [e]
    refine (abs_add_le _ _).trans ?_
    rw [abs_neg]
    exact (add_le_add hN hv).trans (by norm_num)
  · have e : (q : ℝ) - v' = (q - v) + -(v' - v) := by ring
    rw [e]
    refine (abs_add_le _ _).trans ?_
    rw [abs_neg]
    refine (add_le_add (h3 fun N => ?_) hv).trans (by norm_num)
    have e2 : v' - N = (v - N) + (v' - v) := by ring
    have := hf N
    rw [e2] at this
    have := this.trans_le (abs_add_le _ _)
    linarith

namespace Dec.Laws
variable (L : d.Laws)
include L

theorem turn_real {x r : D} (hx : |(L.val x : ℝ)| ≤ 2 * 10 ^ 9) (hr : d.rem x d.pi2 = .ok r) :
    |Real.sin (L.val x) - Real.sin (L.val r)| ≤ 1 / 10 ^ 18 ∧ |Real.cos (L.val x) - Real.cos (L.val r)| ≤ 1 / 10 ^ 18 := by
  obtain ⟨r', hr', -, w, hw, hv⟩ := L.turn x
  rw [hr] at hr'
  cases hr'
  have hd : |((L.val x : ℝ) - w * (2 * Real.pi)) - L.val r| ≤ 1 / 10 ^ 18 := by
    have e : ((L.val x : ℝ) - w * (2 * Real.pi)) - L.val r = w * (L.val d.pi2 - 2 * Real.pi) := by rw [hv]; ring
    rw [e, abs_mul]
    refine (mul_le_mul (hw.trans (div_le_div_of_nonneg_right hx (by norm_num))) L.pi2_real (abs_nonneg _) (by norm_num)).trans (by norm_num)
  constructor
  · rw [← Real.sin_sub_int_mul_two_pi _ w]
    exact (Real.abs_sin_sub_sin_le _ _).trans hd
  · rw [← Real.cos_sub_int_mul_two_pi _ w]
    exact (Real.abs_cos_sub_cos_le _ _).trans hd

theorem sin_near {x : D} (hx : |(L.val x : ℝ)| ≤ 2 * 10 ^ 9) : ∃ z, d.sin x = .ok z ∧ Near (Real.sin (L.val x)) (L.val z) := by
  obtain ⟨r, z, hr, hz, h⟩ := L.sin_snapped x
  exact ⟨z, hz, h.near (L.turn_real hx hr).1⟩

theorem cos_near {x : D} (hx : |(L.val x : ℝ)| ≤ 2 * 10 ^ 9) : ∃ z, d.cos x = .ok z ∧ Near (Real.cos (L.val x)) (L.val z) := by
  obtain ⟨r, z, hr, hz, h⟩ := L.cos_snapped x
  exact ⟨z, hz, h.near (L.turn_real hx hr).2⟩

/-- Conversion to radians: near whole numbers the result is that number, elsewhere it is accurate. -/
theorem toRadians_near {x : D} {b : Rat} (hb : 1 ≤ b) (hb' : b ≤ 10 ^ 11) (hx : |L.val x| ≤ b) : ∃ y, d.toRadians x = .ok y ∧
    |(L.val y : ℝ) - L.val x * Real.pi / 180| ≤ 15 / 10 ^ 17 ∧
    ((∀ N : ℤ, 15 / 10 ^ 17 < |(L.val x : ℝ) * Real.pi / 180 - N|) → |(L.val y : ℝ) - L.val x * Real.pi / 180| ≤ 42 / 10 ^ 29 * b) ∧
    (∀ N : ℤ, |(L.val x : ℝ) * Real.pi / 180 - N| ≤ 3 / 10 ^ 17 → L.val y = N) := by
  have u : unit = 2 / 10 ^ 28 := rfl
  have hpi : L.val d.pi = 31415926535897932384626433833 / 10 ^ 28 := by
    have := L.pi
    rw [eq_div_iff (by norm_num)]
    push_cast at this
    exact this
  have v180 : L.val (d.nat 180) = 180 := L.nat_val (n := 180) (by decide)
  obtain ⟨k, hk, nk, -⟩ := L.div_near (x := d.pi) (y := d.nat 180) (a := 1) (by rw [v180]; norm_num) (by norm_num)
    (by rw [v180, hpi, abs_of_pos] <;> norm_num) (by norm_num)
  rw [v180, u] at nk
  have kb : |L.val k| ≤ 2 / 100 := by
    rw [hpi] at nk
    rw [abs_le] at nk ⊢
    constructor <;> linarith [nk.1, nk.2]
  have xk : |L.val x * L.val k| ≤ 2 / 100 * b := by
    rw [abs_mul, mul_comm]
    exact mul_le_mul kb hx (abs_nonneg _) (by norm_num)
  obtain ⟨y0, hy0, ny0, -⟩ := L.mul_near (x := x) (y := k) (a := 1 + 2 / 100 * b) (by linarith) (by linarith) (by linarith)
  obtain ⟨y, hy, ny, hc⟩ := L.approx_near y0
  rw [u] at ny0
  have R : ∀ {a b : Rat}, a ≤ b → (a : ℝ) ≤ b := fun h => (Rat.cast_le (K := ℝ)).mpr h
  have bR := R hb
  have bR' := R hb'
  have nkR := R nk
  have nyR := R ny
  have ny0R := R ny0
  have hxR := R hx
  push_cast at nkR nyR ny0R hxR bR bR'
  have hkR : |(L.val k : ℝ) - Real.pi / 180| ≤ 21 / 10 ^ 29 := by
    have hp := L.pi_real
    rw [abs_le] at hp nkR ⊢
    constructor <;> linarith [hp.1, hp.2, nkR.1, nkR.2]
  have h0 : |(L.val y0 : ℝ) - L.val x * Real.pi / 180| ≤ 42 / 10 ^ 29 * b := by
    have e : (L.val y0 : ℝ) - L.val x * Real.pi / 180 = (L.val y0 - L.val x * L.val k) + L.val x * (L.val k - Real.pi / 180) := by ring
    rw [e]
    refine (abs_add_le _ _).trans ?_
    rw [abs_mul]
    have := mul_le_mul hxR hkR (abs_nonneg _) (by linarith)
    linarith
  have h0' : |(L.val y0 : ℝ) - L.val x * Real.pi / 180| ≤ 42 / 10 ^ 18 := by linarith
  have tri : ∀ {a b c s t : ℝ}, |a - b| ≤ s → |b - c| ≤ t → |a - c| ≤ s + t := fun h1 h2 =>
    (abs_sub_le _ _ _).trans (add_le_add h1 h2)
  refine ⟨y, by simp only [Dec.toRadians, Res.bind_eq, hk, Res.bind_ok, hy0, hy], (tri nyR h0').trans (by norm_num), fun hf => ?_, fun N hN => ?_⟩
  · rcases hc with ⟨n, hn⟩ | ⟨rfl, -⟩
    · have h1 := tri nyR h0'
      have h2 := hf n
      rw [hn, abs_sub_comm] at h1
      push_cast at h1
      exact absurd (h2.trans_le h1) (by norm_num)
    · exact h0
  · have h1 := tri h0' hN
    rcases hc with ⟨n, hn⟩ | ⟨-, hfar⟩
    · have h2 := tri nyR h1
      rw [hn] at h2 ⊢
      push_cast at h2
      rw [int_eq_of_near (h2.trans_lt (by norm_num))]
    · have := R (hfar N)
      push_cast at this
      exact absurd (this.trans h1) (by norm_num)

theorem radians_range {x y : D} (hx : |L.val x| ≤ 10 ^ 11) (h : |(L.val y : ℝ) - L.val x * Real.pi / 180| ≤ 15 / 10 ^ 17) :
    |(L.val y : ℝ)| ≤ 2 * 10 ^ 9 := by
  have hxR := (Rat.cast_le (K := ℝ)).mpr hx
  push_cast at hxR
  have p := Real.pi_lt_d2
  have : |(L.val x : ℝ) * Real.pi / 180| ≤ 10 ^ 11 * 3.15 / 180 := by
    rw [abs_div, abs_mul, abs_of_pos Real.pi_pos, abs_of_pos (show (0 : ℝ) < 180 by norm_num)]
    exact div_le_div_of_nonneg_right (mul_le_mul hxR p.le Real.pi_pos.le (by norm_num)) (by norm_num)
  rw [abs_le] at *
  constructor <;> linarith [h.1, h.2, this.1, this.2]

/-- What `sin` and `cos` of a number of degrees are. -/
theorem trig_near {x : D} (hx : |L.val x| ≤ 10 ^ 11) : ∃ y s c, d.toRadians x = .ok y ∧ d.sin y = .ok s ∧ d.cos y = .ok c ∧
    |(L.val s : ℝ) - Real.sin (L.val x * Real.pi / 180)| ≤ 4 / 10 ^ 16 ∧ |(L.val c : ℝ) - Real.cos (L.val x * Real.pi / 180)| ≤ 4 / 10 ^ 16 ∧
    (∀ m : ℤ, L.val x = 90 * m → (L.val s : ℝ) = Real.sin (L.val x * Real.pi / 180) ∧ (L.val c : ℝ) = Real.cos (L.val x * Real.pi / 180)) ∧
    (∀ m : ℤ, L.val x = 45 + 90 * m → |L.val x| ≤ 10 ^ 10 →
      |(L.val s : ℝ) - Real.sin (L.val x * Real.pi / 180)| ≤ 8 / 10 ^ 18 ∧ |(L.val c : ℝ) - Real.cos (L.val x * Real.pi / 180)| ≤ 8 / 10 ^ 18) := by
  obtain ⟨y, hy, hn, hacc, hz⟩ := L.toRadians_near (b := 10 ^ 11) (by norm_num) le_rfl hx
  have hr := L.radians_range hx hn
  obtain ⟨s, hs, s1, s2, s3⟩ := L.sin_near hr
  obtain ⟨c, hc, c1, c2, c3⟩ := L.cos_near hr
  have tri : ∀ {a b c s t : ℝ}, |a - b| ≤ s → |b - c| ≤ t → |a - c| ≤ s + t := fun h1 h2 =>
    (abs_sub_le _ _ _).trans (add_le_add h1 h2)
  have ds := Real.abs_sin_sub_sin_le (L.val y : ℝ) (L.val x * Real.pi / 180)
  have dc := Real.abs_cos_sub_cos_le (L.val y : ℝ) (L.val x * Real.pi / 180)
  refine ⟨y, s, c, hy, hs, hc, (tri s1 (ds.trans hn)).trans (by norm_num), (tri c1 (dc.trans hn)).trans (by norm_num), fun m hm => ?_, fun m hm h10 => ?_⟩
  · have e : (L.val x : ℝ) * Real.pi / 180 = m * Real.pi / 2 := by rw [hm]; push_cast; ring
    have hyn : |(L.val y : ℝ) - L.val x * Real.pi / 180| ≤ 42 / 10 ^ 18 := by
      by_cases h0 : m = 0
      · subst h0
        have := hz 0 (by rw [e]; norm_num)
        rw [this, e]
        norm_num
      · refine (hacc fun N => ?_).trans (by norm_num)
        rw [e]
        have hb : |2 * m| ≤ 3 * 10 ^ 9 := by
          rw [hm] at hx
          have h1 : |(m : Rat)| ≤ ((1200000000 : ℤ) : Rat) := by
            rw [abs_mul, abs_of_pos (show (0 : Rat) < 90 by norm_num)] at hx
            push_cast
            linarith
          have h2 : |m| ≤ 1200000000 := by exact_mod_cast h1
          rw [abs_mul]
          simp only [Nat.abs_ofNat]
          omega
        have := eighth_gap (m := 2 * m) (by omega) hb N
        push_cast at this
        have e2 : (2 * (m : ℝ)) * Real.pi / 4 = m * Real.pi / 2 := by ring
        rw [e2] at this
        exact lt_trans (by norm_num) this
    obtain ⟨⟨Ns, hNs⟩, ⟨Nc, hNc⟩⟩ := quarter_int m
    have ds' := ds.trans hyn
    have dc' := dc.trans hyn
    rw [e] at ds' dc' ⊢
    rw [hNs] at ds' ⊢
    rw [hNc] at dc' ⊢
    rw [s2 Ns (ds'.trans (by norm_num)), c2 Nc (dc'.trans (by norm_num))]
    exact ⟨by push_cast; rfl, by push_cast; rfl⟩
  · have e : (L.val x : ℝ) * Real.pi / 180 = (2 * m + 1 : ℤ) * Real.pi / 4 := by rw [hm]; push_cast; ring
    obtain ⟨y', hy', -, hacc', -⟩ := L.toRadians_near (b := 10 ^ 10) (by norm_num) (by norm_num) h10
    rw [hy] at hy'
    cases hy'
    have hyn : |(L.val y : ℝ) - L.val x * Real.pi / 180| ≤ 42 / 10 ^ 19 := by
      refine (hacc' fun N => ?_).trans (by norm_num)
      rw [e]
      have hb : |2 * m + 1| ≤ 3 * 10 ^ 9 := by
        have e' : L.val x = 45 * ((2 * m + 1 : ℤ) : Rat) := by rw [hm]; push_cast; ring
        rw [e'] at hx
        have h1 : |((2 * m + 1 : ℤ) : Rat)| ≤ ((2500000000 : ℤ) : Rat) := by
          rw [abs_mul, abs_of_pos (show (0 : Rat) < 45 by norm_num)] at hx
          push_cast at hx ⊢
          linarith
        have h2 : |2 * m + 1| ≤ 2500000000 := by exact_mod_cast h1
        omega
      exact lt_trans (by norm_num) (eighth_gap (m := 2 * m + 1) (by omega) hb N)
    have hsq : Real.sin (L.val x * Real.pi / 180) ^ 2 = 1 / 2 ∧ Real.cos (L.val x * Real.pi / 180) ^ 2 = 1 / 2 := by
      have h2 := Real.cos_two_mul ((L.val x : ℝ) * Real.pi / 180)
      have e2 : 2 * ((L.val x : ℝ) * Real.pi / 180) = m * Real.pi + Real.pi / 2 := by rw [e]; push_cast; ring
      rw [e2, Real.cos_add_pi_div_two, Real.sin_int_mul_pi] at h2
      have h3 := Real.sin_sq_add_cos_sq ((L.val x : ℝ) * Real.pi / 180)
      constructor <;> linarith
    have far : ∀ {a b : ℝ}, |a - b| ≤ 42 / 10 ^ 19 → b ^ 2 = 1 / 2 → ∀ N : ℤ, 3 / 10 ^ 16 < |a - N| := by
      intro a b h hb N
      by_contra hlt
      have h4 := tri (abs_sub_comm a b ▸ h) (not_lt.mp hlt)
      rw [abs_le] at h4
      rcases lt_trichotomy N 0 with hN | rfl | hN
      · have : (N : ℝ) ≤ -1 := by exact_mod_cast (show N ≤ -1 by omega)
        nlinarith [h4.1, h4.2]
      · push_cast at h4
        nlinarith [h4.1, h4.2]
      · have : (1 : ℝ) ≤ N := by exact_mod_cast (show 1 ≤ N by omega)
        nlinarith [h4.1, h4.2]
    exact ⟨(tri (s3 (far (ds.trans hyn) hsq.1)) (ds.trans hyn)).trans (by norm_num), (tri (c3 (far (dc.trans hyn) hsq.2)) (dc.trans hyn)).trans (by norm_num)⟩

/-- What `tan` of a number of degrees is. -/
theorem tan_near {x : D} (hx : |L.val x| ≤ 10 ^ 11) (hc : 1 / 10 ^ 8 ≤ |Real.cos (L.val x * Real.pi / 180)|) : ∃ y z, d.toRadians x = .ok y ∧
    d.tan y = .ok z ∧ |(L.val z : ℝ) - Real.tan (L.val x * Real.pi / 180)| ≤ 1 / 10 ^ 15 / Real.cos (L.val x * Real.pi / 180) ^ 2 ∧
    (∀ m : ℤ, L.val x = 45 * m → |L.val x| ≤ 10 ^ 10 → (L.val z : ℝ) = Real.tan (L.val x * Real.pi / 180)) := by
  obtain ⟨y, s, c, hy, hs, hcc, ns, nc, h90, h45⟩ := L.trig_near hx
  refine ⟨y, ?_⟩
  have R : ∀ {a b : Rat}, a ≤ b → (a : ℝ) ≤ b := fun h => (Rat.cast_le (K := ℝ)).mpr h
  generalize hS : Real.sin (L.val x * Real.pi / 180) = S at *
  generalize hC : Real.cos (L.val x * Real.pi / 180) = C at *
  have hT : Real.tan (L.val x * Real.pi / 180) = S / C := by rw [Real.tan_eq_sin_div_cos, hS, hC]
  have hS1 : |S| ≤ 1 := hS ▸ Real.abs_sin_le_one _
  have hC1 : |C| ≤ 1 := hC ▸ Real.abs_cos_le_one _
  have hC0 : C ≠ 0 := fun h => by rw [h] at hc; norm_num at hc
  have hsR : |(L.val s : ℝ)| ≤ 11 / 10 := by
    have := abs_sub_abs_le_abs_sub (L.val s : ℝ) S
    linarith
  have hcR : |C| * (99 / 100) ≤ |(L.val c : ℝ)| := by
    have := abs_sub_abs_le_abs_sub C (L.val c : ℝ)
    rw [abs_sub_comm] at this
    linarith
  have hc9 : 99 / 10 ^ 10 ≤ |(L.val c : ℝ)| := by linarith
  have hc0 : L.val c ≠ 0 := fun h => by rw [h] at hc9; norm_num at hc9
  have hc0R : (L.val c : ℝ) ≠ 0 := by exact_mod_cast hc0
  have hq : |L.val s / L.val c| ≤ 2 * 10 ^ 8 := by
    have : ((|L.val s / L.val c| : Rat) : ℝ) ≤ ((2 * 10 ^ 8 : Rat) : ℝ) := by
      push_cast
      rw [abs_div, div_le_iff₀ (by linarith)]
      linarith
    exact (Rat.cast_le (K := ℝ)).mp this
  obtain ⟨q, hq, nq, rq⟩ := L.div_near hc0 (by norm_num) hq (by norm_num)
  obtain ⟨z, hz, nz, hzc⟩ := L.approx_near q
  have u : unit = 2 / 10 ^ 28 := rfl
  rw [u] at nq
  have nqR := R nq
  have nzR := R nz
  push_cast at nqR nzR
  have htan : d.tan y = .ok z := by
    have : ¬ d.isZero c = true := by rw [L.isZero]; exact hc0
    simp only [Dec.tan, Res.bind_eq, hcc, Res.bind_ok, this, hs, hq, hz]
    rfl
  have tri : ∀ {a b c s t : ℝ}, |a - b| ≤ s → |b - c| ≤ t → |a - c| ≤ s + t := fun h1 h2 =>
    (abs_sub_le _ _ _).trans (add_le_add h1 h2)
  have quot : ∀ {δ : ℝ}, |(L.val s : ℝ) - S| ≤ δ → |(L.val c : ℝ) - C| ≤ δ → |(L.val s : ℝ) / L.val c - S / C| ≤ 2 * δ * (100 / 99) / C ^ 2 := by
    intro δ h1 h2
    have e : (L.val s : ℝ) / L.val c - S / C = ((L.val s - S) * C - S * (L.val c - C)) / (L.val c * C) := by field_simp; ring
    have hn : |((L.val s : ℝ) - S) * C - S * (L.val c - C)| ≤ 2 * δ := by
      refine (abs_sub _ _).trans ?_
      rw [abs_mul, abs_mul]
      nlinarith [abs_nonneg ((L.val s : ℝ) - S), abs_nonneg ((L.val c : ℝ) - C), abs_nonneg S, abs_nonneg C]
    have hδ : 0 ≤ δ := (abs_nonneg _).trans h1
    have hpos : 0 < |C| := abs_pos.mpr hC0
    rw [e, abs_div, abs_mul, ← sq_abs C]
    rw [div_le_div_iff₀ (mul_pos (by linarith) hpos) (by positivity)]
    have h3 : |C| ^ 2 ≤ 100 / 99 * (|(L.val c : ℝ)| * |C|) := by nlinarith
    nlinarith [abs_nonneg (((L.val s : ℝ) - S) * C - S * (L.val c - C)), mul_le_mul hn h3 (by positivity) (by linarith)]
  have hC2 : 0 < C ^ 2 := by positivity
  have hC3 : C ^ 2 ≤ 1 := by rw [← sq_abs]; nlinarith [abs_nonneg C]
  refine ⟨z, hy, htan, ?_, fun m hm h10 => ?_⟩
  · rw [hT]
    refine (tri (tri nzR nqR) (quot ns nc)).trans ?_
    rw [le_div_iff₀ hC2, add_mul, div_mul_cancel₀ _ hC2.ne']
    nlinarith
  · rw [hT]
    rcases Int.even_or_odd' m with ⟨k, hk | hk⟩
    · obtain ⟨e1, e2⟩ := h90 k (by rw [hm, hk]; push_cast; ring)
      obtain ⟨⟨Ns, hNs⟩, ⟨Nc, hNc⟩⟩ := quarter_int k
      have e : (L.val x : ℝ) * Real.pi / 180 = k * Real.pi / 2 := by rw [hm, hk]; push_cast; ring
      rw [← e, hS] at hNs
      rw [← e, hC] at hNc
      have hsum := Real.sin_sq_add_cos_sq ((L.val x : ℝ) * Real.pi / 180)
      rw [hS, hC, hNs, hNc] at hsum
      have hsumI : Ns ^ 2 + Nc ^ 2 = 1 := by exact_mod_cast hsum
      have hNc0 : Nc ≠ 0 := fun h => hC0 (by rw [hNc, h]; simp)
      have hNs0 : Ns = 0 := by
        have : 1 ≤ Nc ^ 2 := by have := sq_nonneg Nc; have := pow_ne_zero 2 hNc0; omega
        have h2 : Ns ^ 2 = 0 := by have := sq_nonneg Ns; omega
        exact pow_eq_zero_iff (two_ne_zero) |>.mp h2
      have hs0 : L.val s = 0 := by
        have : (L.val s : ℝ) = 0 := by rw [e1, hNs, hNs0]; simp
        exact_mod_cast this
      rw [hs0, zero_div] at rq
      have hq0 : L.val q = 0 := rq.eq (representable_nat (n := 0) (by decide))
      have hz0 : L.val z = 0 := by
        rcases hzc with ⟨n, hn⟩ | ⟨-, hfar⟩
        · rw [hn, hq0] at nz
          have : |((n - 0 : ℤ) : ℝ)| < 1 := by
            have := R nz
            push_cast at this ⊢
            exact this.trans_lt (by norm_num)
          rw [hn, int_eq_of_near (a := n) (b := 0) (by push_cast at this ⊢; exact this)]
          simp
        · have := hfar 0
          rw [hq0] at this
          norm_num at this
      rw [hz0, hNs, hNs0]
      simp
    · obtain ⟨e1, e2⟩ := h45 k (by rw [hm, hk]; push_cast; ring) h10
      have e : 2 * ((L.val x : ℝ) * Real.pi / 180) = k * Real.pi + Real.pi / 2 := by rw [hm, hk]; push_cast; ring
      have h2 := Real.cos_two_mul ((L.val x : ℝ) * Real.pi / 180)
      rw [e, Real.cos_add_pi_div_two, Real.sin_int_mul_pi, hC] at h2
      have h3 := Real.sin_sq_add_cos_sq ((L.val x : ℝ) * Real.pi / 180)
      rw [hS, hC] at h3
      have hSC : ∃ N : ℤ, S / C = N := by
        have : (S - C) * (S + C) = 0 := by nlinarith
        rcases mul_eq_zero.mp this with h | h
        · exact ⟨1, by rw [div_eq_iff hC0]; push_cast; linarith⟩
        · exact ⟨-1, by rw [div_eq_iff hC0]; push_cast; linarith⟩
      obtain ⟨N, hN⟩ := hSC
      have hqN := tri nqR (quot e1 e2)
      have hCh : C ^ 2 = 1 / 2 := by linarith
      rw [hN, hCh] at hqN
      rw [hN]
      rcases hzc with ⟨n, hn⟩ | ⟨-, hfar⟩
      · have h5 := tri nzR hqN
        rw [hn] at h5 ⊢
        push_cast at h5 ⊢
        rw [int_eq_of_near (h5.trans_lt (by norm_num))]
      · have := R (hfar N)
        push_cast at this
        exact absurd (this.trans hqN) (by norm_num)

/-- The tangent of odd multiples of 90 degrees. -/
theorem tan_pole {x : D} (hx : |L.val x| ≤ 10 ^ 11) (m : ℤ) (hm : L.val x = 90 * (2 * m + 1)) : ∃ y, d.toRadians x = .ok y ∧ d.tan y = .err .overflow := by
  obtain ⟨y, s, c, hy, hs, hcc, ns, nc, h90, -⟩ := L.trig_near hx
  obtain ⟨-, e2⟩ := h90 (2 * m + 1) (by rw [hm]; push_cast; rfl)
  have e : (L.val x : ℝ) * Real.pi / 180 = m * Real.pi + Real.pi / 2 := by rw [hm]; push_cast; ring
  rw [e, Real.cos_add_pi_div_two, Real.sin_int_mul_pi, neg_zero] at e2
  have hc0 : L.val c = 0 := by exact_mod_cast e2
  have : d.isZero c = true := by rw [L.isZero]; exact hc0
  exact ⟨y, hy, by simp only [Dec.tan, Res.bind_eq, hcc, Res.bind_ok, this, if_true]⟩

end Dec.Laws
end Prexel
