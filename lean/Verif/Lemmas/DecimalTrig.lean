import Verif.Lemmas.PiDigits
import Verif.Lemmas.DecimalSin
/-!
# Accuracy of the trigonometric functions of decimals
-/

set_option linter.unusedVariables false

namespace Prexel
variable {D F : Type} {d : Dec D F}

/-- The number `q` is near `v`, equal to every whole number that `v` is very near to, and very near to `v` if that is near no whole number. -/
def Snapped (v : ℝ) (q : Rat) : Prop := |(q : ℝ) - v| ≤ 2 / 10 ^ 16 ∧ (∀ N : ℤ, |v - N| ≤ 9 / 10 ^ 17 → q = N) ∧
  ((∀ N : ℤ, 2 / 10 ^ 16 < |v - N|) → |(q : ℝ) - v| ≤ 1 / 10 ^ 18)

theorem int_eq_of_near {a b : ℤ} (h : |(a : ℝ) - b| < 1) : a = b := by
  have h' : |((a - b : ℤ) : ℝ)| < 1 := by push_cast; exact h
  rw [← Int.cast_abs] at h'
  have : |a - b| < 1 := by exact_mod_cast h'
  have := Int.abs_lt_one_iff.mp this
  omega

theorem Snapped.const {v : ℝ} {q : Rat} (n : ℤ) (hq : q = n) (h : |v - n| ≤ 15 / 10 ^ 17) : Snapped v q := by
  subst hq
  refine ⟨?_, ?_, fun hf => absurd (hf n) (not_lt.mpr (h.trans (by norm_num)))⟩
  · rw [abs_sub_comm]
    push_cast
    exact h.trans (by norm_num)
  · intro N hN
    have : n = N := int_eq_of_near (by
      have e : (n : ℝ) - N = -(v - n) + (v - N) := by ring
      rw [e]
      refine lt_of_le_of_lt (abs_add_le _ _) ?_
      rw [abs_neg]
      exact lt_of_le_of_lt (add_le_add h hN) (by norm_num))
    rw [this]

namespace Dec.Laws
variable (L : d.Laws)
include L

theorem snapped_approx {v : ℝ} {S : D} (h : |(L.val S : ℝ) - v| ≤ 1 / 10 ^ 18) : ∃ z, d.approx S = .ok z ∧ Snapped v (L.val z) := by
  obtain ⟨z, hz, hn, hc⟩ := L.approx_near S
  have hn' : |(L.val z : ℝ) - L.val S| ≤ 1 / 10 ^ 16 := by
    have := (Rat.cast_le (K := ℝ)).mpr hn
    push_cast at this
    exact this
  refine ⟨z, hz, ?_, ?_, ?_⟩
  · have e : (L.val z : ℝ) - v = (L.val z - L.val S) + (L.val S - v) := by ring
    rw [e]
    exact (abs_add_le _ _).trans ((add_le_add hn' h).trans (by norm_num))
  · intro N hN
    have hs : |(L.val S : ℝ) - N| ≤ 91 / 10 ^ 18 := by
      have e : (L.val S : ℝ) - N = (L.val S - v) + (v - N) := by ring
      rw [e]
      exact (abs_add_le _ _).trans ((add_le_add h hN).trans (by norm_num))
    rcases hc with ⟨n, hzn⟩ | ⟨-, hfar⟩
    · have : n = N := int_eq_of_near (by
        have e : (n : ℝ) - N = ((L.val z : ℝ) - L.val S) + (L.val S - N) := by rw [hzn]; push_cast; ring
        rw [e]
        exact lt_of_le_of_lt (abs_add_le _ _) (lt_of_le_of_lt (add_le_add hn' hs) (by norm_num)))
      rw [hzn, this]
    · have := (Rat.cast_le (K := ℝ)).mpr (hfar N)
      push_cast at this
      exact absurd (this.trans hs) (by norm_num)
  · intro hf
    rcases hc with ⟨n, hzn⟩ | ⟨hzS, -⟩
    · have h' := hf n
      have e : v - n = -((L.val S : ℝ) - v) + -((L.val z : ℝ) - L.val S) := by rw [hzn]; push_cast; ring
      rw [e] at h'
      have := (abs_add_le (-((L.val S : ℝ) - v)) (-((L.val z : ℝ) - L.val S)))
      rw [abs_neg, abs_neg] at this
      exact absurd (h'.trans_le (this.trans (add_le_add h hn'))) (by norm_num)
    · rw [hzS]; exact h

theorem abs_val (x : D) : L.val (d.abs x) = |L.val x| := by
  rw [L.abs]
  split
  · rw [abs_of_neg (by assumption)]
  · rw [abs_of_nonneg (by linarith)]

/-- Small differences are exact. -/
theorem representable_sub {x y : D} (h : |L.val x - L.val y| ≤ 7) : Representable (L.val x - L.val y) := by
  obtain ⟨s, hs, c, -, hc⟩ := L.range x
  obtain ⟨t, ht, b, -, hb⟩ := L.range y
  have e : (L.val x - L.val y) * ((10 : Int) ^ 28 : Int) = ((c * 10 ^ (28 - s) - b * 10 ^ (28 - t) : Int) : Rat) := by
    have e1 : (10000000000000000000000000000 : Rat) = 10 ^ s * 10 ^ (28 - s) := by rw [← pow_add, Nat.add_sub_cancel' hs]; norm_num
    have e2 : (10000000000000000000000000000 : Rat) = 10 ^ t * 10 ^ (28 - t) := by rw [← pow_add, Nat.add_sub_cancel' ht]; norm_num
    push_cast at hc hb ⊢
    rw [sub_mul]
    nth_rewrite 1 [e1]
    rw [e2, ← mul_assoc, ← mul_assoc, hc, hb]
  refine ⟨28, le_refl _, _, ?_, e⟩
  rw [abs_le] at h
  have h1 : ((c * 10 ^ (28 - s) - b * 10 ^ (28 - t) : Int) : Rat) ≤ ((7 * 10 ^ 28 : Int) : Rat) := by
    rw [← e]; push_cast; nlinarith [h.2]
  have h2 : ((-(7 * 10 ^ 28) : Int) : Rat) ≤ ((c * 10 ^ (28 - s) - b * 10 ^ (28 - t) : Int) : Rat) := by
    rw [← e]; push_cast; nlinarith [h.1]
  rw [Rat.intCast_le_intCast] at h1 h2
  omega

/-- The test whether two numbers are nearly equal. -/
theorem approxEq_near {x y : D} (h : |L.val x - L.val y| ≤ 20) :
    ∃ t, d.approxEq x y d.precision = .ok t ∧ (t = true → |(L.val x : ℝ) - L.val y| ≤ 11 / 10 ^ 17) ∧
      (|L.val x - L.val y| ≤ 1 → (t = true ↔ |L.val x - L.val y| < 1 / 10 ^ 16)) := by
  obtain ⟨z, hz, hn, hrd⟩ := L.sub_near (a := 20) (by norm_num) h (by norm_num)
  refine ⟨_, by simp only [Dec.approxEq, Res.bind_eq, hz, Res.bind_ok]; rfl, fun ht => ?_, fun h1 => ?_⟩
  rotate_left
  · have e := hrd.eq (L.representable_sub (h1.trans (by norm_num)))
    rw [L.lt, L.abs_val, e, L.precision]
    norm_num
  rw [L.lt, L.abs, L.precision] at ht
  have u : unit = 2 / 10 ^ 28 := rfl
  rw [u] at hn
  have hr : |L.val x - L.val y| ≤ 11 / 10 ^ 17 := by
    rw [abs_le] at hn ⊢
    split at ht <;> constructor <;> linarith [hn.1, hn.2]
  have := (Rat.cast_le (K := ℝ)).mpr hr
  push_cast at this
  exact this

theorem pi_real : |(L.val d.pi : ℝ) - Real.pi| ≤ 1 / 10 ^ 28 := by
  have h : L.val d.pi = 31415926535897932384626433833 / 10 ^ 28 := by
    have := L.pi
    rw [eq_div_iff (by norm_num)]
    push_cast at this
    exact this
  rw [h, abs_sub_comm]
  push_cast
  exact pi_near

theorem pi2_real : |(L.val d.pi2 : ℝ) - 2 * Real.pi| ≤ 2 / 10 ^ 28 := by
  have h : L.val d.pi2 = 62831853071795864769252867666 / 10 ^ 28 := by
    have := L.pi2
    rw [eq_div_iff (by norm_num)]
    push_cast at this
    exact this
  have hp := pi_near
  rw [h]
  push_cast
  rw [abs_le] at hp ⊢
  constructor <;> linarith [hp.1, hp.2]

theorem piHalf_real : |(L.val d.piHalf : ℝ) - Real.pi / 2| ≤ 1 / 10 ^ 27 := by
  have h : L.val d.piHalf = 15707963267948966192313216916 / 10 ^ 28 := by
    have := L.piHalf
    rw [eq_div_iff (by norm_num)]
    push_cast at this
    exact this
  have hp := pi_near
  rw [h]
  push_cast
  rw [abs_le] at hp ⊢
  constructor <;> linarith [hp.1, hp.2]

theorem pi3Half_real : |(L.val d.pi3Half : ℝ) - 3 * Real.pi / 2| ≤ 1 / 10 ^ 27 := by
  have h : L.val d.pi3Half = 47123889803846898576939650750 / 10 ^ 28 := by
    have := L.pi3Half
    rw [eq_div_iff (by norm_num)]
    push_cast at this
    exact this
  have hp := pi_near
  rw [h]
  push_cast
  rw [abs_le] at hp ⊢
  constructor <;> linarith [hp.1, hp.2]

/-- The remainder of the division by the full turn. -/
theorem turn (x : D) : ∃ r, d.rem x d.pi2 = .ok r ∧ |L.val r| ≤ 63 / 10 ∧ ∃ w : ℤ, |(w : ℝ)| ≤ |(L.val x : ℝ)| / 6 ∧
    (L.val r : ℝ) = L.val x - L.val d.pi2 * w := by
  have h2 : L.val d.pi2 = 62831853071795864769252867666 / 10 ^ 28 := by
    have := L.pi2
    rw [eq_div_iff (by norm_num)]
    push_cast at this
    exact this
  have hp : 0 < L.val d.pi2 := by rw [h2]; norm_num
  obtain ⟨r, hr, hv⟩ := L.rem x d.pi2 hp.ne'
  obtain ⟨-, hb⟩ := wholePart_rem (x := L.val x) hp.ne'
  rw [← hv, if_neg (by linarith)] at hb
  refine ⟨r, by simp [Dec.rem, Dec.crem, hr, Ops.orOverflow, Res.ofOption, Res.unwrapNone], ?_, wholePart (L.val x / L.val d.pi2), ?_, ?_⟩
  · rw [h2] at hb
    rw [abs_le]
    obtain ⟨h, h'⟩ := hb
    constructor <;> linarith
  · have hw : |(wholePart (L.val x / L.val d.pi2) : Rat)| ≤ |L.val x / L.val d.pi2| := by
      obtain ⟨w1, w2⟩ := wholePart_bounds (L.val x / L.val d.pi2)
      by_cases hq : L.val x / L.val d.pi2 < 0
      · obtain ⟨a, b, c⟩ := w2 hq
        rw [abs_of_neg hq, abs_of_nonpos c]
        linarith
      · obtain ⟨a, b, c⟩ := w1 (not_lt.mp hq)
        rw [abs_of_nonneg (not_lt.mp hq), abs_of_nonneg c]
        exact a
    have h6 : |L.val x / L.val d.pi2| ≤ |L.val x| / 6 := by
      rw [abs_div, abs_of_pos hp]
      exact div_le_div_of_nonneg_left (abs_nonneg _) (by norm_num) (by rw [h2]; norm_num)
    have := (Rat.cast_le (K := ℝ)).mpr (hw.trans h6)
    push_cast at this
    exact this
  · rw [hv]
    push_cast
    rfl

theorem sin_snapped (x : D) : ∃ r z, d.rem x d.pi2 = .ok r ∧ d.sin x = .ok z ∧ Snapped (Real.sin (L.val r)) (L.val z) := by
  obtain ⟨r, hr, hb, -⟩ := L.turn x
  have hpi := L.pi_real
  have hpi2 := L.pi2_real
  have hph := L.piHalf_real
  have h3 := L.pi3Half_real
  have hab : |L.val (d.abs r)| ≤ 63 / 10 := by rw [L.abs_val, abs_abs]; exact hb
  have range : ∀ {a b : Rat} {c : ℝ}, |a| ≤ 63 / 10 → |(b : ℝ) - c| ≤ 1 → |c| ≤ 7 → |a - b| ≤ 20 := by
    intro a b c ha hb hc
    have ha' : |(a : ℝ)| ≤ 63 / 10 := by
      have := (Rat.cast_le (K := ℝ)).mpr ha
      push_cast at this
      exact this
    have : |(a : ℝ) - b| ≤ 20 := by
      rw [abs_le] at *
      constructor <;> linarith [ha'.1, ha'.2, hb.1, hb.2, hc.1, hc.2]
    have h2 : ((|a - b| : Rat) : ℝ) ≤ ((20 : Rat) : ℝ) := by push_cast; exact this
    exact (Rat.cast_le (K := ℝ)).mp h2
  have p3 := Real.pi_gt_d2
  have p4 := Real.pi_lt_d2
  obtain ⟨t1, e1, k1, i1⟩ := L.approxEq_near (range hab (hpi.trans (by norm_num)) (by rw [abs_le]; constructor <;> linarith))
  obtain ⟨t2, e2, k2, i2⟩ := L.approxEq_near (range hab (hpi2.trans (by norm_num)) (by rw [abs_le]; constructor <;> linarith))
  obtain ⟨t3, e3, k3, i3⟩ := L.approxEq_near (range hb (hph.trans (by norm_num)) (by rw [abs_le]; constructor <;> linarith))
  obtain ⟨t4, e4, k4, i4⟩ := L.approxEq_near (range hb (h3.trans (by norm_num)) (by rw [abs_le]; constructor <;> linarith))
  obtain ⟨t5, e5, k5, i5⟩ := L.approxEq_near (range hab (hph.trans (by norm_num)) (by rw [abs_le]; constructor <;> linarith))
  obtain ⟨xx, S, hxx, hS, hn⟩ := L.sin_series hb
  obtain ⟨z, hz, hsn⟩ := L.snapped_approx (hn.trans (by norm_num))
  suffices h : ∃ z, d.sin x = .ok z ∧ Snapped (Real.sin (L.val r)) (L.val z) from let ⟨z, h1, h2⟩ := h; ⟨r, z, hr, h1, h2⟩
  unfold Dec.sin
  simp only [Res.bind_eq, hr, Res.bind_ok, Res.pure_eq, e1, e2, e3, e4, e5, hxx, hS, hz]
  have v0 : L.val d.zero = 0 := (L.nat_val (n := 0) (by decide))
  have v1 : L.val d.one = 1 := L.nat_val (n := 1) (by decide)
  have vm : L.val d.oneMinus = -1 := by rw [L.oneMinus]; rfl
  have close : ∀ {b c : ℝ} {a : ℝ}, |a - b| ≤ 11 / 10 ^ 17 → |b - c| ≤ 1 / 10 ^ 20 → |Real.sin a - Real.sin c| ≤ 15 / 10 ^ 17 := by
    intro b c a h1 h2
    refine (Real.abs_sin_sub_sin_le a c).trans ?_
    have e : a - c = (a - b) + (b - c) := by ring
    rw [e]
    exact (abs_add_le _ _).trans ((add_le_add h1 h2).trans (by norm_num))
  have habs : |Real.sin (L.val r : ℝ)| = |Real.sin ((L.val (d.abs r) : Rat) : ℝ)| := by
    rw [L.abs_val]
    push_cast
    rcases abs_choice (L.val r : ℝ) with h | h <;> rw [h]
    rw [Real.sin_neg, abs_neg]
  have s3 : Real.sin (3 * Real.pi / 2) = -1 := by
    rw [show 3 * Real.pi / 2 = Real.pi / 2 + Real.pi by ring, Real.sin_add_pi, Real.sin_pi_div_two]
  by_cases c0 : d.eq r d.zero = true
  · rw [if_pos c0]
    refine ⟨_, rfl, Snapped.const 0 (by rw [v0]; rfl) ?_⟩
    rw [L.eq, v0] at c0
    rw [c0]
    norm_num
  rw [if_neg c0]
  by_cases c1 : t1 = true
  · rw [if_pos c1]
    refine ⟨_, rfl, Snapped.const 0 (by rw [v0]; rfl) ?_⟩
    have := close (k1 c1) (hpi.trans (by norm_num))
    rw [Real.sin_pi, sub_zero, ← habs] at this
    simpa using this
  rw [if_neg c1]
  by_cases c2 : t2 = true
  · rw [if_pos c2]
    refine ⟨_, rfl, Snapped.const 0 (by rw [v0]; rfl) ?_⟩
    have := close (k2 c2) (hpi2.trans (by norm_num))
    rw [Real.sin_two_pi, sub_zero, ← habs] at this
    simpa using this
  rw [if_neg c2]
  by_cases c3 : t3 = true
  · rw [if_pos c3]
    refine ⟨_, rfl, Snapped.const 1 (by rw [v1]; rfl) ?_⟩
    have := close (k3 c3) (hph.trans (by norm_num))
    rw [Real.sin_pi_div_two] at this
    simpa using this
  rw [if_neg c3]
  by_cases c4 : t4 = true
  · rw [if_pos c4]
    refine ⟨_, rfl, Snapped.const (-1) (by rw [vm]; rfl) ?_⟩
    have := close (k4 c4) (h3.trans (by norm_num))
    rw [s3] at this
    simpa using this
  rw [if_neg c4]
  by_cases c5 : t5 = true
  · rw [if_pos c5]
    refine ⟨_, rfl, Snapped.const (-1) (by rw [vm]; rfl) ?_⟩
    by_cases hneg : L.val r < 0
    · have h5 := k5 c5
      rw [L.abs_val, abs_of_neg hneg] at h5
      push_cast at h5
      have := close h5 (hph.trans (by norm_num))
      rw [Real.sin_pi_div_two, Real.sin_neg, ← abs_neg] at this
      push_cast
      have e : -(-Real.sin (L.val r) - 1) = Real.sin (L.val r) - -1 := by ring
      rw [e] at this
      exact this
    · exfalso
      apply c3
      have ea : L.val (d.abs r) = L.val r := by rw [L.abs_val, abs_of_nonneg (not_lt.mp hneg)]
      have h1 : |L.val r - L.val d.piHalf| ≤ 1 := by
        have h5 := k5 c5
        rw [ea] at h5
        have h2 : ((|L.val r - L.val d.piHalf| : Rat) : ℝ) ≤ ((1 : Rat) : ℝ) := by push_cast; exact h5.trans (by norm_num)
        exact (Rat.cast_le (K := ℝ)).mp h2
      rw [ea] at i5
      exact (i3 h1).mpr ((i5 h1).mp c5)
  rw [if_neg c5]
  exact ⟨_, rfl, hsn⟩

theorem cos_snapped (x : D) : ∃ r z, d.rem x d.pi2 = .ok r ∧ d.cos x = .ok z ∧ Snapped (Real.cos (L.val r)) (L.val z) := by
  obtain ⟨r, hr, hb, -⟩ := L.turn x
  have hph := L.piHalf_real
  have p3 := Real.pi_gt_d2
  have p4 := Real.pi_lt_d2
  obtain ⟨t3, e3, k3, i3⟩ := L.approxEq_near (x := r) (y := d.piHalf) (by
    have hb' : |(L.val r : ℝ)| ≤ 63 / 10 := by
      have := (Rat.cast_le (K := ℝ)).mpr hb
      push_cast at this
      exact this
    have : |(L.val r : ℝ) - L.val d.piHalf| ≤ 20 := by
      rw [abs_le] at *
      constructor <;> linarith [hb'.1, hb'.2, hph.1, hph.2]
    have h2 : ((|L.val r - L.val d.piHalf| : Rat) : ℝ) ≤ ((20 : Rat) : ℝ) := by push_cast; exact this
    exact (Rat.cast_le (K := ℝ)).mp h2)
  obtain ⟨xx, f, s, S, hxx, hf, hs, hS, hn⟩ := L.cos_series hb
  obtain ⟨z, hz, hsn⟩ := L.snapped_approx (hn.trans (by norm_num))
  suffices h : ∃ z, d.cos x = .ok z ∧ Snapped (Real.cos (L.val r)) (L.val z) from let ⟨z, h1, h2⟩ := h; ⟨r, z, hr, h1, h2⟩
  unfold Dec.cos
  simp only [Res.bind_eq, hr, Res.bind_ok, Res.pure_eq, e3, hxx, hf, hs, hS, hz]
  have v0 : L.val d.zero = 0 := (L.nat_val (n := 0) (by decide))
  have v1 : L.val d.one = 1 := L.nat_val (n := 1) (by decide)
  by_cases c0 : d.isZero r = true
  · rw [if_pos c0]
    refine ⟨_, rfl, Snapped.const 1 (by rw [v1]; rfl) ?_⟩
    rw [L.isZero] at c0
    rw [c0]
    norm_num
  rw [if_neg c0]
  by_cases c3 : t3 = true
  · rw [if_pos c3]
    refine ⟨_, rfl, Snapped.const 0 (by rw [v0]; rfl) ?_⟩
    have h := Real.abs_cos_sub_cos_le (L.val r : ℝ) (Real.pi / 2)
    rw [Real.cos_pi_div_two] at h
    push_cast
    refine h.trans ?_
    have e : (L.val r : ℝ) - Real.pi / 2 = (L.val r - L.val d.piHalf) + (L.val d.piHalf - Real.pi / 2) := by ring
    rw [e]
    exact (abs_add_le _ _).trans ((add_le_add (k3 c3) hph).trans (by norm_num))
  rw [if_neg c3]
  exact ⟨_, rfl, hsn⟩

end Dec.Laws
end Prexel
