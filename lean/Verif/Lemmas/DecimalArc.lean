import Verif.Lemmas.DecimalAtan
import Verif.Lemmas.DecimalSqrt
import Mathlib.Analysis.SpecialFunctions.Trigonometric.Inverse
/-!
# Arcsine and arccosine of decimals
-/

set_option linter.unusedVariables false

namespace Prexel
variable {D F : Type} {d : Dec D F}

theorem sqrt_abs_sub (a b : ℝ) (ha : 0 ≤ a) (hb : 0 ≤ b) : |√a - √b| ≤ √|a - b| := by
  have key : ∀ a b : ℝ, 0 ≤ b → b ≤ a → |√a - √b| ≤ √|a - b| := by
    intro a b hb hab
    have h1 : √b ≤ √a := Real.sqrt_le_sqrt hab
    rw [abs_of_nonneg (by linarith), abs_of_nonneg (by linarith)]
    refine Real.le_sqrt_of_sq_le ?_
    have h2 := Real.sq_sqrt hb
    have h3 := Real.sq_sqrt (hb.trans hab)
    nlinarith [Real.sqrt_nonneg b]
  rcases le_total b a with h | h
  · exact key a b hb h
  · rw [abs_sub_comm, abs_sub_comm a b]
    exact key b a ha h

/-- Half angle: the arcsine as an arctangent. -/
theorem arcsin_half {x : ℝ} (h1 : -1 < x) (h2 : x < 1) : Real.arcsin x = 2 * Real.arctan (x / (√(1 - x ^ 2) + 1)) := by
  have hs : 0 ≤ √(1 - x ^ 2) := Real.sqrt_nonneg _
  have h0 : 0 < 1 - x ^ 2 := by nlinarith
  have hq : √(1 - x ^ 2) ^ 2 = 1 - x ^ 2 := Real.sq_sqrt h0.le
  have hs0 : 0 < √(1 - x ^ 2) := Real.sqrt_pos.mpr h0
  have hb : |x / (√(1 - x ^ 2) + 1)| < 1 := by
    rw [abs_div, abs_of_pos (show 0 < √(1 - x ^ 2) + 1 by linarith), div_lt_one (by linarith)]
    have : |x| < 1 := abs_lt.mpr ⟨h1, h2⟩
    linarith
  rw [abs_lt] at hb
  rw [Real.two_mul_arctan hb.1 hb.2, Real.arcsin_eq_arctan ⟨h1, h2⟩]
  congr 1
  generalize √(1 - x ^ 2) = s at *
  have e : 1 - (x / (s + 1)) ^ 2 = 2 * s / (s + 1) := by
    field_simp
    linear_combination -hq
  rw [e]
  field_simp

/-- Half angle: the arccosine as an arctangent. -/
theorem arccos_half {x : ℝ} (h1 : -1 < x) (h2 : x < 1) : Real.arccos x = 2 * Real.arctan (√(1 - x ^ 2) / (1 + x)) := by
  have h0 : 0 < 1 - x ^ 2 := by nlinarith
  have hq : √(1 - x ^ 2) ^ 2 = 1 - x ^ 2 := Real.sq_sqrt h0.le
  have hs0 : 0 < √(1 - x ^ 2) := Real.sqrt_pos.mpr h0
  set y := √(1 - x ^ 2) / (1 + x) with hy
  have hy0 : 0 < y := div_pos hs0 (by linarith)
  have ha0 : 0 < Real.arctan y := Real.arctan_pos.mpr hy0
  have ha1 := Real.arctan_lt_pi_div_two y
  have hc : Real.cos (2 * Real.arctan y) = x := by
    rw [Real.cos_two_mul, Real.cos_sq_arctan]
    have : 1 + y ^ 2 = 2 / (1 + x) := by
      rw [hy, div_pow, hq]
      have : 1 + x ≠ 0 := by linarith
      field_simp
      ring
    rw [this]
    have : 1 + x ≠ 0 := by linarith
    field_simp
    ring
  rw [← hc, Real.arccos_cos (by linarith) (by linarith)]

/-- The arcsine is continuous up to its ends. -/
theorem arcsin_holder {a b : ℝ} (ha : |a| ≤ 1) (hb : |b| ≤ 1) : |Real.arcsin a - Real.arcsin b| ≤ Real.pi * √(|a - b| / 2) := by
  have key : ∀ a b : ℝ, |a| ≤ 1 → |b| ≤ 1 → b ≤ a → |Real.arcsin a - Real.arcsin b| ≤ Real.pi * √(|a - b| / 2) := by
    intro a b ha hb hab
    rw [abs_le] at ha hb
    have hm := Real.monotone_arcsin hab
    rw [abs_of_nonneg (by linarith), abs_of_nonneg (by linarith)]
    set u := Real.arcsin a with hu
    set v := Real.arcsin b with hv
    have hsu : Real.sin u = a := Real.sin_arcsin ha.1 ha.2
    have hsv : Real.sin v = b := Real.sin_arcsin hb.1 hb.2
    have hu1 := Real.arcsin_le_pi_div_two a
    have hv1 := Real.neg_pi_div_two_le_arcsin b
    rw [← hu] at hu1
    rw [← hv] at hv1
    have hpi := Real.pi_pos
    have hd : a - b = 2 * Real.sin ((u - v) / 2) * Real.cos ((u + v) / 2) := by rw [← hsu, ← hsv, Real.sin_sub_sin]
    have hsin : 2 / Real.pi * ((u - v) / 2) ≤ Real.sin ((u - v) / 2) := Real.mul_le_sin (by linarith) (by linarith)
    have hcos : Real.sin ((u - v) / 2) ≤ Real.cos ((u + v) / 2) := by
      rw [← Real.cos_pi_div_two_sub, ← Real.cos_abs ((u + v) / 2)]
      refine Real.cos_le_cos_of_nonneg_of_le_pi (abs_nonneg _) (by linarith) ?_
      rw [abs_le]
      constructor <;> linarith
    have h0 : 0 ≤ 2 / Real.pi * ((u - v) / 2) := by
      have : 0 ≤ (u - v) / 2 := by linarith
      positivity
    have h2 : (2 / Real.pi * ((u - v) / 2)) ^ 2 ≤ (a - b) / 2 := by
      rw [hd]
      nlinarith
    have h3 : 2 / Real.pi * ((u - v) / 2) ≤ √((a - b) / 2) := Real.le_sqrt_of_sq_le h2
    have e : u - v = Real.pi * (2 / Real.pi * ((u - v) / 2)) := by field_simp
    rw [e]
    exact mul_le_mul_of_nonneg_left h3 hpi.le
  rcases le_total b a with h | h
  · exact key a b ha hb h
  · rw [abs_sub_comm, abs_sub_comm a b]
    exact key b a hb ha h

namespace Dec.Laws
variable (L : d.Laws)
include L

/-- What both functions begin with: the square root of `1 - x²`. -/
theorem arc_root {f : F64 F} (S : L.SqrtStart f) {x : D} (hx : |L.val x| < 1) :
    ∃ xx t, d.mul x x = .ok xx ∧ d.sub d.one xx = .ok t ∧ ((d.sqrt f t = .panic ∧ 0 < L.val t ∧ L.val t ≤ 1) ∨ ∃ a, d.sqrt f t = .ok a ∧
      |(L.val a : ℝ) - √(1 - (L.val x : ℝ) ^ 2)| ≤ 24 / 10 ^ 15 ∧ 9 / 10 ^ 15 ≤ (L.val a : ℝ) ∧ (L.val a : ℝ) ≤ 2 ∧
      |(L.val a : ℝ) - √(1 - (L.val x : ℝ) ^ 2)| * √(1 - (L.val x : ℝ) ^ 2) ≤ 1 / 10 ^ 26 * √(1 - (L.val x : ℝ) ^ 2) + 4 / 10 ^ 28) := by
  have v1 : L.val d.one = 1 := L.nat_val (n := 1) (by decide)
  have hxb := abs_lt.mp hx
  have hxR : |(L.val x : ℝ)| < 1 := by
    have := (Rat.cast_lt (K := ℝ)).mpr hx
    push_cast at this
    exact this
  have hxbR := abs_lt.mp hxR
  have hsq : L.val x * L.val x ≤ 1 := by nlinarith
  obtain ⟨xx, e1, n1, r1⟩ := L.mul_real (x := x) (y := x) (a := 1) (by norm_num) (by
    rw [abs_mul]
    push_cast
    nlinarith [abs_nonneg (L.val x : ℝ)]) (by norm_num)
  push_cast at n1
  have h1 : L.val xx ≤ 1 - 1 / 10 ^ 28 := by
    refine (r1 _ ?_).2 ?_
    · refine ⟨28, le_rfl, 10 ^ 28 - 1, by norm_num, ?_⟩
      norm_num
    · have vm : L.val d.oneMinus = -1 := by rw [L.oneMinus]; norm_num
      have : Representable (1 - |L.val x|) := by
        rcases le_total 0 (L.val x) with h | h
        · rw [abs_of_nonneg h, ← v1]
          exact L.representable_sub (by rw [v1, abs_le]; constructor <;> linarith)
        · rw [abs_of_nonpos h, show 1 - -L.val x = L.val x - L.val d.oneMinus by rw [vm]; ring]
          exact L.representable_sub (by rw [vm, abs_le]; constructor <;> linarith)
      have := representable_pos this (by linarith)
      have e : L.val x * L.val x = |L.val x| * |L.val x| := (abs_mul_abs_self _).symm
      rw [e]
      nlinarith [abs_nonneg (L.val x)]
  have h0 : 0 ≤ L.val xx := (r1 0 (by exact_mod_cast representable_nat (n := 0) (by decide))).1 (mul_self_nonneg _)
  obtain ⟨t, e2, n2, r2⟩ := L.sub_real (x := d.one) (y := xx) (a := 1) (by norm_num) (by
    rw [v1]
    have h1R := (Rat.cast_le (K := ℝ)).mpr h1
    have h0R := (Rat.cast_le (K := ℝ)).mpr h0
    push_cast at h1R h0R ⊢
    rw [abs_le]
    constructor <;> linarith) (by norm_num)
  rw [v1] at n2 r2
  push_cast at n2
  have ht : 1 / 10 ^ 28 ≤ L.val t := (r2 _ ⟨28, le_rfl, 1, by norm_num, by norm_num⟩).1 (by linarith)
  have ht1 : L.val t ≤ 1 := (r2 1 (by exact_mod_cast representable_nat (n := 1) (by decide))).2 (by linarith)
  have ht0 : 0 < L.val t := lt_of_lt_of_le (by norm_num) ht
  refine ⟨xx, t, e1, e2, ?_⟩
  rcases L.sqrt_near S ht0.le ((L.sign t).2 ht0) with h | ⟨a, ha, na⟩
  · exact .inl ⟨h, ht0, ht1⟩
  right
  have htR : (1 : ℝ) / 10 ^ 28 ≤ L.val t := by
    have := (Rat.cast_le (K := ℝ)).mpr ht
    push_cast at this
    exact this
  have ht1R : (L.val t : ℝ) ≤ 1 := by exact_mod_cast ht1
  have hst : √(L.val t : ℝ) ≤ 1 := by rw [Real.sqrt_le_left (by norm_num)]; linarith
  rw [max_eq_left hst] at na
  have hl : (1 : ℝ) / 10 ^ 14 ≤ √(L.val t : ℝ) := Real.le_sqrt_of_sq_le (by norm_num at htR ⊢; exact htR)
  have hy0 : 0 ≤ 1 - (L.val x : ℝ) ^ 2 := by nlinarith
  have hdiff : |(L.val t : ℝ) - (1 - (L.val x : ℝ) ^ 2)| ≤ 4 / 10 ^ 28 := by
    rw [abs_le] at n1 n2 ⊢
    constructor <;> nlinarith [n1.1, n1.2, n2.1, n2.2]
  have hsub := sqrt_abs_sub (L.val t : ℝ) (1 - (L.val x : ℝ) ^ 2) (by linarith) hy0
  have hs2 : √|(L.val t : ℝ) - (1 - (L.val x : ℝ) ^ 2)| ≤ 2 / 10 ^ 14 := by
    rw [Real.sqrt_le_left (by norm_num)]
    exact hdiff.trans (by norm_num)
  have hs1 := Real.sq_sqrt (show (0 : ℝ) ≤ L.val t by linarith)
  have hsy := Real.sq_sqrt hy0
  have hn1 := Real.sqrt_nonneg (1 - (L.val x : ℝ) ^ 2)
  have hy1 : √(1 - (L.val x : ℝ) ^ 2) ≤ 1 := by rw [Real.sqrt_le_left (by norm_num)]; nlinarith
  have hprod : |√(L.val t : ℝ) - √(1 - (L.val x : ℝ) ^ 2)| * √(1 - (L.val x : ℝ) ^ 2) ≤ 4 / 10 ^ 28 := by
    have e : (L.val t : ℝ) - (1 - (L.val x : ℝ) ^ 2) = (√(L.val t : ℝ) - √(1 - (L.val x : ℝ) ^ 2)) * (√(L.val t : ℝ) + √(1 - (L.val x : ℝ) ^ 2)) := by
      linear_combination hsy - hs1
    rw [e, abs_mul, abs_of_nonneg (by linarith : (0 : ℝ) ≤ √(L.val t : ℝ) + √(1 - (L.val x : ℝ) ^ 2))] at hdiff
    have := abs_nonneg (√(L.val t : ℝ) - √(1 - (L.val x : ℝ) ^ 2))
    nlinarith
  generalize √(1 - (L.val x : ℝ) ^ 2) = y at *
  generalize √(L.val t : ℝ) = s at *
  have hae : |(L.val a : ℝ) - y| ≤ 1 / 10 ^ 26 + |s - y| := by
    have := abs_sub_le (L.val a : ℝ) s y
    linarith
  refine ⟨a, ha, ?_, ?_, ?_, ?_⟩
  · linarith
  · linarith [(abs_le.mp na).1]
  · linarith [(abs_le.mp na).2]
  · have := mul_le_mul_of_nonneg_right hae hn1
    linarith

theorem piHalf_near : |(L.val d.piHalf : ℝ) - Real.pi / 2| ≤ 1 / 10 ^ 27 := L.piHalf_real

/-- The arcsine. -/
theorem asin_near {f : F64 F} (S : L.SqrtStart f) {x : D} (hx : |L.val x| ≤ 1) :
    (d.asin f x = .panic ∧ ∃ t, 0 < L.val t ∧ L.val t ≤ 1 ∧ d.sqrt f t = .panic) ∨ ∃ z, d.asin f x = .ok z ∧ |(L.val z : ℝ) - Real.arcsin (L.val x)| ≤ 5 / 10 ^ 14 := by
  have v0 : L.val d.zero = 0 := L.nat_val (n := 0) (by decide)
  have v1 : L.val d.one = 1 := L.nat_val (n := 1) (by decide)
  have v2 : L.val d.two = 2 := L.nat_val (n := 2) (by decide)
  have vm : L.val d.oneMinus = -1 := by rw [L.oneMinus]; norm_num
  have hxb := abs_le.mp hx
  have e1 : d.lt x d.oneMinus = false := by rw [← Bool.not_eq_true, L.lt, vm]; linarith [hxb.1]
  have e2 : d.lt d.one x = false := by rw [← Bool.not_eq_true, L.lt, v1]; linarith [hxb.2]
  have hph := L.piHalf_real
  unfold Dec.asin
  rw [e1, e2, if_neg (by simp)]
  split
  · rename_i h
    rw [L.isZero] at h
    exact .inr ⟨_, rfl, by rw [h, v0]; norm_num⟩
  split
  · rename_i h
    rw [L.isOne] at h
    refine .inr ⟨_, rfl, ?_⟩
    rw [h]
    push_cast
    rw [Real.arcsin_one]
    exact hph.trans (by norm_num)
  split
  · rename_i h
    rw [L.eq, vm] at h
    refine .inr ⟨_, rfl, ?_⟩
    rw [h, L.neg]
    push_cast
    rw [Real.arcsin_neg, Real.arcsin_one, ← abs_neg, show -(-(L.val d.piHalf : ℝ) - -(Real.pi / 2)) = L.val d.piHalf - Real.pi / 2 by ring]
    exact hph.trans (by norm_num)
  rename_i h0 h1 hm
  rw [L.isOne] at h1
  rw [L.eq, vm] at hm
  have hlt : |L.val x| < 1 := by
    rw [abs_lt]
    exact ⟨lt_of_le_of_ne hxb.1 (fun h => hm h.symm), lt_of_le_of_ne hxb.2 h1⟩
  obtain ⟨xx, t, f1, f2, ⟨h, t0, t1⟩ | ⟨a, f3, na, la, ua, -⟩⟩ := L.arc_root S hlt
  · refine .inl ⟨?_, t, t0, t1, h⟩
    simp only [Res.bind_eq, f1, f2, h, Res.bind_ok]
    rfl
  right
  have hxR : |(L.val x : ℝ)| < 1 := by
    have := (Rat.cast_lt (K := ℝ)).mpr hlt
    push_cast at this
    exact this
  obtain ⟨b, f4, nb, rb⟩ := L.add_real (x := a) (y := d.one) (a := 4) (by norm_num) (by
    rw [v1, abs_of_nonneg (by push_cast; linarith)]
    push_cast
    linarith) (by norm_num)
  rw [v1] at nb
  push_cast at nb
  have hb1 : (1 : ℝ) ≤ L.val b := by linarith [(abs_le.mp nb).1]
  obtain ⟨q, f5, nq, rq⟩ := L.div_real (x := x) (y := b) (a := 1) (by linarith) (by norm_num) (by
    rw [abs_div, abs_of_pos (show (0 : ℝ) < L.val b by linarith), div_le_iff₀ (by linarith)]
    push_cast
    linarith) (by norm_num)
  push_cast at nq
  obtain ⟨w, f6, nw⟩ := L.atan_near q
  have hw := Real.arctan_lt_pi_div_two (L.val q)
  have hw' := Real.neg_pi_div_two_lt_arctan (L.val q)
  have hpi' := Real.pi_lt_d2
  obtain ⟨r, f7, nr, -⟩ := L.mul_real (x := d.two) (y := w) (a := 10) (by norm_num) (by
    rw [v2]
    push_cast
    rw [abs_le] at nw ⊢
    constructor <;> linarith [nw.1, nw.2]) (by norm_num)
  rw [v2] at nr
  push_cast at nr
  obtain ⟨z, f8, nz, -⟩ := L.approx_near r
  have nzR : |(L.val z : ℝ) - L.val r| ≤ 1 / 10 ^ 16 := by
    have := (Rat.cast_le (K := ℝ)).mpr nz
    push_cast at this
    exact this
  refine ⟨z, ?_, ?_⟩
  · simp only [Res.bind_eq, f1, f2, f3, f4, f5, f6, f7, Res.bind_ok]
    exact f8
  · rw [arcsin_half (abs_lt.mp hxR).1 (abs_lt.mp hxR).2]
    have hn := Real.sqrt_nonneg (1 - (L.val x : ℝ) ^ 2)
    generalize √(1 - (L.val x : ℝ) ^ 2) = y at *
    have hl := arctan_lipschitz (L.val q) (L.val x / (y + 1))
    have hq : |(L.val q : ℝ) - L.val x / (y + 1)| ≤ 241 / 10 ^ 16 := by
      have e : (L.val q : ℝ) - L.val x / (y + 1) = (L.val q - L.val x / L.val b) + L.val x * (y + 1 - L.val b) / (L.val b * (y + 1)) := by
        have : (L.val b : ℝ) ≠ 0 := by linarith
        field_simp
        ring
      rw [e]
      refine (abs_add_le _ _).trans ?_
      have hb' : |y + 1 - (L.val b : ℝ)| ≤ 2401 / 10 ^ 17 := by
        rw [abs_le] at na nb ⊢
        constructor <;> linarith [na.1, na.2, nb.1, nb.2]
      have : |L.val x * (y + 1 - L.val b) / (L.val b * (y + 1))| ≤ 2401 / 10 ^ 17 := by
        have hp : (1 : ℝ) ≤ L.val b * (y + 1) := by nlinarith
        rw [abs_div, abs_of_pos (show (0 : ℝ) < L.val b * (y + 1) by linarith), div_le_iff₀ (by linarith), abs_mul]
        have := mul_le_mul hxR.le hb' (abs_nonneg _) (by norm_num)
        linarith
      linarith
    have := hl.trans hq
    rw [abs_le] at this nr nw nzR ⊢
    constructor <;> linarith [this.1, this.2, nr.1, nr.2, nw.1, nw.2, nzR.1, nzR.2]

/-- The arccosine. -/
theorem acos_near {f : F64 F} (S : L.SqrtStart f) {x : D} (hx : |L.val x| ≤ 1) :
    (d.acos f x = .panic ∧ ∃ t, 0 < L.val t ∧ L.val t ≤ 1 ∧ d.sqrt f t = .panic) ∨ ∃ z, d.acos f x = .ok z ∧ |(L.val z : ℝ) - Real.arccos (L.val x)| ≤ 3 / 10 ^ 13 := by
  have v0 : L.val d.zero = 0 := L.nat_val (n := 0) (by decide)
  have v1 : L.val d.one = 1 := L.nat_val (n := 1) (by decide)
  have v2 : L.val d.two = 2 := L.nat_val (n := 2) (by decide)
  have vm : L.val d.oneMinus = -1 := by rw [L.oneMinus]; norm_num
  have hxb := abs_le.mp hx
  have e1 : d.lt x d.oneMinus = false := by rw [← Bool.not_eq_true, L.lt, vm]; linarith [hxb.1]
  have e2 : d.lt d.one x = false := by rw [← Bool.not_eq_true, L.lt, v1]; linarith [hxb.2]
  have hph := L.piHalf_real
  have hp := L.pi_real
  unfold Dec.acos
  rw [e1, e2, if_neg (by simp)]
  split
  · rename_i h
    rw [L.isZero] at h
    refine .inr ⟨_, rfl, ?_⟩
    rw [h]
    push_cast
    rw [Real.arccos_zero]
    exact hph.trans (by norm_num)
  split
  · rename_i h
    rw [L.isOne] at h
    refine .inr ⟨_, rfl, ?_⟩
    rw [h, v0]
    push_cast
    rw [Real.arccos_one]
    norm_num
  split
  · rename_i h
    rw [L.eq, vm] at h
    refine .inr ⟨_, rfl, ?_⟩
    rw [h]
    push_cast
    rw [Real.arccos_neg_one]
    exact hp.trans (by norm_num)
  rename_i h0 h1 hm
  rw [L.isOne] at h1
  rw [L.eq, vm] at hm
  have hlt : |L.val x| < 1 := by
    rw [abs_lt]
    exact ⟨lt_of_le_of_ne hxb.1 (fun h => hm h.symm), lt_of_le_of_ne hxb.2 h1⟩
  obtain ⟨xx, t, f1, f2, ⟨h, t0, t1⟩ | ⟨a, f3, na, la, ua, pa⟩⟩ := L.arc_root S hlt
  · refine .inl ⟨?_, t, t0, t1, h⟩
    simp only [Res.bind_eq, f1, f2, h, Res.bind_ok]
    rfl
  right
  have hxR : |(L.val x : ℝ)| < 1 := by
    have := (Rat.cast_lt (K := ℝ)).mpr hlt
    push_cast at this
    exact this
  have hxbR := abs_lt.mp hxR
  have hrep : Representable (1 + L.val x) := by
    rw [show 1 + L.val x = L.val x - L.val d.oneMinus by rw [vm]; ring]
    exact L.representable_sub (by rw [vm, abs_le]; constructor <;> linarith)
  obtain ⟨b, f4, -, rb⟩ := L.add_real (x := d.one) (y := x) (a := 4) (by norm_num) (by
    rw [v1]
    push_cast
    rw [abs_le]
    constructor <;> linarith) (by norm_num)
  rw [v1] at rb
  have hb : L.val b = 1 + L.val x := rb.eq hrep
  have hbR : (L.val b : ℝ) = 1 + L.val x := by rw [hb]; push_cast; rfl
  have hb28 : (1 : ℝ) / 10 ^ 28 ≤ 1 + L.val x := by
    have := representable_pos hrep (by linarith [(abs_lt.mp hlt).1])
    have := (Rat.cast_le (K := ℝ)).mpr this
    push_cast at this
    exact this
  rw [arccos_half hxbR.1 hxbR.2]
  have hy0 : 0 < √(1 - (L.val x : ℝ) ^ 2) := Real.sqrt_pos.mpr (by nlinarith)
  have hysq : √(1 - (L.val x : ℝ) ^ 2) ^ 2 = (1 + L.val x) * (1 - L.val x) := by rw [Real.sq_sqrt (by nlinarith)]; ring
  generalize √(1 - (L.val x : ℝ) ^ 2) = y at *
  obtain ⟨B, hB⟩ : ∃ B : ℝ, B = 1 + L.val x := ⟨_, rfl⟩
  obtain ⟨A, hA⟩ : ∃ A : ℝ, A = L.val a := ⟨_, rfl⟩
  have hX : (1 - L.val x : ℝ) = 2 - B := by rw [hB]; ring
  rw [hX] at hysq
  rw [← hB] at hbR hb28 hysq ⊢
  rw [← hA] at na la ua pa
  have hB2 : B ≤ 2 := by rw [hB]; linarith
  have hB0 : 0 < B := by linarith
  have hA0 : 0 < A := by linarith
  have hyB : y ≤ 15 / 10 * 10 ^ 14 * B := by
    refine abs_le_of_sq_le_sq' ?_ (by positivity) |>.2
    rw [hysq]
    nlinarith
  have hAB : A / B ≤ 4 * 10 ^ 14 := by
    rw [div_le_iff₀ hB0]
    have := (abs_le.mp na).2
    linarith
  obtain ⟨q, f5, nq, rq⟩ := L.div_real (x := a) (y := b) (a := 4 * 10 ^ 14) (by rw [hbR]; linarith) (by norm_num) (by
    rw [hbR, ← hA, abs_of_pos (div_pos hA0 hB0)]
    push_cast
    exact hAB) (by norm_num)
  rw [hbR, ← hA] at nq
  push_cast at nq
  obtain ⟨w, f6, nw⟩ := L.atan_near q
  have hw := Real.arctan_lt_pi_div_two (L.val q)
  have hw' := Real.neg_pi_div_two_lt_arctan (L.val q)
  have hpi' := Real.pi_lt_d2
  obtain ⟨r, f7, nr, -⟩ := L.mul_real (x := d.two) (y := w) (a := 10) (by norm_num) (by
    rw [v2]
    push_cast
    rw [abs_le] at nw ⊢
    constructor <;> linarith [nw.1, nw.2]) (by norm_num)
  rw [v2] at nr
  push_cast at nr
  obtain ⟨z, f8, nz, -⟩ := L.approx_near r
  have nzR : |(L.val z : ℝ) - L.val r| ≤ 1 / 10 ^ 16 := by
    have := (Rat.cast_le (K := ℝ)).mpr nz
    push_cast at this
    exact this
  refine ⟨z, ?_, ?_⟩
  · simp only [Res.bind_eq, f1, f2, f3, f4, f5, f6, f7, Res.bind_ok]
    exact f8
  · have hl := arctan_lipschitz (L.val q) (A / B)
    have key : |Real.arctan (A / B) - Real.arctan (y / B)| ≤ 5 / 10 ^ 14 := by
      rcases le_total 1 B with h | h
      · refine (arctan_lipschitz _ _).trans ?_
        rw [← sub_div, abs_div, abs_of_pos hB0, div_le_iff₀ hB0]
        linarith
      · have e1 : Real.arctan (A / B) = Real.pi / 2 - Real.arctan (B / A) := by
          rw [← Real.arctan_inv_of_pos (div_pos hB0 hA0), inv_div]
        have e2 : Real.arctan (y / B) = Real.pi / 2 - Real.arctan (B / y) := by
          rw [← Real.arctan_inv_of_pos (div_pos hB0 hy0), inv_div]
        rw [e1, e2, sub_sub_sub_cancel_left, abs_sub_comm]
        refine (arctan_lipschitz _ _).trans ?_
        have e3 : B / A - B / y = B * (y - A) / (A * y) := by field_simp
        rw [e3, abs_div, abs_of_pos (mul_pos hA0 hy0), div_le_iff₀ (mul_pos hA0 hy0), abs_mul, abs_of_pos hB0, abs_sub_comm y]
        have h3 : B ≤ y ^ 2 := by rw [hysq]; nlinarith
        have h4 : B * |A - y| ≤ y ^ 2 * |A - y| := mul_le_mul_of_nonneg_right h3 (abs_nonneg _)
        have h5 : y ^ 2 * |A - y| ≤ y * (1 / 10 ^ 26 * y + 4 / 10 ^ 28) := by
          have := mul_le_mul_of_nonneg_left pa hy0.le
          calc y ^ 2 * |A - y| = y * (|A - y| * y) := by ring
            _ ≤ _ := this
        have h6 : 1 / 10 ^ 26 * y + 4 / 10 ^ 28 ≤ 5 / 10 ^ 14 * A := by
          have : y ≤ A + 24 / 10 ^ 15 := by linarith [(abs_le.mp na).1]
          linarith
        have h7 := mul_le_mul_of_nonneg_left h6 hy0.le
        linarith
    rw [abs_le] at hl nq key nr nw nzR ⊢
    have hl' := abs_le.mp (arctan_lipschitz (L.val q) (A / B))
    have hnq : |(L.val q : ℝ) - A / B| ≤ 8 / 10 ^ 14 := by rw [abs_le]; constructor <;> linarith [nq.1, nq.2]
    constructor <;> linarith [hl'.1, hl'.2, key.1, key.2, nr.1, nr.2, nw.1, nw.2, nzR.1, nzR.2]

end Dec.Laws
end Prexel
