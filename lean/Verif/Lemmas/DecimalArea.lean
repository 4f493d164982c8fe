import Verif.Lemmas.DecimalArc
import Mathlib.Analysis.SpecialFunctions.Arsinh
import Mathlib.Analysis.SpecialFunctions.Arcosh
import Mathlib.Analysis.SpecialFunctions.Artanh
/-!
# The inverse hyperbolic functions of decimals
-/

set_option linter.unusedVariables false

namespace Prexel
variable {D F : Type} {d : Dec D F}

/-- Numbers that are nearly equal have logarithms that are. -/
theorem log_close {u v ε : ℝ} (hv : 0 < v) (hε : ε ≤ 1 / 2) (h : |u - v| ≤ ε * v) : |Real.log u - Real.log v| ≤ 2 * ε := by
  have h' := abs_le.mp h
  have hε0 : 0 ≤ ε := by
    by_contra hcon
    rw [not_le] at hcon
    have := (abs_nonneg _).trans h
    nlinarith
  have hu : 0 < u := by nlinarith [h'.1]
  have huv : v / 2 ≤ u := by nlinarith [h'.1]
  rw [← Real.log_div hu.ne' hv.ne', abs_le]
  constructor
  · have h1 := Real.log_le_sub_one_of_pos (div_pos hv hu)
    rw [← inv_div, Real.log_inv]  
    have : v / u - 1 ≤ 2 * ε := by
      rw [sub_le_iff_le_add, div_le_iff₀ hu]
      nlinarith [h'.1]
    linarith
  · have h1 := Real.log_le_sub_one_of_pos (div_pos hu hv)
    have : u / v - 1 ≤ 2 * ε := by
      rw [sub_le_iff_le_add, div_le_iff₀ hv]
      nlinarith [h'.2]
    linarith

namespace Dec.Laws
variable (L : d.Laws)
include L

/-- The logarithm of every number between 0 and 1, with the error of the series that is cut off. -/
theorem ln_below_one (depth : Nat) {x : D} (h0 : 0 < L.val x) (h1 : L.val x < 1) : ∃ z, d.lnDepth (depth + 1) x = .ok z ∧
    |(L.val z : ℝ) - Real.log (L.val x)| ≤ 11 / 10 ^ 17 + (1 - (L.val x : ℝ)) ^ 1000 / L.val x := by
  obtain ⟨z, e, n⟩ := L.ln_series depth h0 h1
  refine ⟨z, e, ?_⟩
  have hX0 : (0 : ℝ) < L.val x := by exact_mod_cast h0
  have hX1 : (L.val x : ℝ) < 1 := by exact_mod_cast h1
  have hl := Real.abs_log_sub_add_sum_range_le (x := 1 - (L.val x : ℝ)) (by rw [abs_lt]; constructor <;> linarith) 999
  rw [sub_sub_cancel, abs_of_pos (show (0 : ℝ) < 1 - L.val x by linarith), sub_sub_cancel] at hl
  rw [show 999 + 1 = 1000 from rfl] at hl
  generalize (1 - (L.val x : ℝ)) ^ 1000 / L.val x = P at *
  generalize ∑ i ∈ Finset.range 999, (1 - (L.val x : ℝ)) ^ (i + 1) / (i + 1) = Q at *
  rw [abs_le] at hl n ⊢
  constructor <;> linarith [hl.1, hl.2, n.1, n.2]

set_option maxHeartbeats 1000000 in
/-- The inverse hyperbolic sine. -/
theorem asinh_near (hfuel : 100 ≤ d.fuel) {f : F64 F} (S : L.SqrtStart f) {x : D} (h4 : -4 ≤ L.val x) (h14 : L.val x ≤ 10 ^ 14) :
    d.asinh f x = .panic ∨ ∃ z, d.asinh f x = .ok z ∧ |(L.val z : ℝ) - Real.arsinh (L.val x)| ≤ 3 / 10 ^ 16 := by
  have v1 : L.val d.one = 1 := L.nat_val (n := 1) (by decide)
  have h4R : (-4 : ℝ) ≤ L.val x := by exact_mod_cast h4
  have h14R : (L.val x : ℝ) ≤ 10 ^ 14 := by
    have := (Rat.cast_le (K := ℝ)).mpr h14
    push_cast at this
    exact this
  have hsqQ : 1 + L.val x ^ 2 ≤ 2 * 10 ^ 28 := by nlinarith
  obtain ⟨x2, e1, n1, r1⟩ := L.mul_real (x := x) (y := x) (a := 1 + L.val x ^ 2) (by nlinarith [sq_nonneg (L.val x)]) (by
    rw [abs_of_nonneg (mul_self_nonneg _)]
    push_cast
    nlinarith) (hsqQ.trans (by norm_num))
  have p0 : 0 ≤ L.val x2 := (r1 0 (by exact_mod_cast representable_nat (n := 0) (by decide))).1 (mul_self_nonneg _)
  have p0R : (0 : ℝ) ≤ L.val x2 := by exact_mod_cast p0
  push_cast at n1
  have hS2 : (0 : ℝ) < 1 + (L.val x : ℝ) ^ 2 := by positivity
  obtain ⟨t, e2, n2, r2⟩ := L.add_real (x := x2) (y := d.one) (a := 2 * (1 + L.val x ^ 2)) (by nlinarith [sq_nonneg (L.val x)]) (by
    rw [v1, abs_of_nonneg (by push_cast; linarith)]
    push_cast
    nlinarith [(abs_le.mp n1).2]) (by nlinarith)
  rw [v1] at n2 r2
  push_cast at n2
  have ht1 : 1 ≤ L.val t := (r2 1 (by exact_mod_cast representable_nat (n := 1) (by decide))).1 (by linarith)
  have ht1R : (1 : ℝ) ≤ L.val t := by exact_mod_cast ht1
  rcases L.sqrt_near S (x := t) (by linarith) ((L.sign t).2 (by linarith)) with h | ⟨s, hs, ns⟩
  · left
    simp only [Dec.asinh, Res.bind_eq, e1, e2, Res.bind_ok, h]
    rfl
  have ht : |(L.val t : ℝ) - (1 + (L.val x : ℝ) ^ 2)| ≤ 6 / 10 ^ 28 * (1 + (L.val x : ℝ) ^ 2) := by
    rw [abs_le] at n1 n2 ⊢
    constructor <;> nlinarith [n1.1, n1.2, n2.1, n2.2]
  have hst1 : 1 ≤ √(L.val t : ℝ) := Real.one_le_sqrt.mpr ht1R
  rw [max_eq_right hst1] at ns
  have hS1 : 1 ≤ √(1 + (L.val x : ℝ) ^ 2) := Real.one_le_sqrt.mpr (by nlinarith [sq_nonneg (L.val x : ℝ)])
  have hSS := Real.sq_sqrt hS2.le
  have hTT := Real.sq_sqrt (show (0 : ℝ) ≤ L.val t by linarith)
  rw [Real.arsinh]
  generalize √(1 + (L.val x : ℝ) ^ 2) = s0 at *
  generalize √(L.val t : ℝ) = s1 at *
  have hclose : |s1 - s0| ≤ 6 / 10 ^ 28 * s0 := by
    have e : (L.val t : ℝ) - (1 + (L.val x : ℝ) ^ 2) = (s1 - s0) * (s1 + s0) := by linear_combination hSS - hTT
    rw [e, abs_mul, abs_of_pos (show 0 < s1 + s0 by linarith), ← hSS] at ht
    by_contra hcon
    rw [not_le] at hcon
    have : 6 / 10 ^ 28 * s0 * s0 < |s1 - s0| * (s1 + s0) := mul_lt_mul'' hcon (by linarith) (by positivity) (by linarith)
    nlinarith
  have hsn : |(L.val s : ℝ) - s0| ≤ 3 / 10 ^ 26 * s0 := by
    rw [abs_le] at hclose ns ⊢
    constructor <;> nlinarith [hclose.1, hclose.2, ns.1, ns.2]
  have hxs : |(L.val x : ℝ)| ≤ s0 := by
    refine abs_le_of_sq_le_sq ?_ (by linarith)
    linarith
  have hs0x : s0 ≤ 1 + |(L.val x : ℝ)| := by
    refine abs_le_of_sq_le_sq' ?_ (by positivity) |>.2
    nlinarith [sq_abs (L.val x : ℝ), abs_nonneg (L.val x : ℝ)]
  have hxs' := abs_le.mp hxs
  have hsb := abs_le.mp hsn
  obtain ⟨u, e3, nu, ru⟩ := L.add_real (x := x) (y := s) (a := 3 * (1 + |L.val x|)) (by linarith [abs_nonneg (L.val x)]) (by
    push_cast
    rw [abs_le]
    constructor <;> linarith) (by
      have : |L.val x| ≤ 10 ^ 14 := by rw [abs_le]; constructor <;> linarith
      linarith)
  push_cast at nu
  have hu0 : (L.val x + s0) * (s0 - L.val x) = 1 := by linear_combination hSS
  have hb1 : 12 / 100 ≤ L.val x + s0 := by
    rcases le_total 0 (L.val x : ℝ) with h | h
    · linarith
    · have : s0 ≤ 413 / 100 := by
        refine abs_le_of_sq_le_sq' ?_ (by norm_num) |>.2
        rw [hSS]
        nlinarith
      refine le_of_mul_le_mul_right ?_ (show 0 < s0 - L.val x by linarith)
      rw [hu0]
      linarith
  have hb2 : s0 ≤ 40 * (L.val x + s0) := by
    rcases le_total 0 (L.val x : ℝ) with h | h
    · linarith
    · have : s0 ≤ 413 / 100 := by
        refine abs_le_of_sq_le_sq' ?_ (by norm_num) |>.2
        rw [hSS]
        nlinarith
      linarith
  have hun : |(L.val u : ℝ) - (L.val x + s0)| ≤ 1 / 10 ^ 20 * (L.val x + s0) := by
    rw [abs_le] at nu ⊢
    constructor <;> linarith [nu.1, nu.2]
  have hu1 : 1 / 10 ≤ L.val u := by
    have : (1 / 10 : ℝ) ≤ L.val u := by nlinarith [(abs_le.mp hun).1]
    have : (((1 / 10 : Rat)) : ℝ) ≤ L.val u := by push_cast; exact this
    exact_mod_cast this
  obtain ⟨z, e4, nz⟩ := L.ln_near hfuel hu1
  have hlog := log_close (by linarith : 0 < (L.val x : ℝ) + s0) (by norm_num) hun
  right
  refine ⟨z, ?_, ?_⟩
  · simp only [Dec.asinh, Res.bind_eq, e1, e2, Res.bind_ok, hs, Res.unwrapNone, e3, e4]
  · rw [abs_le] at hlog nz ⊢
    constructor <;> linarith [hlog.1, hlog.2, nz.1, nz.2]

/-- The inverse hyperbolic cosine. -/
theorem acosh_near (hfuel : 100 ≤ d.fuel) {f : F64 F} (S : L.SqrtStart f) {x : D} (h1 : 1 < L.val x) (h14 : L.val x ≤ 10 ^ 14) :
    d.acosh f x = .panic ∨ ∃ z, d.acosh f x = .ok z ∧ |(L.val z : ℝ) - Real.arcosh (L.val x)| ≤ 6 / 10 ^ 14 := by
  have v1 : L.val d.one = 1 := L.nat_val (n := 1) (by decide)
  have h1R : (1 : ℝ) < L.val x := by exact_mod_cast h1
  have h14R : (L.val x : ℝ) ≤ 10 ^ 14 := by
    have := (Rat.cast_le (K := ℝ)).mpr h14
    push_cast at this
    exact this
  have e0 : d.lt x d.one = false := by rw [← Bool.not_eq_true, L.lt, v1]; linarith
  obtain ⟨x2, e1, n1, r1⟩ := L.mul_real (x := x) (y := x) (a := L.val x ^ 2) (by nlinarith) (by
    rw [abs_of_nonneg (mul_self_nonneg _)]
    push_cast
    nlinarith) (by nlinarith)
  push_cast at n1
  have p0 : L.val x ≤ L.val x2 := (r1 _ (L.range x)).1 (by nlinarith)
  have p0R : (L.val x : ℝ) ≤ L.val x2 := by exact_mod_cast p0
  obtain ⟨t, e2, n2, r2⟩ := L.sub_real (x := x2) (y := d.one) (a := 2 * L.val x ^ 2) (by nlinarith) (by
    rw [v1, abs_of_nonneg (by push_cast; linarith)]
    push_cast
    nlinarith [(abs_le.mp n1).2]) (by nlinarith)
  rw [v1] at n2 r2
  push_cast at n2
  have ht0 : 0 < L.val t := by
    by_cases h7 : L.val x2 - 1 ≤ 7
    · have := r2.eq (by rw [← v1]; exact L.representable_sub (by rw [v1, abs_le]; constructor <;> linarith))
      linarith
    · have : 7 ≤ L.val t := (r2 7 (by exact_mod_cast representable_nat (n := 7) (by decide))).1 (by linarith)
      linarith
  have ht0R : (0 : ℝ) < L.val t := by exact_mod_cast ht0
  rcases L.sqrt_near S (x := t) ht0.le ((L.sign t).2 ht0) with h | ⟨s, hs, ns⟩
  · left
    unfold Dec.acosh
    rw [e0, if_neg (by simp)]
    simp only [Res.bind_eq, e1, e2, Res.bind_ok, h]
    rfl
  right
  have hy0 : (0 : ℝ) ≤ (L.val x : ℝ) ^ 2 - 1 := by nlinarith
  have ht : |(L.val t : ℝ) - ((L.val x : ℝ) ^ 2 - 1)| ≤ 6 / 10 ^ 28 * (L.val x : ℝ) ^ 2 := by
    rw [abs_le] at n1 n2 ⊢
    constructor <;> nlinarith [n1.1, n1.2, n2.1, n2.2]
  have hsub := sqrt_abs_sub (L.val t : ℝ) ((L.val x : ℝ) ^ 2 - 1) ht0R.le hy0
  have hsub2 : √|(L.val t : ℝ) - ((L.val x : ℝ) ^ 2 - 1)| ≤ 25 / 10 ^ 15 * L.val x := by
    rw [Real.sqrt_le_left (by positivity)]
    refine ht.trans ?_
    nlinarith
  have hy1 : √((L.val x : ℝ) ^ 2 - 1) ≤ L.val x := by
    rw [Real.sqrt_le_left (by linarith)]
    linarith
  have hy2 := Real.sqrt_nonneg ((L.val x : ℝ) ^ 2 - 1)
  rw [Real.arcosh]
  generalize √((L.val x : ℝ) ^ 2 - 1) = y at *
  have hst : √(L.val t : ℝ) ≤ 2 * L.val x := by linarith [(abs_le.mp hsub).2]
  have hst0 := Real.sqrt_nonneg (L.val t : ℝ)
  generalize √(L.val t : ℝ) = s1 at *
  have hm : max 1 s1 ≤ 2 * L.val x := max_le (by linarith) hst
  have hsn : |(L.val s : ℝ) - y| ≤ 26 / 10 ^ 15 * L.val x := by
    rw [abs_le] at hsub ns ⊢
    constructor <;> nlinarith [hsub.1, hsub.2, ns.1, ns.2]
  obtain ⟨u, e3, nu, ru⟩ := L.add_real (x := x) (y := s) (a := 3 * L.val x) (by linarith) (by
    push_cast
    rw [abs_le] at hsn ⊢
    constructor <;> linarith [hsn.1, hsn.2]) (by linarith)
  push_cast at nu
  have hun : |(L.val u : ℝ) - (L.val x + y)| ≤ 27 / 10 ^ 15 * (L.val x + y) := by
    rw [abs_le] at nu hsn ⊢
    constructor <;> linarith [nu.1, nu.2, hsn.1, hsn.2]
  have hu1 : 1 / 10 ≤ L.val u := by
    have : (1 / 10 : ℝ) ≤ L.val u := by nlinarith [(abs_le.mp hun).1]
    have : (((1 / 10 : Rat)) : ℝ) ≤ L.val u := by push_cast; exact this
    exact_mod_cast this
  obtain ⟨z, e4, nz⟩ := L.ln_near hfuel hu1
  have hlog := log_close (by linarith : 0 < (L.val x : ℝ) + y) (by norm_num) hun
  refine ⟨z, ?_, ?_⟩
  · unfold Dec.acosh
    rw [e0, if_neg (by simp)]
    simp only [Res.bind_eq, e1, e2, Res.bind_ok, hs, e3, e4]
  · rw [abs_le] at hlog nz ⊢
    constructor <;> linarith [hlog.1, hlog.2, nz.1, nz.2]

/-- The inverse hyperbolic tangent. -/
theorem atanh_near (hfuel : 100 ≤ d.fuel) {x : D} (h9 : -9 / 11 ≤ L.val x) (h1 : L.val x < 1) :
    ∃ z, d.atanh x = .ok z ∧ |(L.val z : ℝ) - Real.artanh (L.val x)| ≤ 2 / 10 ^ 16 := by
  have v1 : L.val d.one = 1 := L.nat_val (n := 1) (by decide)
  have vm : L.val d.oneMinus = -1 := by rw [L.oneMinus]; norm_num
  have vh := L.half
  have h1R : (L.val x : ℝ) < 1 := by exact_mod_cast h1
  have h9R : (-9 / 11 : ℝ) ≤ L.val x := by
    have := (Rat.cast_le (K := ℝ)).mpr h9
    push_cast at this
    exact this
  have e0 : d.lt x d.oneMinus = false := by rw [← Bool.not_eq_true, L.lt, vm]; linarith
  have e0' : d.lt d.one x = false := by rw [← Bool.not_eq_true, L.lt, v1]; linarith
  have hr1 : Representable (1 + L.val x) := by
    rw [show 1 + L.val x = L.val x - L.val d.oneMinus by rw [vm]; ring]
    exact L.representable_sub (by rw [vm, abs_le]; constructor <;> linarith)
  have hr2 : Representable (1 - L.val x) := by
    rw [← v1]
    exact L.representable_sub (by rw [v1, abs_le]; constructor <;> linarith)
  obtain ⟨x0, e1, -, r1⟩ := L.add_near (x := d.one) (y := x) (a := 2) (by norm_num) (by rw [v1, abs_le]; constructor <;> linarith) (by norm_num)
  obtain ⟨x1, e2, -, r2⟩ := L.sub_near (x := d.one) (y := x) (a := 2) (by norm_num) (by rw [v1, abs_le]; constructor <;> linarith) (by norm_num)
  rw [v1] at r1 r2
  have w0 : L.val x0 = 1 + L.val x := r1.eq hr1
  have w1 : L.val x1 = 1 - L.val x := r2.eq hr2
  have w0R : (L.val x0 : ℝ) = 1 + L.val x := by rw [w0]; push_cast; rfl
  have w1R : (L.val x1 : ℝ) = 1 - L.val x := by rw [w1]; push_cast; rfl
  have hp := representable_pos hr2 (by linarith)
  have hq10 : 1 / 10 ≤ (1 + L.val x) / (1 - L.val x) := by rw [le_div_iff₀ (by linarith)]; linarith
  have hq10R : (1 : ℝ) / 10 ≤ (1 + L.val x) / (1 - L.val x) := by rw [le_div_iff₀ (by linarith)]; linarith
  have hqmax : (1 + L.val x) / (1 - L.val x) ≤ 2 * 10 ^ 28 := by rw [div_le_iff₀ (by linarith)]; linarith
  obtain ⟨q, e3, nq, rq⟩ := L.div_real (x := x0) (y := x1) (a := 1 + (1 + L.val x) / (1 - L.val x)) (by rw [w1R]; linarith) (by linarith) (by
    rw [w0R, w1R, abs_of_nonneg (by linarith)]
    push_cast
    linarith) (by linarith)
  rw [w0R, w1R] at nq
  rw [w0, w1] at rq
  push_cast at nq
  have hq1 : 1 / 10 ≤ L.val q := (rq _ ⟨1, by norm_num, 1, by norm_num, by norm_num⟩).1 hq10
  obtain ⟨l, e4, nl⟩ := L.ln_near hfuel hq1
  have hlog := log_close (u := L.val q) (v := (1 + L.val x) / (1 - L.val x)) (ε := 1 / 10 ^ 20) (by linarith) (by norm_num) (by
    refine nq.trans ?_
    nlinarith)
  have hv : Real.artanh (L.val x) = 1 / 2 * Real.log ((1 + L.val x) / (1 - L.val x)) := Real.artanh_eq_half_log (by constructor <;> linarith)
  have hlb : |Real.log ((1 + (L.val x : ℝ)) / (1 - L.val x))| ≤ 70 := by
    have h10 := abs_le.mp log_ten_near
    have hmax : (1 + (L.val x : ℝ)) / (1 - L.val x) ≤ 10 ^ 29 := by
      have := (Rat.cast_le (K := ℝ)).mpr hqmax
      push_cast at this
      linarith
    have u1 := Real.log_le_log (by linarith) hmax
    have u2 := Real.log_le_log (by norm_num) hq10R
    rw [Real.log_pow] at u1
    rw [one_div, Real.log_inv] at u2
    push_cast at u1
    rw [abs_le]
    constructor <;> linarith [h10.1, h10.2]
  obtain ⟨z, e5, nz, -⟩ := L.cmul_real (x := l) (y := d.half) (a := 100) (by norm_num) (by
    rw [vh]
    push_cast
    rw [abs_le] at nl hlog hlb ⊢
    constructor <;> linarith [nl.1, nl.2, hlog.1, hlog.2, hlb.1, hlb.2]) (by norm_num)
  rw [vh] at nz
  push_cast at nz
  refine ⟨z, ?_, ?_⟩
  · unfold Dec.atanh
    rw [e0, e0', if_neg (by simp)]
    simp only [Res.bind_eq, e1, e2, Res.bind_ok, e3, e4, e5]
  · rw [hv]
    rw [abs_le] at hlog nl nz ⊢
    constructor <;> linarith [hlog.1, hlog.2, nl.1, nl.2, nz.1, nz.2]

end Dec.Laws
end Prexel
