import Verif.Lemmas.DecimalArea
import Verif.Lemmas.DecimalLog
/-!
# The inverse hyperbolic functions of decimals, on a wider range
-/

set_option linter.unusedVariables false

namespace Prexel
variable {D F : Type} {d : Dec D F}

theorem cut_small {u : ℝ} (h : 10 / 301 ≤ u) (h1 : u ≤ 1) : (1 - u) ^ 1000 / u ≤ 8 / 10 ^ 14 := by
  have hu : 0 < u := by linarith
  have h2 : (1 - u) ^ 1000 ≤ (291 / 301) ^ 1000 := pow_le_pow_left₀ (by linarith) (by linarith) _
  have h3 : ((291 : ℝ) / 301) ^ 1000 ≤ 25 / 10 ^ 16 := by
    have h4 : ((291 : ℝ) / 301) ^ 100 ≤ 343 / 10000 := by norm_num
    rw [show (1000 : Nat) = 100 * 10 from rfl, pow_mul]
    refine (pow_le_pow_left₀ (by positivity) h4 _).trans ?_
    norm_num
  rw [div_le_iff₀ hu]
  refine (h2.trans h3).trans ?_
  linarith

namespace Dec.Laws
variable (L : d.Laws)
include L

/-- The logarithm of every number from 10/301 on. -/
theorem ln_wide (hfuel : 100 ≤ d.fuel) {u : D} (h : 10 / 301 ≤ (L.val u : ℝ)) : ∃ z, d.ln u = .ok z ∧
    |(L.val z : ℝ) - Real.log (L.val u)| ≤ 9 / 10 ^ 14 := by
  by_cases h1 : 1 / 10 ≤ L.val u
  · obtain ⟨z, e, n⟩ := L.ln_near hfuel h1
    exact ⟨z, e, n.trans (by norm_num)⟩
  · rw [not_le] at h1
    have hu0 : (0 : ℝ) < L.val u := by linarith
    have hu1 : (L.val u : ℝ) < 1 := by
      have : L.val u < 1 := by linarith
      exact_mod_cast this
    obtain ⟨z, e, n⟩ := L.ln_below_one 2 (x := u) (by exact_mod_cast hu0) (by exact_mod_cast hu1)
    refine ⟨z, e, n.trans ?_⟩
    have := cut_small h hu1.le
    generalize (1 - (L.val u : ℝ)) ^ 1000 / L.val u = P at *
    linarith

/-- No logarithm is less than -8. -/
theorem ln_least (hfuel : 100 ≤ d.fuel) {u z : D} (h : d.ln u = .ok z) : -8 ≤ L.val z := by
  by_cases h0 : 0 < L.val u
  · by_cases h1 : L.val u < 1
    · obtain ⟨w, e, n⟩ := L.ln_floor h0 h1
      rw [h] at e
      cases e
      exact n
    · obtain ⟨w, e, n⟩ := L.ln_near hfuel (x := u) (by linarith)
      rw [h] at e
      cases e
      have h1R : (1 : ℝ) ≤ L.val u := by
        rw [not_lt] at h1
        exact_mod_cast h1
      have := Real.log_nonneg h1R
      have : (-8 : ℝ) ≤ L.val z := by linarith [(abs_le.mp n).1]
      exact_mod_cast this
  · have hz0 : L.val d.zero = 0 := by have := L.nat 0 (by decide); exact_mod_cast this
    have : d.lt d.zero u = false := by rw [← Bool.not_eq_true, L.lt, hz0]; exact h0
    rw [show d.ln u = d.lnDepth 3 u from rfl] at h
    unfold Dec.lnDepth at h
    rw [this] at h
    cases h

set_option maxHeartbeats 1000000 in
/-- The inverse hyperbolic sine. -/
theorem asinh_wide (hfuel : 100 ≤ d.fuel) {f : F64 F} (S : L.SqrtStart f) {x : D} (h4 : -15 ≤ L.val x) (h14 : L.val x ≤ 28 * 10 ^ 13) :
    (d.asinh f x = .panic ∧ ∃ x2 t, d.mul x x = .ok x2 ∧ d.add x2 d.one = .ok t ∧ d.sqrt f t = .panic) ∨
    ∃ z, d.asinh f x = .ok z ∧ |(L.val z : ℝ) - Real.arsinh (L.val x)| ≤ 1 / 10 ^ 13 := by
  have v1 : L.val d.one = 1 := L.nat_val (n := 1) (by decide)
  have h4R : (-15 : ℝ) ≤ L.val x := by exact_mod_cast h4
  have h14R : (L.val x : ℝ) ≤ 28 * 10 ^ 13 := by
    have := (Rat.cast_le (K := ℝ)).mpr h14
    push_cast at this
    exact this
  have hsqQ : 1 + L.val x ^ 2 ≤ 785 * 10 ^ 26 := by nlinarith
  obtain ⟨x2, e1, n1, r1⟩ := L.mul_real (x := x) (y := x) (a := 1 + L.val x ^ 2) (by nlinarith [sq_nonneg (L.val x)]) (by
    rw [abs_of_nonneg (mul_self_nonneg _)]
    push_cast
    nlinarith) (hsqQ.trans (by norm_num))
  have p0 : 0 ≤ L.val x2 := (r1 0 (by exact_mod_cast representable_nat (n := 0) (by decide))).1 (mul_self_nonneg _)
  have p0R : (0 : ℝ) ≤ L.val x2 := by exact_mod_cast p0
  push_cast at n1
  have hS2 : (0 : ℝ) < 1 + (L.val x : ℝ) ^ 2 := by positivity
  obtain ⟨t, e2, n2, r2⟩ := L.add_real (x := x2) (y := d.one) (a := 1001 / 1000 * (1 + L.val x ^ 2)) (by nlinarith [sq_nonneg (L.val x)]) (by
    rw [v1, abs_of_nonneg (by push_cast; linarith)]
    push_cast
    nlinarith [(abs_le.mp n1).2]) (by nlinarith)
  rw [v1] at n2 r2
  push_cast at n2
  have ht1 : 1 ≤ L.val t := (r2 1 (by exact_mod_cast representable_nat (n := 1) (by decide))).1 (by linarith)
  have ht1R : (1 : ℝ) ≤ L.val t := by exact_mod_cast ht1
  rcases L.sqrt_near S (x := t) (by linarith) ((L.sign t).2 (by linarith)) with h | ⟨s, hs, ns⟩
  · refine .inl ⟨?_, x2, t, e1, e2, h⟩
    simp only [Dec.asinh, Res.bind_eq, e1, e2, Res.bind_ok, h]
    rfl
  have ht : |(L.val t : ℝ) - (1 + (L.val x : ℝ) ^ 2)| ≤ 6 / 10 ^ 28 * (1 + (L.val x : ℝ) ^ 2) := by
    rw [abs_le] at n1 n2 ⊢
    constructor <;> nlinarith [n1.1, n1.2, n2.1, n2.2]
  have hst1 : 1 ≤ √(L.val t : ℝ) := Real.one_le_sqrt.mpr ht1R
  rw [max_eq_right hst1] at ns
  have hS1 : 1 ≤ √(1 + (L.val x : ℝ) ^ 2) := Real.one_le_sqrt.mpr (by nlinarith [sq_nonneg (L.val x : ℝ)])
  have hSS := Real.sq_sqrt hS2.le
  have hTT := Real.sq_sqrt (show (0 : ℝ) ≤ L.val t by linarith)
  rw [Real.arsinh]
  generalize √(1 + (L.val x : ℝ) ^ 2) = s0 at *
  generalize √(L.val t : ℝ) = s1 at *
  have hclose : |s1 - s0| ≤ 6 / 10 ^ 28 * s0 := by
    have e : (L.val t : ℝ) - (1 + (L.val x : ℝ) ^ 2) = (s1 - s0) * (s1 + s0) := by linear_combination hSS - hTT
    rw [e, abs_mul, abs_of_pos (show 0 < s1 + s0 by linarith), ← hSS] at ht
    by_contra hcon
    rw [not_le] at hcon
    have : 6 / 10 ^ 28 * s0 * s0 < |s1 - s0| * (s1 + s0) := mul_lt_mul'' hcon (by linarith) (by positivity) (by linarith)
    nlinarith
  have hsn : |(L.val s : ℝ) - s0| ≤ 3 / 10 ^ 26 * s0 := by
    rw [abs_le] at hclose ns ⊢
    constructor <;> nlinarith [hclose.1, hclose.2, ns.1, ns.2]
  have hxs : |(L.val x : ℝ)| ≤ s0 := by
    refine abs_le_of_sq_le_sq ?_ (by linarith)
    linarith
  have hs0x : s0 ≤ 1 + |(L.val x : ℝ)| := by
    refine abs_le_of_sq_le_sq' ?_ (by positivity) |>.2
    nlinarith [sq_abs (L.val x : ℝ), abs_nonneg (L.val x : ℝ)]
  have hxs' := abs_le.mp hxs
  have hsb := abs_le.mp hsn
  obtain ⟨u, e3, nu, ru⟩ := L.add_real (x := x) (y := s) (a := 3 * (1 + |L.val x|)) (by linarith [abs_nonneg (L.val x)]) (by
    push_cast
    rw [abs_le]
    constructor <;> linarith) (by
      have : |L.val x| ≤ 28 * 10 ^ 13 := by rw [abs_le]; constructor <;> linarith
      linarith)
  push_cast at nu
  have hu0 : (L.val x + s0) * (s0 - L.val x) = 1 := by linear_combination hSS
  have hneg : (L.val x : ℝ) ≤ 0 → s0 ≤ 150334 / 10000 := fun h => by
    refine abs_le_of_sq_le_sq' ?_ (by norm_num) |>.2
    rw [hSS]
    nlinarith
  have hb1 : 3329 / 100000 ≤ L.val x + s0 := by
    rcases le_total 0 (L.val x : ℝ) with h | h
    · linarith
    · have := hneg h
      have hd : s0 - L.val x ≤ 300334 / 10000 := by linarith
      have hp : 0 < s0 - L.val x := by linarith
      refine le_of_mul_le_mul_right ?_ hp
      rw [hu0]
      nlinarith
  have hb2 : s0 ≤ 500 * (L.val x + s0) := by
    rcases le_total 0 (L.val x : ℝ) with h | h
    · linarith
    · have := hneg h
      linarith
  have hun : |(L.val u : ℝ) - (L.val x + s0)| ≤ 1 / 10 ^ 20 * (L.val x + s0) := by
    rw [abs_le] at nu ⊢
    constructor <;> linarith [nu.1, nu.2]
  have hu1 : 10 / 301 ≤ (L.val u : ℝ) := by nlinarith [(abs_le.mp hun).1]
  obtain ⟨z, e4, nz⟩ := L.ln_wide hfuel hu1
  have hlog := log_close (by linarith : 0 < (L.val x : ℝ) + s0) (by norm_num) hun
  right
  refine ⟨z, ?_, ?_⟩
  · simp only [Dec.asinh, Res.bind_eq, e1, e2, Res.bind_ok, hs, Res.unwrapNone, e3, e4]
  · rw [abs_le] at hlog nz ⊢
    constructor <;> linarith [hlog.1, hlog.2, nz.1, nz.2]

/-- No inverse hyperbolic sine is less than -8. -/
theorem asinh_least (hfuel : 100 ≤ d.fuel) {f : F64 F} {x z : D} (h : d.asinh f x = .ok z) : -8 ≤ L.val z := by
  unfold Dec.asinh at h
  simp only [Res.bind_eq] at h
  cases h1 : d.mul x x with
  | err k => rw [h1] at h; cases h
  | panic => rw [h1] at h; cases h
  | ok x2 =>
    rw [h1, Res.bind_ok] at h
    cases h2 : d.add x2 d.one with
    | err k => rw [h2] at h; cases h
    | panic => rw [h2] at h; cases h
    | ok t =>
      rw [h2, Res.bind_ok] at h
      cases h3 : (d.sqrt f t).unwrapNone with
      | err k => rw [h3] at h; cases h
      | panic => rw [h3] at h; cases h
      | ok s =>
        rw [h3, Res.bind_ok] at h
        cases h4 : d.add x s with
        | err k => rw [h4] at h; cases h
        | panic => rw [h4] at h; cases h
        | ok u =>
          rw [h4, Res.bind_ok] at h
          cases h5 : d.ln u with
          | err k => rw [h5] at h; cases h
          | panic => rw [h5] at h; cases h
          | ok w =>
            rw [h5] at h
            cases h
            exact L.ln_least hfuel h5

omit L in
theorem arsinh_far {X : ℝ} (h : X ≤ -5000) : Real.arsinh X ≤ -9 := by
  have hS : 0 ≤ 1 + X ^ 2 := by positivity
  have h2 := Real.sq_sqrt hS
  have h1 : -X ≤ √(1 + X ^ 2) := by
    refine Real.le_sqrt_of_sq_le ?_
    nlinarith
  rw [Real.arsinh]
  generalize √(1 + X ^ 2) = s at *
  have e : (X + s) * (s - X) = 1 := by linear_combination h2
  have hp : 0 < s - X := by linarith
  have h0 : 0 < X + s := by
    by_contra hc
    rw [not_lt] at hc
    nlinarith
  refine log_lt_of_small h0 ?_
  refine le_of_mul_le_mul_right ?_ hp
  rw [e]
  linarith

/-- The product of a large number with itself is beyond the range. -/
theorem square_over {x : D} (h : 2 ^ 48 ≤ |L.val x|) : d.mul x x = .panic := by
  have hb : Beyond (L.val x * L.val x) := by
    right
    push_cast
    rw [← abs_mul_abs_self]
    nlinarith
  have := L.mulOver x x hb
  rw [Dec.mul, Dec.cmul, this]
  rfl

/-- The inverse hyperbolic cosine up to 28·10^13. -/
theorem acosh_wide (hfuel : 100 ≤ d.fuel) {f : F64 F} (S : L.SqrtStart f) {x : D} (h1 : 1 < L.val x) (h14 : L.val x ≤ 28 * 10 ^ 13) :
    (d.acosh f x = .panic ∧ ∃ x2 t, d.mul x x = .ok x2 ∧ d.sub x2 d.one = .ok t ∧ d.sqrt f t = .panic) ∨
    ∃ z, d.acosh f x = .ok z ∧ |(L.val z : ℝ) - Real.arcosh (L.val x)| ≤ 6 / 10 ^ 14 := by
  have v1 : L.val d.one = 1 := L.nat_val (n := 1) (by decide)
  have h1R : (1 : ℝ) < L.val x := by exact_mod_cast h1
  have h14R : (L.val x : ℝ) ≤ 28 * 10 ^ 13 := by
    have := (Rat.cast_le (K := ℝ)).mpr h14
    push_cast at this
    exact this
  have e0 : d.lt x d.one = false := by rw [← Bool.not_eq_true, L.lt, v1]; linarith
  obtain ⟨x2, e1, n1, r1⟩ := L.mul_real (x := x) (y := x) (a := L.val x ^ 2) (by nlinarith) (by
    rw [abs_of_nonneg (mul_self_nonneg _)]
    push_cast
    nlinarith) (by nlinarith)
  push_cast at n1
  have p0 : L.val x ≤ L.val x2 := (r1 _ (L.range x)).1 (by nlinarith)
  have p0R : (L.val x : ℝ) ≤ L.val x2 := by exact_mod_cast p0
  obtain ⟨t, e2, n2, r2⟩ := L.sub_real (x := x2) (y := d.one) (a := 1001 / 1000 * L.val x ^ 2) (by nlinarith) (by
    rw [v1, abs_of_nonneg (by push_cast; linarith)]
    push_cast
    nlinarith [(abs_le.mp n1).2]) (by nlinarith)
  rw [v1] at n2 r2
  push_cast at n2
  have ht0 : 0 < L.val t := by
    by_cases h7 : L.val x2 - 1 ≤ 7
    · have := r2.eq (by rw [← v1]; exact L.representable_sub (by rw [v1, abs_le]; constructor <;> linarith))
      linarith
    · have : 7 ≤ L.val t := (r2 7 (by exact_mod_cast representable_nat (n := 7) (by decide))).1 (by linarith)
      linarith
  have ht0R : (0 : ℝ) < L.val t := by exact_mod_cast ht0
  rcases L.sqrt_near S (x := t) ht0.le ((L.sign t).2 ht0) with h | ⟨s, hs, ns⟩
  · refine .inl ⟨?_, x2, t, e1, e2, h⟩
    unfold Dec.acosh
    rw [e0, if_neg (by simp)]
    simp only [Res.bind_eq, e1, e2, Res.bind_ok, h]
    rfl
  right
  have hy0 : (0 : ℝ) ≤ (L.val x : ℝ) ^ 2 - 1 := by nlinarith
  have ht : |(L.val t : ℝ) - ((L.val x : ℝ) ^ 2 - 1)| ≤ 6 / 10 ^ 28 * (L.val x : ℝ) ^ 2 := by
    rw [abs_le] at n1 n2 ⊢
    constructor <;> nlinarith [n1.1, n1.2, n2.1, n2.2]
  have hsub := sqrt_abs_sub (L.val t : ℝ) ((L.val x : ℝ) ^ 2 - 1) ht0R.le hy0
  have hsub2 : √|(L.val t : ℝ) - ((L.val x : ℝ) ^ 2 - 1)| ≤ 25 / 10 ^ 15 * L.val x := by
    rw [Real.sqrt_le_left (by positivity)]
    refine ht.trans ?_
    nlinarith
  have hy1 : √((L.val x : ℝ) ^ 2 - 1) ≤ L.val x := by
    rw [Real.sqrt_le_left (by linarith)]
    linarith
  have hy2 := Real.sqrt_nonneg ((L.val x : ℝ) ^ 2 - 1)
  rw [Real.arcosh]
  generalize √((L.val x : ℝ) ^ 2 - 1) = y at *
  have hst : √(L.val t : ℝ) ≤ 2 * L.val x := by linarith [(abs_le.mp hsub).2]
  have hst0 := Real.sqrt_nonneg (L.val t : ℝ)
  generalize √(L.val t : ℝ) = s1 at *
  have hm : max 1 s1 ≤ 2 * L.val x := max_le (by linarith) hst
  have hsn : |(L.val s : ℝ) - y| ≤ 26 / 10 ^ 15 * L.val x := by
    rw [abs_le] at hsub ns ⊢
    constructor <;> nlinarith [hsub.1, hsub.2, ns.1, ns.2]
  obtain ⟨u, e3, nu, ru⟩ := L.add_real (x := x) (y := s) (a := 3 * L.val x) (by linarith) (by
    push_cast
    rw [abs_le] at hsn ⊢
    constructor <;> linarith [hsn.1, hsn.2]) (by linarith)
  push_cast at nu
  have hun : |(L.val u : ℝ) - (L.val x + y)| ≤ 27 / 10 ^ 15 * (L.val x + y) := by
    rw [abs_le] at nu hsn ⊢
    constructor <;> linarith [nu.1, nu.2, hsn.1, hsn.2]
  have hu1 : 1 / 10 ≤ L.val u := by
    have : (1 / 10 : ℝ) ≤ L.val u := by nlinarith [(abs_le.mp hun).1]
    have : (((1 / 10 : Rat)) : ℝ) ≤ L.val u := by push_cast; exact this
    exact_mod_cast this
  obtain ⟨z, e4, nz⟩ := L.ln_near hfuel hu1
  have hlog := log_close (by linarith : 0 < (L.val x : ℝ) + y) (by norm_num) hun
  refine ⟨z, ?_, ?_⟩
  · unfold Dec.acosh
    rw [e0, if_neg (by simp)]
    simp only [Res.bind_eq, e1, e2, Res.bind_ok, hs, e3, e4]
  · rw [abs_le] at hlog nz ⊢
    constructor <;> linarith [hlog.1, hlog.2, nz.1, nz.2]

/-- The inverse hyperbolic tangent from -93/100 on. -/
theorem atanh_wide (hfuel : 100 ≤ d.fuel) {x : D} (h9 : -93 / 100 ≤ L.val x) (h1 : L.val x < 1) :
    ∃ z, d.atanh x = .ok z ∧ |(L.val z : ℝ) - Real.artanh (L.val x)| ≤ 1 / 10 ^ 13 := by
  by_cases h8 : -9 / 11 ≤ L.val x
  · obtain ⟨z, e, n⟩ := L.atanh_near hfuel h8 h1
    exact ⟨z, e, n.trans (by norm_num)⟩
  rw [not_le] at h8
  have v1 : L.val d.one = 1 := L.nat_val (n := 1) (by decide)
  have vm : L.val d.oneMinus = -1 := by rw [L.oneMinus]; norm_num
  have vh := L.half
  have h1R : (L.val x : ℝ) < 0 := by exact_mod_cast (by linarith : L.val x < 0)
  have h9R : (-93 / 100 : ℝ) ≤ L.val x := by
    have := (Rat.cast_le (K := ℝ)).mpr h9
    push_cast at this
    exact this
  have e0 : d.lt x d.oneMinus = false := by rw [← Bool.not_eq_true, L.lt, vm]; linarith
  have e0' : d.lt d.one x = false := by rw [← Bool.not_eq_true, L.lt, v1]; linarith
  have hr1 : Representable (1 + L.val x) := by
    rw [show 1 + L.val x = L.val x - L.val d.oneMinus by rw [vm]; ring]
    exact L.representable_sub (by rw [vm, abs_le]; constructor <;> linarith)
  have hr2 : Representable (1 - L.val x) := by
    rw [← v1]
    exact L.representable_sub (by rw [v1, abs_le]; constructor <;> linarith)
  obtain ⟨x0, e1, -, r1⟩ := L.add_near (x := d.one) (y := x) (a := 2) (by norm_num) (by rw [v1, abs_le]; constructor <;> linarith) (by norm_num)
  obtain ⟨x1, e2, -, r2⟩ := L.sub_near (x := d.one) (y := x) (a := 2) (by norm_num) (by rw [v1, abs_le]; constructor <;> linarith) (by norm_num)
  rw [v1] at r1 r2
  have w0 : L.val x0 = 1 + L.val x := r1.eq hr1
  have w1 : L.val x1 = 1 - L.val x := r2.eq hr2
  have w0R : (L.val x0 : ℝ) = 1 + L.val x := by rw [w0]; push_cast; rfl
  have w1R : (L.val x1 : ℝ) = 1 - L.val x := by rw [w1]; push_cast; rfl
  have hq10R : (35 : ℝ) / 1000 ≤ (1 + L.val x) / (1 - L.val x) := by rw [le_div_iff₀ (by linarith)]; linarith
  have hqmax : (1 + (L.val x : ℝ)) / (1 - L.val x) ≤ 1 := by rw [div_le_iff₀ (by linarith)]; linarith
  obtain ⟨q, e3, nq, rq⟩ := L.div_real (x := x0) (y := x1) (a := 1) (by rw [w1R]; linarith) le_rfl (by
    rw [w0R, w1R, abs_of_nonneg (by linarith)]
    push_cast
    exact hqmax) (by norm_num)
  rw [w0R, w1R] at nq
  push_cast at nq
  have hv : Real.artanh (L.val x) = 1 / 2 * Real.log ((1 + L.val x) / (1 - L.val x)) := Real.artanh_eq_half_log (by constructor <;> linarith)
  rw [hv]
  generalize (1 + (L.val x : ℝ)) / (1 - L.val x) = Q at *
  have hq1 : 10 / 301 ≤ (L.val q : ℝ) := by linarith [(abs_le.mp nq).1]
  obtain ⟨l, e4, nl⟩ := L.ln_wide hfuel hq1
  have hlog := log_close (u := L.val q) (v := Q) (ε := 1 / 10 ^ 20) (by linarith) (by norm_num) (by
    refine nq.trans ?_
    nlinarith)
  have hlb : |Real.log Q| ≤ 70 := by
    have u2 := Real.log_le_log (by norm_num) (show (1 : ℝ) / 10 ^ 2 ≤ Q by linarith)
    have u1 : Real.log Q ≤ 0 := Real.log_nonpos (by linarith) hqmax
    have h10 := abs_le.mp log_ten_near
    rw [one_div, Real.log_inv, Real.log_pow] at u2
    push_cast at u2
    rw [abs_le]
    constructor <;> linarith [h10.1, h10.2]
  obtain ⟨z, e5, nz, -⟩ := L.cmul_real (x := l) (y := d.half) (a := 100) (by norm_num) (by
    rw [vh]
    push_cast
    rw [abs_le] at nl hlog hlb ⊢
    constructor <;> linarith [nl.1, nl.2, hlog.1, hlog.2, hlb.1, hlb.2]) (by norm_num)
  rw [vh] at nz
  push_cast at nz
  refine ⟨z, ?_, ?_⟩
  · unfold Dec.atanh
    rw [e0, e0', if_neg (by simp)]
    simp only [Res.bind_eq, e1, e2, Res.bind_ok, e3, e4, e5]
  · rw [abs_le] at hlog nz nl ⊢
    constructor <;> linarith [hlog.1, hlog.2, nz.1, nz.2, nl.1, nl.2]

/-- No inverse hyperbolic tangent is less than -4. -/
theorem atanh_least (hfuel : 100 ≤ d.fuel) {x z : D} (h : d.atanh x = .ok z) : -4 ≤ L.val z := by
  unfold Dec.atanh at h
  split at h
  · cases h
  simp only [Res.bind_eq] at h
  cases h1 : d.add d.one x with
  | err k => rw [h1] at h; cases h
  | panic => rw [h1] at h; cases h
  | ok x0 =>
    rw [h1, Res.bind_ok] at h
    cases h2 : d.sub d.one x with
    | err k => rw [h2] at h; cases h
    | panic => rw [h2] at h; cases h
    | ok x1 =>
      rw [h2, Res.bind_ok] at h
      cases h3 : d.div x0 x1 with
      | err k => rw [h3] at h; cases h
      | panic => rw [h3] at h; cases h
      | ok q =>
        rw [h3, Res.bind_ok] at h
        cases h4 : d.ln q with
        | err k => rw [h4] at h; cases h
        | panic => rw [h4] at h; cases h
        | ok l =>
          rw [h4, Res.bind_ok] at h
          have hl := L.ln_least hfuel h4
          have hb := representable_bounded (L.range l)
          rw [Bounded, maxDecimal_eq] at hb
          have hh := L.half
          obtain ⟨w, hw, rw⟩ := L.mul l d.half (by rw [hh]; unfold Bounded; rw [maxDecimal_eq]; constructor <;> linarith [hb.1, hb.2])
          have : w = z := by
            simp only [Dec.cmul, hw, Ops.orOverflow] at h
            exact Res.ok.inj h
          subst this
          refine (rw (-4) ⟨0, by decide, -4, by decide, by norm_num⟩).1 ?_
          rw [hh]
          linarith

omit L in
theorem artanh_far {X : ℝ} (h0 : -1 < X) (h : X ≤ -9999 / 10000) : Real.artanh X ≤ -9 / 2 := by
  rw [Real.artanh_eq_half_log (by constructor <;> linarith)]
  have := log_lt_of_small (X := (1 + X) / (1 - X)) (div_pos (by linarith) (by linarith)) (by
    rw [div_le_iff₀ (by linarith)]
    linarith)
  linarith

end Dec.Laws

end Prexel
