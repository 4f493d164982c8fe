import Verif.Props.Angles
/-!
# Sines of large angles (C94)

The degrees are multiplied by π / 180 with 28 decimals, and a remainder by 2π is taken: for large angles nothing is left of their direction.
-/

namespace Prexel
variable {D F : Type} {d : Dec D F}

namespace Dec.Laws
variable (L : d.Laws)
include L

/-- 18·10^27 degrees in radians: one of two numbers. -/
theorem toRadians_far {x : D} (hx : L.val x = 18 * 10 ^ 27) : ∃ y, d.toRadians x = .ok y ∧
    (L.val y = 3141592653589793238462643386 / 10 ∨ L.val y = 3141592653589793238462643368 / 10) := by
  have hpi : L.val d.pi = 31415926535897932384626433833 / 10 ^ 28 := by
    have := L.pi
    rw [eq_div_iff (by norm_num)]
    push_cast at this
    exact this
  have v180 : L.val (d.nat 180) = 180 := L.nat_val (n := 180) (by decide)
  obtain ⟨k, hk, -, rk⟩ := L.div_near (x := d.pi) (y := d.nat 180) (a := 1) (by rw [v180]; norm_num) (by norm_num)
    (by rw [v180, hpi, abs_of_pos] <;> norm_num) (by norm_num)
  rw [hpi, v180] at rk
  have rep : ∀ n : ℤ, n.natAbs < 2 ^ 96 → Representable ((n : Rat) / 10 ^ 28) := fun n hn => ⟨28, le_rfl, n, hn, by push_cast; exact div_mul_cancel₀ _ (by norm_num)⟩
  have k1 := (rk _ (rep 174532925199432957692369076 (by decide))).1 (by norm_num)
  have k2 := (rk _ (rep 174532925199432957692369077 (by decide))).2 (by norm_num)
  obtain ⟨n, hn⟩ : ∃ n : ℤ, L.val k * 10 ^ 28 = n := by
    obtain ⟨s, hs, c, -, hc⟩ := L.range k
    refine ⟨c * 10 ^ (28 - s), ?_⟩
    push_cast at hc ⊢
    rw [← hc, mul_assoc, ← pow_add, Nat.add_sub_cancel' hs]
  have n1 : (174532925199432957692369076 : ℤ) ≤ n := by
    have : ((174532925199432957692369076 : ℤ) : Rat) ≤ n := by rw [← hn]; push_cast at k1 ⊢; linarith
    exact_mod_cast this
  have n2 : n ≤ 174532925199432957692369077 := by
    have : (n : Rat) ≤ ((174532925199432957692369077 : ℤ) : Rat) := by rw [← hn]; push_cast at k2 ⊢; linarith
    exact_mod_cast this
  have hkv : L.val k = n / 10 ^ 28 := by rw [eq_div_iff (by norm_num)]; exact hn
  have key : ∀ (v : Rat) (c : ℤ), v = L.val x * L.val k → v * 10 = c → c.natAbs < 2 ^ 96 → (∀ m : ℤ, 1 / 10 ≤ |v - m|) →
      ∃ y, d.toRadians x = .ok y ∧ L.val y = v := by
    intro v c hv hc hc96 hfar
    have hb : |v| ≤ 79 * 10 ^ 27 := by
      have : v = c / 10 := by linarith
      rw [this, abs_div, abs_of_pos (by norm_num : (0 : Rat) < 10)]
      have h1 : |c| ≤ 2 ^ 96 := by
        have := Int.natCast_natAbs c
        omega
      have h2 : |(c : Rat)| ≤ 2 ^ 96 := by exact_mod_cast h1
      have h3 : (2 : Rat) ^ 96 = 79228162514264337593543950336 := by norm_num
      linarith
    obtain ⟨y0, hy0, -, ry0⟩ := L.mul_near (x := x) (y := k) (a := 79 * 10 ^ 27) (by norm_num) (by rw [← hv]; exact hb) le_rfl
    rw [← hv] at ry0
    have vy0 := ry0.eq ⟨1, by omega, c, hc96, by push_cast; simpa using hc⟩
    obtain ⟨y, hy, ny, hcy⟩ := L.approx_near y0
    refine ⟨y, by simp only [Dec.toRadians, Res.bind_eq, hk, Res.bind_ok, hy0, hy], ?_⟩
    rcases hcy with ⟨m, hm⟩ | ⟨rfl, -⟩
    · rw [hm, vy0, abs_sub_comm] at ny
      exact absurd ((hfar m).trans ny) (by norm_num)
    · exact vy0
  have far : ∀ (a : ℤ) (q : Rat), a % 10 = 6 ∨ a % 10 = 8 → q = a / 10 → ∀ m : ℤ, 1 / 10 ≤ |q - m| := by
    intro a q ha hq m
    have h1 : 1 ≤ |a - 10 * m| := by
      have : a - 10 * m ≠ 0 := by omega
      exact Int.one_le_abs this
    have h2 : (1 : Rat) ≤ |(a : Rat) - 10 * m| := by exact_mod_cast h1
    have : q - m = (a - 10 * m) / 10 := by rw [hq]; ring
    rw [this, abs_div, abs_of_pos (by norm_num : (0 : Rat) < 10)]
    linarith
  obtain rfl | rfl : n = 174532925199432957692369077 ∨ n = 174532925199432957692369076 := by omega
  · obtain ⟨y, h1, h2⟩ := key (3141592653589793238462643386 / 10) 3141592653589793238462643386 (by rw [hx, hkv]; norm_num) (by norm_num) (by decide)
      (far 3141592653589793238462643386 _ (by decide) (by norm_num))
    exact ⟨y, h1, .inl h2⟩
  · obtain ⟨y, h1, h2⟩ := key (3141592653589793238462643368 / 10) 3141592653589793238462643368 (by rw [hx, hkv]; norm_num) (by norm_num) (by decide)
      (far 3141592653589793238462643368 _ (by decide) (by norm_num))
    exact ⟨y, h1, .inr h2⟩

/-- What is left of it. -/
theorem rem_far {y r : D} (hy : L.val y = 3141592653589793238462643386 / 10 ∨ L.val y = 3141592653589793238462643368 / 10)
    (hr : d.rem y d.pi2 = .ok r) : L.val r = 27 / 100 ∨ L.val r = L.val d.pi2 - 153 / 100 := by
  have h2 : L.val d.pi2 = 62831853071795864769252867666 / 10 ^ 28 := by
    have := L.pi2
    rw [eq_div_iff (by norm_num)]
    push_cast at this
    exact this
  have hp : 0 < L.val d.pi2 := by rw [h2]; norm_num
  obtain ⟨r', hr', hv⟩ := L.rem y d.pi2 hp.ne'
  have : r' = r := by
    simp [Dec.rem, Dec.crem, hr', Ops.orOverflow, Res.ofOption, Res.unwrapNone] at hr
    exact hr
  subst this
  rw [hv, h2]
  rcases hy with hy | hy
  · left; rw [hy]; decide +kernel
  · right; rw [hy]; decide +kernel

theorem sin_rem_far {r : D} (h : L.val r = 27 / 100 ∨ L.val r = L.val d.pi2 - 153 / 100) : 2 / 10 ≤ |Real.sin (L.val r)| := by
  rcases h with h | h
  · have e : (L.val r : ℝ) = 27 / 100 := by rw [h]; norm_num
    rw [e]
    have := Real.sin_gt_sub_cube (x := 27 / 100) (by norm_num)
    exact le_trans (by linarith) (le_abs_self _)
  · have hp := L.pi2_real
    have e : (L.val r : ℝ) = L.val d.pi2 - 153 / 100 := by rw [h]; push_cast; ring
    have h1 : Real.sin (L.val r) = -Real.sin (153 / 100 - (L.val d.pi2 - 2 * Real.pi)) := by
      rw [← Real.sin_neg, ← Real.sin_sub_two_pi (L.val r), e]
      congr 1
      ring
    rw [abs_le] at hp
    have h2 : Real.sin 1 ≤ Real.sin (153 / 100 - (L.val d.pi2 - 2 * Real.pi)) := by
      refine Real.sin_le_sin_of_le_of_le_pi_div_two ?_ ?_ (by linarith [hp.2])
      · linarith [Real.pi_gt_three]
      · linarith [Real.pi_gt_d2, hp.1]
    have h3 := Real.sin_gt_sub_cube (x := 1) (by norm_num)
    rw [h1, abs_neg]
    exact le_trans (by linarith) (le_abs_self _)

end Dec.Laws

/-- C94 is false for large angles: 18·10^27 degrees are a whole number of turns; the sine that is computed is more than 1/10 from zero, and the cosine
is not 1. -/
theorem C94_large_counterexample (K : Keys) (debug : Bool) (L : d.Laws) (f : F64 F) (config : Config) (c : Context D)
    (hc : d.context K debug f config = .ok c) (os : List (Op D)) (x : D) (hx : L.val x = 18 * 10 ^ 27) :
    (∃ z, evalTokens ((c.runAll K debug os).view K) (callTokens (str "sin") [x]) = .ok z ∧ 1 / 10 ≤ |L.val z| ∧
      Real.sin (L.val x * Real.pi / 180) = 0) ∧
    (∃ z, evalTokens ((c.runAll K debug os).view K) (callTokens (str "cos") [x]) = .ok z ∧ L.val z ≤ 99 / 100 ∧
      Real.cos (L.val x * Real.pi / 180) = 1) := by
  rw [decimal_call hc os (g := _) (name := str "sin") rfl, decimal_call hc os (g := _) (name := str "cos") rfl]
  obtain ⟨y, hy, vy⟩ := L.toRadians_far hx
  obtain ⟨r, s, hr, hs, ns⟩ := L.sin_snapped y
  obtain ⟨r', k, hr', hk, nk⟩ := L.cos_snapped y
  obtain rfl : r = r' := Res.ok.inj (hr.symm.trans hr')
  have hsin := L.sin_rem_far (L.rem_far vy hr)
  have turns : (L.val x : ℝ) * Real.pi / 180 = ((5 * 10 ^ 25 : ℤ) : ℝ) * (2 * Real.pi) := by rw [hx]; push_cast; ring
  refine ⟨⟨s, ?_, ?_, ?_⟩, ⟨k, ?_, ?_, ?_⟩⟩
  · show (d.toRadians x).bind d.sin = _
    rw [hy, Res.bind_ok, hs]
  · have h1 := ns.1
    have h2 : (2 : ℝ) / 10 ≤ |(L.val s : ℝ)| + 2 / 10 ^ 16 := by
      have := abs_sub_abs_le_abs_sub (Real.sin (L.val r)) (L.val s : ℝ)
      rw [abs_sub_comm] at this
      linarith
    have h3 : (1 : ℝ) / 10 ≤ |(L.val s : ℝ)| := by linarith
    have h4 : (((1 / 10 : Rat)) : ℝ) ≤ ((|L.val s| : Rat) : ℝ) := by push_cast; exact h3
    exact_mod_cast h4
  · rw [turns, show ((5 * 10 ^ 25 : ℤ) : ℝ) * (2 * Real.pi) = ((10 ^ 26 : ℤ) : ℝ) * Real.pi by push_cast; ring]
    exact Real.sin_int_mul_pi _
  · show (d.toRadians x).bind d.cos = _
    rw [hy, Res.bind_ok, hk]
  · have h1 := (abs_le.mp nk.1).2
    have h2 : Real.cos (L.val r) ^ 2 ≤ 96 / 100 := by
      have h5 := Real.sin_sq_add_cos_sq (L.val r : ℝ)
      have h6 : (2 / 10 : ℝ) ^ 2 ≤ Real.sin (L.val r) ^ 2 := by
        rw [← sq_abs (Real.sin _)]
        exact pow_le_pow_left₀ (by norm_num) hsin 2
      linarith
    have h3 : Real.cos (L.val r) ≤ 98 / 100 := by
      by_contra hcon
      push Not at hcon
      nlinarith
    have h4 : (L.val k : ℝ) ≤ ((99 / 100 : Rat) : ℝ) := by push_cast; linarith
    exact_mod_cast h4
  · rw [turns]
    exact Real.cos_int_mul_two_pi _

/-- The hypotheses are met. -/
example : ∃ c, Demo.dec.context Demo.keys true Demo.float Config.new = .ok c ∧ Demo.decLaws.val (Demo.decimal (18 * 10 ^ 27)) = 18 * 10 ^ 27 := by
  obtain ⟨c, hc, -⟩ := decimal_build Demo.keys true Demo.dec Demo.float Config.new
  exact ⟨c, hc, by decide +kernel⟩

end Prexel
