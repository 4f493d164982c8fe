import Mathlib.Analysis.SpecialFunctions.Log.Deriv
import Mathlib.NumberTheory.Harmonic.Bounds
import Verif.Lemmas.DecimalCbrt
/-!
# The logarithm of decimals
-/

set_option linter.unusedVariables false

namespace Prexel
variable {D F : Type} {d : Dec D F}

theorem abs_pow_sub_le {a b : Rat} (ha : |a| ≤ 1) (hb : |b| ≤ 1) (k : Nat) : |a ^ k - b ^ k| ≤ k * |a - b| := by
  induction k with
  | zero => simp
  | succ k ih =>
    have e : a ^ (k + 1) - b ^ (k + 1) = a * (a ^ k - b ^ k) + (a - b) * b ^ k := by ring
    rw [e]
    refine (abs_add_le _ _).trans ?_
    rw [abs_mul, abs_mul, abs_pow]
    have h1 : |a| * |a ^ k - b ^ k| ≤ 1 * (k * |a - b|) := mul_le_mul ha ih (abs_nonneg _) (by norm_num)
    have h2 : |a - b| * |b| ^ k ≤ |a - b| * 1 := mul_le_mul_of_nonneg_left (pow_le_one₀ (abs_nonneg _) hb) (abs_nonneg _)
    push_cast
    linarith

namespace Dec.Laws
variable (L : d.Laws)
include L

theorem cmul_unit {x y : D} (hx : |L.val x| ≤ 1) (hy : |L.val y| ≤ 1) :
    ∃ z, d.cmul x y = .ok z ∧ |L.val z| ≤ 1 ∧ |L.val z - L.val x * L.val y| ≤ unit := by
  have h : |L.val x * L.val y| ≤ 1 := by rw [abs_mul]; exact mul_le_one₀ hx (abs_nonneg _) hy
  obtain ⟨z, e, n, r⟩ := L.cmul_near (x := x) (y := y) (a := 1) le_rfl h (by norm_num)
  exact ⟨z, e, bounded_abs.mp (r.bounded (by decide +kernel) (bounded_abs.mpr h)), by rw [mul_one] at n; exact n⟩

/-- A power by repeated squaring. -/
theorem powiLoop_near (fuel : Nat) : ∀ (e : Nat) (r b : D), e < 2 ^ fuel → |L.val r| ≤ 1 → |L.val b| ≤ 1 →
    ∃ z, d.powiLoop fuel r b e = .ok z ∧ |L.val z| ≤ 1 ∧ |L.val z - L.val r * L.val b ^ e| ≤ 2 * e * unit := by
  have u0 : 0 < unit := by unfold unit; norm_num
  induction fuel with
  | zero =>
    intro e r b he hr hb
    have : e = 0 := by simpa using he
    subst this
    exact ⟨r, rfl, hr, by simp⟩
  | succ fuel ih =>
    intro e r b he hr hb
    unfold Dec.powiLoop
    by_cases h0 : 0 < e
    · rw [if_pos h0]
      obtain ⟨b2, e2, hb2, n2⟩ := L.cmul_unit hb hb
      have hpow : ∀ k : Nat, |L.val b2 ^ k - (L.val b ^ 2) ^ k| ≤ k * unit := fun k => by
        have hbb : |L.val b ^ 2| ≤ 1 := by rw [abs_pow]; exact pow_le_one₀ (abs_nonneg _) hb
        refine (abs_pow_sub_le hb2 hbb k).trans ?_
        rw [pow_two]
        exact mul_le_mul_of_nonneg_left n2 (by positivity)
      by_cases hodd : e % 2 ≠ 0
      · rw [if_pos hodd]
        obtain ⟨r2, e1, hr2, n1⟩ := L.cmul_unit hr hb
        obtain ⟨z, hz, hz1, hzn⟩ := ih ((e - 1) / 2) r2 b2 (by omega) hr2 hb2
        refine ⟨z, ?_, hz1, ?_⟩
        · simp only [Res.bind_eq, e1, Res.bind_ok, Res.pure_eq, e2]; exact hz
        · obtain ⟨k, hk⟩ : ∃ k, (e - 1) / 2 = k := ⟨_, rfl⟩
          have he2 : e = 2 * k + 1 := by omega
          rw [hk] at hzn
          have hk' := hpow k
          subst he2
          have d1 : |L.val r2 * (L.val b2 ^ k - (L.val b ^ 2) ^ k)| ≤ k * unit := by
            rw [abs_mul]
            have := mul_le_mul hr2 hk' (abs_nonneg _) (by norm_num)
            linarith
          have d2 : |(L.val r2 - L.val r * L.val b) * (L.val b ^ 2) ^ k| ≤ unit := by
            rw [abs_mul]
            have hbb : |(L.val b ^ 2) ^ k| ≤ 1 := by rw [← pow_mul, abs_pow]; exact pow_le_one₀ (abs_nonneg _) hb
            have := mul_le_mul n1 hbb (abs_nonneg _) u0.le
            linarith
          have e3 : L.val z - L.val r * L.val b ^ (2 * k + 1) = (L.val z - L.val r2 * L.val b2 ^ k) +
              (L.val r2 * (L.val b2 ^ k - (L.val b ^ 2) ^ k) + (L.val r2 - L.val r * L.val b) * (L.val b ^ 2) ^ k) := by
            rw [pow_succ, pow_mul]; ring
          rw [e3]
          refine (abs_add_le _ _).trans ((add_le_add hzn ((abs_add_le _ _).trans (add_le_add d1 d2))).trans ?_)
          push_cast
          have : 0 ≤ (k : Rat) * unit := by positivity
          linarith
      · rw [if_neg hodd]
        obtain ⟨z, hz, hz1, hzn⟩ := ih (e / 2) r b2 (by omega) hr hb2
        refine ⟨z, ?_, hz1, ?_⟩
        · simp only [Res.bind_eq, Res.bind_ok, Res.pure_eq, e2]; exact hz
        · obtain ⟨k, hk⟩ : ∃ k, e / 2 = k := ⟨_, rfl⟩
          have he2 : e = 2 * k := by omega
          rw [hk] at hzn
          have hk' := hpow k
          subst he2
          have d1 : |L.val r * (L.val b2 ^ k - (L.val b ^ 2) ^ k)| ≤ k * unit := by
            rw [abs_mul]
            have := mul_le_mul hr hk' (abs_nonneg _) (by norm_num)
            linarith
          have e3 : L.val z - L.val r * L.val b ^ (2 * k) = (L.val z - L.val r * L.val b2 ^ k) +
              (L.val r * (L.val b2 ^ k - (L.val b ^ 2) ^ k)) := by
            rw [pow_mul]; ring
          rw [e3]
          refine (abs_add_le _ _).trans ((add_le_add hzn d1).trans ?_)
          push_cast
          have : 0 ≤ (k : Rat) * unit := by positivity
          linarith
    · rw [if_neg h0]
      have : e = 0 := by omega
      subst this
      exact ⟨r, rfl, hr, by simp⟩

theorem powi_near {b : D} (hb : |L.val b| ≤ 1) (n : Nat) (hn : n < 2 ^ 64) :
    ∃ z, d.powi b (n : Nat) = .ok z ∧ |L.val z| ≤ 1 ∧ |L.val z - L.val b ^ n| ≤ 2 * n * unit := by
  have u0 : 0 < unit := by unfold unit; norm_num
  have e : d.powi b (n : Nat) = d.powiNat b n := by
    unfold Dec.powi
    rw [if_neg (by omega), Int.natAbs_natCast]
  rw [e]
  unfold Dec.powiNat
  by_cases h0 : n = 0
  · subst h0
    exact ⟨d.one, by simp, by rw [L.one_val]; norm_num, by rw [L.one_val]; simp⟩
  rw [if_neg h0]
  by_cases h1 : n = 1
  · subst h1
    exact ⟨b, by simp, hb, by simp; positivity⟩
  rw [if_neg h1]
  obtain ⟨z, h, h2, h3⟩ := L.powiLoop_near 64 n d.one b hn (by rw [L.one_val]; norm_num) hb
  rw [L.one_val, one_mul] at h3
  exact ⟨z, h, h2, h3⟩

/-- A power of -1 is exact. -/
theorem powi_sign (n : Nat) (hn : n < 2 ^ 64) : ∃ z, d.powi d.oneMinus (n : Nat) = .ok z ∧ L.val z = (-1) ^ n := by
  have hv : L.val d.oneMinus = -1 := by rw [L.oneMinus]; norm_num
  have e : d.powi d.oneMinus (n : Nat) = d.powiNat d.oneMinus n := by
    unfold Dec.powi
    rw [if_neg (by omega), Int.natAbs_natCast]
  rw [e]
  unfold Dec.powiNat
  by_cases h0 : n = 0
  · subst h0
    exact ⟨d.one, by simp, by rw [L.one_val]; norm_num⟩
  rw [if_neg h0]
  by_cases h1 : n = 1
  · subst h1
    exact ⟨d.oneMinus, by simp, by rw [hv]; norm_num⟩
  rw [if_neg h1]
  obtain ⟨z, hz, h⟩ := L.powiLoop (q := -1) 64 0 1 n d.one d.oneMinus (by rw [L.one_val]; norm_num) (by rw [hv]; norm_num) (by omega) hn (by omega)
    (fun k _ => by
      rcases neg_one_pow_eq_or Rat k with h | h <;> rw [h] <;> decide +kernel)
  exact ⟨z, hz, by rw [h]; congr 1; omega⟩

/-- `approx` moves a number by less than 10^-16, and only to a whole number. -/
theorem approx_near (x : D) : ∃ z, d.approx x = .ok z ∧ |L.val z - L.val x| ≤ 1 / 10 ^ 16 ∧
    ((∃ n : Int, L.val z = n) ∨ (z = x ∧ ∀ n : Int, 1 / 10 ^ 16 ≤ |L.val x - n|)) := by
  obtain ⟨n, hn, hb⟩ := L.round x
  obtain ⟨w, hw, hwv⟩ := L.csub (L.round_sub x)
  have hs : d.sub x (d.round x) = .ok w := by simp [Dec.sub, hw, Res.unwrapNone]
  unfold Dec.approx Dec.approxEq
  simp only [Res.bind_eq, hs, Res.bind_ok, Res.pure_eq]
  refine ⟨_, rfl, ?_⟩
  have habs : L.val (d.abs w) = |L.val x - n| := by
    rw [L.abs, hwv, hn]
    split
    · next h => rw [abs_of_neg h]
    · next h => rw [abs_of_nonneg (not_lt.mp h)]
  split
  · next h =>
    rw [L.lt, habs, L.precision] at h
    refine ⟨?_, .inl ⟨n, hn⟩⟩
    rw [hn, abs_sub_comm]
    exact h.le.trans (by norm_num)
  · next h =>
    rw [L.lt, habs, L.precision] at h
    push Not at h
    refine ⟨by rw [sub_self]; norm_num, .inr ⟨rfl, fun m => ?_⟩⟩
    by_cases hm : m = n
    · rw [hm]; exact (le_of_eq (by norm_num)).trans h
    · obtain ⟨h1, h2⟩ := hb
      rcases lt_or_gt_of_ne hm with hlt | hlt
      · have : (m : Rat) + 1 ≤ n := by exact_mod_cast hlt
        refine le_trans ?_ (le_abs_self _)
        norm_num; linarith
      · have : (n : Rat) + 1 ≤ m := by exact_mod_cast hlt
        refine le_trans ?_ (neg_le_abs _)
        norm_num; linarith

/-- The terms of the series. -/
def lnTerm (y : Rat) (n : Nat) : Rat := (-1) ^ (n + 1) * y ^ n / n

theorem sub_one_representable {x : D} (h0 : 0 < L.val x) (h1 : L.val x ≤ 1) : Representable (L.val x - 1) := by
  obtain ⟨s, hs, c, hc, h⟩ := L.range x
  have hp : (0 : Rat) < ((10 ^ s : Int) : Rat) := by positivity
  refine ⟨s, hs, c - 10 ^ s, ?_, by push_cast at h ⊢; linarith⟩
  have c0 : (0 : Rat) ≤ (c : Rat) := by rw [← h]; positivity
  have c1 : (c : Rat) ≤ ((10 ^ s : Int) : Rat) := by rw [← h]; nlinarith
  have c0 : 0 ≤ c := by exact_mod_cast c0
  have c1 : c ≤ 10 ^ s := by exact_mod_cast c1
  have : (10 : Int) ^ s ≤ 10 ^ 28 := pow_le_pow_right₀ (by norm_num) hs
  omega

theorem lnSeries_near {x : D} (h0 : 0 < L.val x) (h1 : L.val x ≤ 1) (k : Nat) : ∀ (n : Nat) (r : D), 1 ≤ n → n + k ≤ 1000 → |L.val r| ≤ 2 * n →
    ∃ z, d.lnSeries x k n r = .ok z ∧
      |L.val z - (L.val r + ∑ i ∈ Finset.range k, lnTerm (L.val x - 1) (n + i))| ≤ k * (2010 * unit) := by
  have u : unit = 2 / 10 ^ 28 := rfl
  have u0 : 0 < unit := by rw [u]; norm_num
  induction k with
  | zero => intro n r h1 h2 h3; exact ⟨r, rfl, by simp⟩
  | succ k ih =>
    intro n r hn hk hr
    obtain ⟨sg, e1, v1⟩ := L.powi_sign (n + 1) (by omega)
    obtain ⟨y, e2, v2⟩ := L.csub (x := x) (y := d.one) (by rw [L.one_val]; exact L.sub_one_representable h0 h1)
    rw [L.one_val] at v2
    have hy : |L.val y| ≤ 1 := by rw [v2, abs_le]; constructor <;> linarith
    obtain ⟨xn, e3, b3, n3⟩ := L.powi_near hy n (by omega)
    have hnv : L.val (d.nat n) = (n : Rat) := L.nat_val (by omega)
    have hn1 : (1 : Rat) ≤ n := by exact_mod_cast hn
    have hb : |L.val xn / L.val (d.nat n)| ≤ 1 := by
      rw [hnv, abs_div, abs_of_pos (show (0 : Rat) < n by linarith), div_le_iff₀ (by linarith)]
      linarith
    obtain ⟨q, e4, n4, k4⟩ := L.cdiv_near (x := xn) (y := d.nat n) (a := 1) (by rw [hnv]; linarith) le_rfl hb (by norm_num)
    have b4 : |L.val q| ≤ 1 := bounded_abs.mp (k4.bounded (by decide +kernel) (bounded_abs.mpr hb))
    rw [hnv, mul_one] at n4
    obtain ⟨t, e5, v5⟩ := L.cmul (x := q) (y := sg) (by
      rw [v1]
      rcases neg_one_pow_eq_or Rat (n + 1) with h | h <;> rw [h]
      · rw [mul_one]; exact L.range q
      · rw [mul_neg_one]; exact representable_neg (L.range q))
    have b5 : |L.val t| ≤ 1 := by rw [v5, v1, abs_mul, abs_pow, abs_neg, abs_one, one_pow, mul_one]; exact b4
    have hn2 : (n : Rat) ≤ 1000 := by exact_mod_cast (by omega : n ≤ 1000)
    obtain ⟨r2, e6, n6, -⟩ := L.cadd_near (x := r) (y := t) (a := 2 * n + 1) (by linarith) ((abs_add_le _ _).trans (add_le_add hr b5)) (by linarith)
    have b6 : |L.val r2| ≤ 2 * ((n + 1 : Nat) : Rat) := by
      have h1 := abs_add_le (L.val r2 - (L.val r + L.val t)) (L.val r + L.val t)
      rw [sub_add_cancel] at h1
      have h2 := abs_add_le (L.val r) (L.val t)
      push_cast
      rw [u] at n6
      linarith
    obtain ⟨z, e7, n7⟩ := ih (n + 1) r2 (by omega) (by omega) b6
    refine ⟨z, ?_, ?_⟩
    · simp only [Dec.lnSeries, Res.bind_eq, e1, e2, e3, e4, e5, e6, Res.bind_ok]
      exact e7
    · rw [Finset.sum_range_succ', Nat.add_zero]
      have hsum : ∑ i ∈ Finset.range k, lnTerm (L.val x - 1) (n + (i + 1)) = ∑ i ∈ Finset.range k, lnTerm (L.val x - 1) (n + 1 + i) :=
        Finset.sum_congr rfl fun i _ => by rw [show n + (i + 1) = n + 1 + i by omega]
      rw [hsum]
      have ht : |L.val t - lnTerm (L.val x - 1) n| ≤ 3 * unit := by
        have : L.val t - lnTerm (L.val x - 1) n = (-1) ^ (n + 1) * ((L.val q - L.val xn / n) + (L.val xn - L.val y ^ n) / n) := by
          unfold lnTerm; rw [v5, v1, ← v2]; field_simp; ring
        rw [this, abs_mul, abs_pow, abs_neg, abs_one, one_pow, one_mul]
        refine (abs_add_le _ _).trans ?_
        have : |(L.val xn - L.val y ^ n) / n| ≤ 2 * unit := by
          rw [abs_div, abs_of_pos (show (0 : Rat) < n by linarith), div_le_iff₀ (by linarith)]
          linarith
        linarith
      have hd : L.val z - (L.val r + (∑ i ∈ Finset.range k, lnTerm (L.val x - 1) (n + 1 + i) + lnTerm (L.val x - 1) n)) =
          (L.val z - (L.val r2 + ∑ i ∈ Finset.range k, lnTerm (L.val x - 1) (n + 1 + i))) + ((L.val r2 - (L.val r + L.val t)) + (L.val t - lnTerm (L.val x - 1) n)) := by ring
      rw [hd]
      refine (abs_add_le _ _).trans ((add_le_add n7 ((abs_add_le _ _).trans (add_le_add n6 ht))).trans ?_)
      push_cast
      have : unit * (2 * n + 1) ≤ unit * 2001 := mul_le_mul_of_nonneg_left (by linarith) u0.le
      linarith

end Dec.Laws

/-! ## Comparison with the logarithm -/

theorem log_ten_near : |Real.log 10 - 23025850929940456840179914546 / 10 ^ 28| ≤ 1 / 10 ^ 19 := by
  have a := Real.abs_log_sub_add_sum_range_le (x := 1 / 10) (by rw [abs_of_pos (by norm_num)]; norm_num) 21
  have b := Real.abs_log_sub_add_sum_range_le (x := 1 / 25) (by rw [abs_of_pos (by norm_num)]; norm_num) 15
  have c := Real.abs_log_sub_add_sum_range_le (x := 1 / 81) (by rw [abs_of_pos (by norm_num)]; norm_num) 11
  have e : Real.log 10 = -(23 * Real.log (1 - 1 / 10)) + 6 * Real.log (1 - 1 / 25) - 10 * Real.log (1 - 1 / 81) := by
    have h1 : (1 - 1 / 10 : ℝ) = 3 ^ 2 / (2 * 5) := by norm_num
    have h2 : (1 - 1 / 25 : ℝ) = 2 ^ 3 * 3 / 5 ^ 2 := by norm_num
    have h3 : (1 - 1 / 81 : ℝ) = 2 ^ 4 * 5 / 3 ^ 4 := by norm_num
    have h4 : (10 : ℝ) = 2 * 5 := by norm_num
    rw [h1, h2, h3]
    nth_rewrite 1 [h4]
    rw [Real.log_div (by norm_num) (by norm_num), Real.log_div (by norm_num) (by norm_num), Real.log_div (by norm_num) (by norm_num),
      Real.log_mul (by norm_num) (by norm_num), Real.log_mul (by norm_num) (by norm_num), Real.log_mul (by norm_num) (by norm_num),
      Real.log_pow, Real.log_pow, Real.log_pow, Real.log_pow, Real.log_pow]
    push_cast
    ring
  rw [abs_of_pos (show (0 : ℝ) < 1 / 10 by norm_num)] at a
  rw [abs_of_pos (show (0 : ℝ) < 1 / 25 by norm_num)] at b
  rw [abs_of_pos (show (0 : ℝ) < 1 / 81 by norm_num)] at c
  rw [e]
  rw [abs_le] at a b c ⊢
  norm_num [Finset.sum_range_succ] at a b c ⊢
  constructor <;> linarith [a.1, a.2, b.1, b.2, c.1, c.2]

/-- The partial sum of the series. -/
theorem lnSum (X : Rat) (k : Nat) : ((∑ i ∈ Finset.range k, Dec.Laws.lnTerm (X - 1) (1 + i) : Rat) : ℝ) =
    - ∑ i ∈ Finset.range k, (1 - (X : ℝ)) ^ (i + 1) / (i + 1) := by
  rw [← Finset.sum_neg_distrib]
  push_cast
  refine Finset.sum_congr rfl fun i _ => ?_
  unfold Dec.Laws.lnTerm
  have : (X : ℝ) - 1 = (-1) * (1 - X) := by ring
  push_cast
  rw [this, mul_pow, ← mul_assoc, ← pow_add, show 1 + i + 1 + (1 + i) = 2 * (i + 1) + 1 by omega, pow_succ, pow_mul]
  norm_num
  rw [add_comm 1 i, add_comm 1 (i : ℝ)]
  ring

namespace Dec.Laws
variable (L : d.Laws)
include L

/-- Between 0 and 1 the logarithm is the sum of 999 terms. -/
theorem ln_series (depth : Nat) {x : D} (h0 : 0 < L.val x) (h1 : L.val x < 1) : ∃ z, d.lnDepth (depth + 1) x = .ok z ∧
    |(L.val z : ℝ) + ∑ i ∈ Finset.range 999, (1 - (L.val x : ℝ)) ^ (i + 1) / (i + 1)| ≤ 11 / 10 ^ 17 := by
  have hz0 : L.val d.zero = 0 := by have := L.nat 0 (by decide); exact_mod_cast this
  obtain ⟨r, e1, n1⟩ := L.lnSeries_near h0 h1.le 999 1 d.zero le_rfl (by norm_num) (by rw [hz0]; norm_num)
  obtain ⟨z, e2, n2, -⟩ := L.approx_near r
  refine ⟨z, ?_, ?_⟩
  · unfold Dec.lnDepth
    have l0 : d.lt d.zero x = true := by rw [L.lt, hz0]; exact h0
    have l1 : d.lt x d.one = true := by rw [L.lt, L.one_val]; exact h1
    have l2 : ¬ d.isOne x = true := by rw [L.isOne]; exact h1.ne
    rw [l0, l1, if_neg (by simp), if_neg l2, if_neg (by simp)]
    show (d.lnSeries x 999 1 d.zero).bind _ = _
    rw [e1]
    exact e2
  · rw [hz0, zero_add] at n1
    have hs := lnSum (L.val x) 999
    have n : |L.val z - ∑ i ∈ Finset.range 999, lnTerm (L.val x - 1) (1 + i)| ≤ 11 / 10 ^ 17 := by
      have e : L.val z - ∑ i ∈ Finset.range 999, lnTerm (L.val x - 1) (1 + i) =
        (L.val z - L.val r) + (L.val r - ∑ i ∈ Finset.range 999, lnTerm (L.val x - 1) (1 + i)) := by ring
      rw [e]
      refine (abs_add_le _ _).trans ((add_le_add n2 n1).trans ?_)
      unfold unit
      norm_num
    have := (Rat.cast_le (K := ℝ)).mpr n
    rw [Rat.cast_abs, Rat.cast_sub, hs] at this
    rw [sub_neg_eq_add] at this
    refine this.trans (le_of_eq ?_)
    push_cast
    rfl

/-- From 1/10 to 1. -/
theorem ln_small (depth : Nat) {x : D} (h0 : 1 / 10 ≤ L.val x) (h1 : L.val x ≤ 1) : ∃ z, d.lnDepth (depth + 1) x = .ok z ∧
    |(L.val z : ℝ) - Real.log (L.val x)| ≤ 12 / 10 ^ 17 := by
  have hz0 : L.val d.zero = 0 := by have := L.nat 0 (by decide); exact_mod_cast this
  rcases h1.eq_or_lt with he | hlt
  · refine ⟨d.zero, ?_, by rw [hz0, he]; norm_num⟩
    unfold Dec.lnDepth
    have l0 : d.lt d.zero x = true := by rw [L.lt, hz0]; linarith
    rw [l0, if_neg (by simp), if_pos ((L.isOne x).mpr he)]
  · obtain ⟨z, e, n⟩ := L.ln_series depth (x := x) (by linarith) hlt
    refine ⟨z, e, ?_⟩
    have hX : (1 : ℝ) / 10 ≤ L.val x := by
      have := (Rat.cast_le (K := ℝ)).mpr h0
      push_cast at this
      exact this
    have hX1 : (L.val x : ℝ) < 1 := by exact_mod_cast hlt
    have ha : |1 - (L.val x : ℝ)| ≤ 9 / 10 := by rw [abs_of_pos (by linarith)]; linarith
    have hl := Real.abs_log_sub_add_sum_range_le (x := 1 - (L.val x : ℝ)) (by linarith) 999
    rw [sub_sub_cancel] at hl
    have hb : |1 - (L.val x : ℝ)| ^ (999 + 1) / (1 - |1 - (L.val x : ℝ)|) ≤ 1 / 10 ^ 17 := by
      rw [div_le_iff₀ (by linarith)]
      have h1 : |1 - (L.val x : ℝ)| ^ (999 + 1) ≤ (9 / 10) ^ (999 + 1) := pow_le_pow_left₀ (abs_nonneg _) ha _
      have h2 : ((9 / 10 : ℝ)) ^ (999 + 1) ≤ 1 / 10 ^ 17 * (1 / 10) := by
        rw [show 999 + 1 = 20 * 50 from rfl, pow_mul]
        have : ((9 / 10 : ℝ)) ^ 20 ≤ 1 / 8 := by norm_num
        refine (pow_le_pow_left₀ (by positivity) this 50).trans ?_
        norm_num
      have h3 : (1 : ℝ) / 10 ^ 17 * (1 / 10) ≤ 1 / 10 ^ 17 * (1 - |1 - (L.val x : ℝ)|) := mul_le_mul_of_nonneg_left (by linarith) (by norm_num)
      exact (h1.trans h2).trans h3
    have hl := hl.trans hb
    rw [abs_le] at hl n ⊢
    constructor <;> linarith

/-- Dividing by ten. -/
theorem lnScale_near (fuel : Nat) : ∀ (j : Nat) (a : D) (n : Nat), j ≤ fuel → j ≤ 29 → 1 / 10 ≤ L.val a → L.val a ≤ ((10 ^ j : Nat) : Rat) →
    ∃ r m, d.lnScale fuel a n = .ok (r, n + m) ∧ m ≤ j ∧ 1 / 10 ≤ L.val r ∧ L.val r ≤ 1 ∧
      |Real.log (L.val r) + m * Real.log 10 - Real.log (L.val a)| ≤ m * (1 / 10 ^ 26) := by
  have v10 : L.val d.ten = 10 := L.nat_val (n := 10) (by decide)
  induction fuel with
  | zero =>
    intro j a n hj _ h0 ha
    have : j = 0 := by omega
    subst this
    have ha' : L.val a ≤ 1 := ha
    have hl : ¬ d.lt d.one a = true := by rw [L.lt, L.one_val]; linarith
    exact ⟨a, 0, by simp [Dec.lnScale, hl], le_rfl, h0, ha', by simp⟩
  | succ fuel ih =>
    intro j a n hj hj' h0 ha
    unfold Dec.lnScale
    by_cases hl : d.lt d.one a = true
    · rw [if_pos hl]
      rw [L.lt, L.one_val] at hl
      cases j with
      | zero =>
        have ha' : L.val a ≤ 1 := ha
        linarith
      | succ j =>
        have hrep : Representable ((10 ^ j : Nat) : Rat) := by
          have : (10 : Nat) ^ j ≤ 10 ^ 28 := Nat.pow_le_pow_right (by decide) (by omega)
          exact representable_nat (by omega)
        rw [Nat.pow_succ, Nat.cast_mul] at ha
        have ha : L.val a ≤ ((10 ^ j : Nat) : Rat) * 10 := by exact_mod_cast ha
        have hw : |L.val a / L.val d.ten| ≤ max 1 (L.val a / 10) := by
          rw [v10, abs_of_pos (by linarith)]; exact le_max_right _ _
        have hj28 : ((10 ^ j : Nat) : Rat) ≤ 10 ^ 28 := by
          have : (10 : Nat) ^ j ≤ 10 ^ 28 := Nat.pow_le_pow_right (by decide) (by omega)
          exact_mod_cast this
        obtain ⟨z, e1, n1, k1⟩ := L.cdiv_near (x := a) (y := d.ten) (a := max 1 (L.val a / 10)) (by rw [v10]; norm_num) (le_max_left _ _) hw
          (max_le (by norm_num) (by linarith))
        rw [v10] at n1 k1
        have z1 : 1 / 10 ≤ L.val z := (k1 _ (by decide +kernel)).1 (by linarith)
        have z2 : L.val z ≤ ((10 ^ j : Nat) : Rat) := (k1 _ hrep).2 (by linarith)
        obtain ⟨r, m, e2, hm, r0, r1, rn⟩ := ih j z (n + 1) (by omega) (by omega) z1 z2
        refine ⟨r, m + 1, ?_, by omega, r0, r1, ?_⟩
        · simp only [Res.bind_eq, e1, Res.bind_ok]
          rw [e2]; congr 2; omega
        · have key : |Real.log (L.val z) - (Real.log (L.val a) - Real.log 10)| ≤ 1 / 10 ^ 26 := by
            obtain ⟨w, hw⟩ : ∃ w, L.val a / 10 = w := ⟨_, rfl⟩
            rw [hw] at n1
            have w0 : 1 / 10 < w := by rw [← hw]; linarith
            have hlw : Real.log (L.val a) - Real.log 10 = Real.log w := by
              rw [← hw, ← Real.log_div (by exact_mod_cast (by linarith : (0:Rat) < L.val a).ne') (by norm_num)]
              push_cast; rfl
            rw [hlw]
            have nR : |(L.val z : ℝ) - w| ≤ 2 / 10 ^ 28 * max 1 (w : ℝ) := by
              have := (Rat.cast_le (K := ℝ)).mpr n1
              unfold unit at this
              push_cast at this
              exact this
            have wR : (1 : ℝ) / 10 < w := by
              have := (Rat.cast_lt (K := ℝ)).mpr w0
              push_cast at this
              exact this
            have zR : (1 : ℝ) / 10 ≤ L.val z := by
              have := (Rat.cast_le (K := ℝ)).mpr z1
              push_cast at this
              exact this
            have nR' : |(L.val z : ℝ) - w| ≤ 2 / 10 ^ 27 * w := by
              refine nR.trans ?_
              rcases max_cases (1 : ℝ) w with ⟨h, _⟩ | ⟨h, _⟩ <;> rw [h] <;> linarith
            rw [abs_le] at nR'
            have u1 : Real.log (L.val z) - Real.log w ≤ 1 / 10 ^ 26 := by
              rw [← Real.log_div (by linarith) (by linarith)]
              refine (Real.log_le_sub_one_of_pos (div_pos (by linarith) (by linarith))).trans ?_
              rw [sub_le_iff_le_add, div_le_iff₀ (by linarith)]
              linarith
            have u2 : Real.log w - Real.log (L.val z) ≤ 1 / 10 ^ 26 := by
              rw [← Real.log_div (by linarith) (by linarith)]
              refine (Real.log_le_sub_one_of_pos (div_pos (by linarith) (by linarith))).trans ?_
              rw [sub_le_iff_le_add, div_le_iff₀ (by linarith)]
              linarith
            rw [abs_le]; constructor <;> linarith
          rw [abs_le] at rn key ⊢
          push_cast
          constructor <;> linarith
    · rw [if_neg hl]
      rw [L.lt, L.one_val] at hl
      exact ⟨a, 0, rfl, by omega, h0, by linarith, by simp⟩

/-- The logarithm of every number from 1/10 on. -/
theorem ln_near (hfuel : 100 ≤ d.fuel) {x : D} (h0 : 1 / 10 ≤ L.val x) : ∃ z, d.ln x = .ok z ∧
    |(L.val z : ℝ) - Real.log (L.val x)| ≤ 2 / 10 ^ 16 := by
  by_cases h1 : L.val x ≤ 1
  · obtain ⟨z, e, n⟩ := L.ln_small 2 h0 h1
    exact ⟨z, e, n.trans (by norm_num)⟩
  · push Not at h1
    have hz0 : L.val d.zero = 0 := by have := L.nat 0 (by decide); exact_mod_cast this
    obtain ⟨r, m, e1, hm, r0, r1, rn⟩ := L.lnScale_near d.fuel 29 x 0 (by omega) (by omega) h0 (by
      have := representable_le (L.range x)
      push_cast; exact this)
    obtain ⟨lna, e2, n2⟩ := L.ln_small 1 r0 r1
    have hmv : L.val (d.nat (0 + m)) = (m : Rat) := by rw [Nat.zero_add]; exact L.nat_val (by omega)
    have hm29 : (m : Rat) ≤ 29 := by exact_mod_cast hm
    have hm0 : (0 : Rat) ≤ m := by positivity
    have hln : L.val d.ln10 = 23025850929940456840179914546 / 10 ^ 28 := by
      have := L.ln10
      push_cast at this
      rw [eq_div_iff (by norm_num)]; exact this
    obtain ⟨b, e3, n3, -⟩ := L.cmul_near (x := d.ln10) (y := d.nat (0 + m)) (a := 100) (by norm_num)
      (by rw [hmv, hln, abs_of_nonneg (by positivity)]; linarith) (by norm_num)
    rw [hmv, hln, abs_le] at n3
    have lnb : |L.val lna| ≤ 10 := by
      have hr : (1 : ℝ) / 10 ≤ L.val r := by
        have := (Rat.cast_le (K := ℝ)).mpr r0
        push_cast at this
        exact this
      have hr1 : (L.val r : ℝ) ≤ 1 := by exact_mod_cast r1
      have l1 : Real.log (L.val r) ≤ 0 := Real.log_nonpos (by linarith) hr1
      have l2 : -9 ≤ Real.log (L.val r) := by
        have h := Real.log_le_sub_one_of_pos (x := (L.val r : ℝ)⁻¹) (inv_pos.mpr (by linarith))
        rw [Real.log_inv] at h
        have : (L.val r : ℝ)⁻¹ ≤ 10 := by rw [inv_le_comm₀ (by linarith) (by norm_num)]; linarith
        linarith
      rw [abs_le] at n2
      have : |(L.val lna : ℝ)| ≤ 10 := by rw [abs_le]; constructor <;> linarith
      exact_mod_cast this
    rw [abs_le] at lnb
    have u : unit = 2 / 10 ^ 28 := rfl
    rw [u] at n3
    obtain ⟨z, e4, n4, -⟩ := L.cadd_near (x := lna) (y := b) (a := 100) (by norm_num) (by rw [abs_le]; constructor <;> linarith) (by norm_num)
    rw [abs_le, u] at n4
    refine ⟨z, ?_, ?_⟩
    · unfold Dec.ln
      unfold Dec.lnDepth
      have l0 : d.lt d.zero x = true := by rw [L.lt, hz0]; linarith
      have l1 : d.lt x d.one = false := by
        rw [Bool.eq_false_iff]; intro h; rw [L.lt, L.one_val] at h; linarith
      have l2 : ¬ d.isOne x = true := by rw [L.isOne]; exact h1.ne'
      rw [l0, l1, if_neg (by simp), if_neg l2, if_pos (by simp)]
      simp only [Res.bind_eq, e1, Res.bind_ok, e2, e3, e4]
    · have n5 : |L.val z - (L.val lna + 23025850929940456840179914546 / 10 ^ 28 * m)| ≤ 1 / 10 ^ 25 := by
        rw [abs_le]; constructor <;> linarith
      have n5R := (Rat.cast_le (K := ℝ)).mpr n5
      push_cast at n5R
      have t := log_ten_near
      have tm : |(m : ℝ) * (Real.log 10 - 23025850929940456840179914546 / 10 ^ 28)| ≤ 29 * (1 / 10 ^ 19) := by
        rw [abs_mul, abs_of_nonneg (by positivity)]
        exact mul_le_mul (by exact_mod_cast hm) t (abs_nonneg _) (by norm_num)
      have hmR : (m : ℝ) ≤ 29 := by exact_mod_cast hm
      rw [abs_le] at n5R n2 rn tm ⊢
      constructor <;> linarith

end Dec.Laws
end Prexel
