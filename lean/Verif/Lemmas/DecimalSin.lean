import Mathlib.Analysis.SpecialFunctions.Trigonometric.Bounds
import Mathlib.Analysis.Real.Pi.Bounds
import Mathlib.Analysis.Complex.ExponentialBounds
import Verif.Lemmas.DecimalLn
/-!
# Sines and cosines of decimals
-/

set_option linter.unusedVariables false

namespace Prexel
variable {D F : Type} {d : Dec D F}

/-! ## The sums of the loops -/

/-- Bounds for the rounding error of the terms, in units. -/
def termErr : Nat → Rat
  | 0 => 0
  | 1 => 3 * 10 ^ 4
  | 2 => 24 * 10 ^ 4
  | n + 3 => 2 * 10 ^ 6 + 3 * 10 ^ 4 * n

theorem termErr_nonneg (n : Nat) : 0 ≤ termErr n := by
  unfold termErr; split <;> positivity

theorem termErr_le {n : Nat} (h : n ≤ 100) : termErr n ≤ 5 * 10 ^ 6 := by
  have : (n : Rat) ≤ 100 := by exact_mod_cast h
  match n, this with
  | 0, _ | 1, _ | 2, _ => norm_num [termErr]
  | n + 3, this =>
    simp only [termErr]
    push_cast at this
    linarith

theorem termErr_step (n : Nat) (h : 1 ≤ n) : 7 * termErr (n - 1) + 3 * 10 ^ 4 ≤ termErr n ∨ 4 ≤ n ∧ termErr (n - 1) + 3 * 10 ^ 4 ≤ termErr n := by
  match n, h with
  | 1, _ | 2, _ | 3, _ => left; norm_num [termErr]
  | n + 4, _ =>
    right
    refine ⟨by omega, ?_⟩
    show termErr (n + 3) + _ ≤ termErr (n + 1 + 3)
    simp only [termErr]
    push_cast
    linarith

namespace Dec.Laws
variable (L : d.Laws)
include L

theorem mul_near {x y : D} {a : Rat} (h1 : 1 ≤ a) (ha : |L.val x * L.val y| ≤ a) (hm : a ≤ 79 * 10 ^ 27) :
    ∃ z, d.mul x y = .ok z ∧ |L.val z - L.val x * L.val y| ≤ unit * a ∧ Rounded (L.val z) (L.val x * L.val y) := by
  obtain ⟨z, e, n⟩ := L.cmul_near h1 ha hm
  exact ⟨z, by simp [Dec.mul, e, Res.unwrapNone], n⟩

theorem add_near {x y : D} {a : Rat} (h1 : 1 ≤ a) (ha : |L.val x + L.val y| ≤ a) (hm : a ≤ 79 * 10 ^ 27) :
    ∃ z, d.add x y = .ok z ∧ |L.val z - (L.val x + L.val y)| ≤ unit * a ∧ Rounded (L.val z) (L.val x + L.val y) := by
  obtain ⟨z, e, n⟩ := L.cadd_near h1 ha hm
  exact ⟨z, by simp [Dec.add, e, Res.unwrapNone], n⟩

theorem sub_near {x y : D} {a : Rat} (h1 : 1 ≤ a) (ha : |L.val x - L.val y| ≤ a) (hm : a ≤ 79 * 10 ^ 27) :
    ∃ z, d.sub x y = .ok z ∧ |L.val z - (L.val x - L.val y)| ≤ unit * a ∧ Rounded (L.val z) (L.val x - L.val y) := by
  obtain ⟨z, e, n⟩ := L.csub_near h1 ha hm
  exact ⟨z, by simp [Dec.sub, e, Res.unwrapNone], n⟩

theorem div_near {x y : D} {a : Rat} (h0 : L.val y ≠ 0) (h1 : 1 ≤ a) (ha : |L.val x / L.val y| ≤ a) (hm : a ≤ 79 * 10 ^ 27) :
    ∃ z, d.div x y = .ok z ∧ |L.val z - L.val x / L.val y| ≤ unit * a ∧ Rounded (L.val z) (L.val x / L.val y) := by
  obtain ⟨z, e, n⟩ := L.cdiv_near h0 h1 ha hm
  exact ⟨z, by simp [Dec.div, e, Res.unwrapNone], n⟩

/-- What the loop adds up, where `T` are the exact terms. -/
theorem taylor_near {xx : D} {A : Rat} {m : Nat → Nat} {T : Nat → Rat} (h0 : 0 ≤ L.val xx) (h40 : L.val xx ≤ 40) (hA : |L.val xx - A| ≤ 50 * unit)
    {n0 : Nat} (hn0 : 1 ≤ n0) (hm : ∀ n, n0 ≤ n → 6 ≤ m n) (hm4 : ∀ n, 4 ≤ n → 40 ≤ m n) (hmb : ∀ n, n ≤ 100 → m n < 2 ^ 96)
    (hT : ∀ n, n0 ≤ n → T n = T (n - 1) * (-A / m n)) (hTb : ∀ n, |T n| ≤ 1100) (k : Nat) :
    ∀ (n : Nat) (f s : D), n0 ≤ n → n + k ≤ 100 → |L.val f - T (n - 1)| ≤ termErr (n - 1) * unit → |L.val s| ≤ 1200 * n →
    ∃ z, d.taylor xx m k n f s = .ok z ∧ |L.val z - (L.val s + ∑ i ∈ Finset.range k, T (n + i))| ≤ k * (6 * 10 ^ 6 * unit) := by
  have u : unit = 2 / 10 ^ 28 := rfl
  have u0 : 0 < unit := by rw [u]; norm_num
  induction k with
  | zero => intro n f s h1 h2 h3 h4; exact ⟨s, rfl, by simp⟩
  | succ k ih =>
    intro n f s h0n h2 h3 h4
    have h1 : 1 ≤ n := by omega
    have hm6 : (6 : Rat) ≤ m n := by
      have := hm n h0n
      exact_mod_cast this
    have hmv : L.val (d.nat (m n)) = (m n : Rat) := L.nat_val (hmb n (by omega))
    have hq : |L.val (d.neg xx) / L.val (d.nat (m n))| ≤ 7 := by
      rw [L.neg, hmv, abs_div, abs_neg, abs_of_nonneg h0, abs_of_pos (show (0 : Rat) < m n by linarith), div_le_iff₀ (by linarith)]
      linarith
    obtain ⟨q, e1, n1, k1⟩ := L.div_near (x := d.neg xx) (y := d.nat (m n)) (a := 7) (by rw [hmv]; linarith) (by norm_num) hq (by norm_num)
    have q7 : |L.val q| ≤ 7 := bounded_abs.mp (k1.bounded (by decide +kernel) (bounded_abs.mpr hq))
    have q1 : 4 ≤ n → |L.val q| ≤ 1 := fun h => by
      refine bounded_abs.mp (k1.bounded (by decide +kernel) (bounded_abs.mpr ?_))
      have : (40 : Rat) ≤ m n := by exact_mod_cast hm4 n h
      rw [L.neg, hmv, abs_div, abs_neg, abs_of_nonneg h0, abs_of_pos (show (0 : Rat) < m n by linarith), div_le_iff₀ (by linarith)]
      linarith
    rw [L.neg, hmv] at n1
    have hqA : |L.val q - -A / m n| ≤ 20 * unit := by
      have : L.val q - -A / m n = (L.val q - -L.val xx / m n) + -((L.val xx - A) / m n) := by ring
      rw [this]
      refine (abs_add_le _ _).trans ?_
      rw [abs_neg, abs_div, abs_of_pos (show (0 : Rat) < m n by linarith)]
      have : |L.val xx - A| / m n ≤ 10 * unit := by
        rw [div_le_iff₀ (by linarith)]
        have : 10 * unit * 6 ≤ 10 * unit * m n := mul_le_mul_of_nonneg_left hm6 (by linarith)
        linarith
      linarith
    have hf : |L.val f| ≤ 1101 := by
      have h := abs_add_le (L.val f - T (n - 1)) (T (n - 1))
      rw [sub_add_cancel] at h
      have h5 := mul_le_mul_of_nonneg_right (termErr_le (n := n - 1) (by omega)) u0.le
      have := hTb (n - 1)
      rw [u] at h5 h3
      linarith
    obtain ⟨f', e2, n2, -⟩ := L.mul_near (x := f) (y := q) (a := 7710) (by norm_num)
      (by rw [abs_mul]; exact (mul_le_mul hf q7 (abs_nonneg _) (by norm_num)).trans (by norm_num)) (by norm_num)
    have hf' : |L.val f' - T n| ≤ termErr n * unit := by
      rw [hT n h0n]
      have e : L.val f' - T (n - 1) * (-A / m n) = (L.val f' - L.val f * L.val q) + ((L.val f - T (n - 1)) * L.val q + T (n - 1) * (L.val q - -A / m n)) := by ring
      rw [e]
      have b2 : |T (n - 1) * (L.val q - -A / m n)| ≤ 1100 * (20 * unit) := by
        rw [abs_mul]; exact mul_le_mul (hTb _) hqA (abs_nonneg _) (by norm_num)
      rcases termErr_step n h1 with hs | ⟨hn4, hs⟩
      · have b1 : |(L.val f - T (n - 1)) * L.val q| ≤ termErr (n - 1) * unit * 7 := by
          rw [abs_mul]; exact mul_le_mul h3 q7 (abs_nonneg _) (mul_nonneg (termErr_nonneg _) u0.le)
        refine (abs_add_le _ _).trans ((add_le_add n2 ((abs_add_le _ _).trans (add_le_add b1 b2))).trans ?_)
        have := mul_le_mul_of_nonneg_right hs u0.le
        linarith
      · have b1 : |(L.val f - T (n - 1)) * L.val q| ≤ termErr (n - 1) * unit * 1 := by
          rw [abs_mul]; exact mul_le_mul h3 (q1 hn4) (abs_nonneg _) (mul_nonneg (termErr_nonneg _) u0.le)
        refine (abs_add_le _ _).trans ((add_le_add n2 ((abs_add_le _ _).trans (add_le_add b1 b2))).trans ?_)
        have := mul_le_mul_of_nonneg_right hs u0.le
        linarith
    have hterm := mul_le_mul_of_nonneg_right (termErr_le (n := n) (by omega)) u0.le
    have hn100 : (n : Rat) ≤ 100 := by exact_mod_cast (by omega : n ≤ 100)
    have hn1 : (1 : Rat) ≤ n := by exact_mod_cast h1
    have hf'b : |L.val f'| ≤ 1101 := by
      have h := abs_add_le (L.val f' - T n) (T n)
      rw [sub_add_cancel] at h
      have := hTb n
      rw [u] at hterm hf'
      linarith
    obtain ⟨s', e3, n3, -⟩ := L.add_near (x := s) (y := f') (a := 1200 * n + 1101) (by linarith) ((abs_add_le _ _).trans (add_le_add h4 hf'b)) (by linarith)
    have hs' : |L.val s'| ≤ 1200 * ((n + 1 : Nat) : Rat) := by
      have h := abs_add_le (L.val s' - (L.val s + L.val f')) (L.val s + L.val f')
      rw [sub_add_cancel] at h
      have := abs_add_le (L.val s) (L.val f')
      push_cast
      rw [u] at n3
      linarith
    obtain ⟨z, e4, n4⟩ := ih (n + 1) f' s' (by omega) (by omega) (by rw [Nat.add_sub_cancel]; exact hf') hs'
    refine ⟨z, ?_, ?_⟩
    · simp only [Dec.taylor, Res.bind_eq, e1, e2, e3, Res.bind_ok]
      exact e4
    · rw [Finset.sum_range_succ', Nat.add_zero]
      have hsum : ∑ i ∈ Finset.range k, T (n + (i + 1)) = ∑ i ∈ Finset.range k, T (n + 1 + i) :=
        Finset.sum_congr rfl fun i _ => by rw [show n + (i + 1) = n + 1 + i by omega]
      rw [hsum]
      have hd : L.val z - (L.val s + (∑ i ∈ Finset.range k, T (n + 1 + i) + T n)) =
          (L.val z - (L.val s' + ∑ i ∈ Finset.range k, T (n + 1 + i))) + ((L.val s' - (L.val s + L.val f')) + (L.val f' - T n)) := by ring
      rw [hd]
      refine (abs_add_le _ _).trans ((add_le_add n4 ((abs_add_le _ _).trans (add_le_add n3 hf'))).trans ?_)
      have : unit * (1200 * n + 1101) ≤ unit * (1200 * 100 + 1101) := mul_le_mul_of_nonneg_left (by linarith) u0.le
      push_cast
      linarith

end Dec.Laws

/-! ## Comparison with sine and cosine -/

theorem exp_parts (r : ℝ) (k : Nat) : ∑ i ∈ Finset.range (2 * k), ((r : ℂ) * Complex.I) ^ i / (i.factorial : ℂ) =
    ((∑ n ∈ Finset.range k, (-1) ^ n * r ^ (2 * n) / (2 * n).factorial : ℝ) : ℂ) +
    ((∑ n ∈ Finset.range k, (-1) ^ n * r ^ (2 * n + 1) / (2 * n + 1).factorial : ℝ) : ℂ) * Complex.I := by
  induction k with
  | zero => simp
  | succ k ih =>
    rw [show 2 * (k + 1) = 2 * k + 1 + 1 by omega, Finset.sum_range_succ, Finset.sum_range_succ, ih, Finset.sum_range_succ, Finset.sum_range_succ]
    have h1 : ((r : ℂ) * Complex.I) ^ (2 * k) = (-1) ^ k * (r : ℂ) ^ (2 * k) := by
      rw [mul_pow, pow_mul Complex.I, Complex.I_sq, mul_comm]
    rw [pow_succ, h1]
    push_cast
    ring

theorem series_close {r : ℝ} (h : |r| ≤ 7) :
    |∑ n ∈ Finset.range 100, (-1) ^ n * r ^ (2 * n) / (2 * n).factorial - Real.cos r| ≤ 1 / 10 ^ 20 ∧
    |∑ n ∈ Finset.range 100, (-1) ^ n * r ^ (2 * n + 1) / (2 * n + 1).factorial - Real.sin r| ≤ 1 / 10 ^ 20 := by
  have hn : ‖(r : ℂ) * Complex.I‖ = |r| := by simp
  have hb := Complex.exp_bound' (x := (r : ℂ) * Complex.I) (n := 2 * 100) (by
    rw [hn]
    norm_num
    linarith)
  rw [hn, exp_parts] at hb
  have hfac : |r| ^ (2 * 100) / ((2 * 100).factorial : ℝ) * 2 ≤ 1 / 10 ^ 20 := by
    have hf : (7 ^ 200 * 2 * 10 ^ 20 : ℕ) ≤ (2 * 100).factorial := by decide +kernel
    have hf' : (7 ^ 200 * 2 * 10 ^ 20 : ℝ) ≤ ((2 * 100).factorial : ℝ) := by exact_mod_cast hf
    have hp : |r| ^ (2 * 100) ≤ 7 ^ 200 := pow_le_pow_left₀ (abs_nonneg _) h _
    have h0 : (0 : ℝ) < ((2 * 100).factorial : ℝ) := by positivity
    rw [div_mul_eq_mul_div, div_le_iff₀ h0]
    clear hb hf
    generalize ((2 * 100).factorial : ℝ) = q at hf' h0 ⊢
    generalize |r| ^ (2 * 100) = p at hp ⊢
    linarith
  have hb := hb.trans hfac
  rw [Complex.exp_mul_I, ← Complex.ofReal_cos, ← Complex.ofReal_sin] at hb
  have hre := (Complex.abs_re_le_norm _).trans hb
  have him := (Complex.abs_im_le_norm _).trans hb
  simp only [Complex.sub_re, Complex.add_re, Complex.mul_re, Complex.ofReal_re, Complex.ofReal_im, Complex.I_re, Complex.I_im, mul_zero, mul_one,
    Complex.sub_im, Complex.add_im, Complex.mul_im, sub_zero, add_zero, zero_add] at hre him
  rw [abs_sub_comm] at hre him
  exact ⟨hre, him⟩

theorem exp_seven : Real.exp 7 ≤ 1100 := by
  have h : Real.exp 7 = Real.exp 1 ^ 7 := by rw [← Real.exp_nat_mul]; norm_num
  rw [h]
  have := Real.exp_one_lt_d9
  refine (pow_le_pow_left₀ (Real.exp_pos 1).le this.le 7).trans ?_
  norm_num

theorem term_le {r : Rat} (h : |r| ≤ 7) (s : Rat) (hs : |s| = 1) (k : Nat) : |s * r ^ k / k.factorial| ≤ 1100 := by
  have h1 : (|r| : ℝ) ≤ 7 := by exact_mod_cast h
  have h2 : ((|r| ^ k / k.factorial : Rat) : ℝ) ≤ 1100 := by
    push_cast
    exact (Real.pow_div_factorial_le_exp _ (abs_nonneg _) k).trans ((Real.exp_le_exp.mpr h1).trans exp_seven)
  rw [abs_div, abs_mul, hs, one_mul, abs_pow, abs_of_pos (show (0 : Rat) < (k.factorial : Rat) by positivity)]
  exact_mod_cast h2

def sinTerm (r : Rat) (n : Nat) : Rat := (-1) ^ n * r ^ (2 * n + 1) / (2 * n + 1).factorial

def cosTerm (r : Rat) (n : Nat) : Rat := (-1) ^ n * r ^ (2 * n) / (2 * n).factorial

theorem sinTerm_step (r : Rat) (n : Nat) (h : 1 ≤ n) : sinTerm r n = sinTerm r (n - 1) * (-r ^ 2 / (((2 * n + 1) * (2 * n) : Nat) : Rat)) := by
  obtain ⟨k, rfl⟩ : ∃ k, n = k + 1 := ⟨n - 1, by omega⟩
  unfold sinTerm
  rw [Nat.add_sub_cancel, show 2 * (k + 1) + 1 = 2 * k + 1 + 1 + 1 by omega, Nat.factorial_succ (2 * k + 1 + 1), Nat.factorial_succ (2 * k + 1)]
  have : ((2 * k + 1).factorial : Rat) ≠ 0 := by positivity
  push_cast
  field_simp
  ring

theorem cosTerm_step (r : Rat) (n : Nat) (h : 1 ≤ n) : cosTerm r n = cosTerm r (n - 1) * (-r ^ 2 / ((2 * n * (2 * n - 1) : Nat) : Rat)) := by
  obtain ⟨k, rfl⟩ : ∃ k, n = k + 1 := ⟨n - 1, by omega⟩
  unfold cosTerm
  rw [Nat.add_sub_cancel, show 2 * (k + 1) - 1 = 2 * k + 1 by omega, show 2 * (k + 1) = 2 * k + 1 + 1 by omega, Nat.factorial_succ (2 * k + 1),
    Nat.factorial_succ (2 * k)]
  have : ((2 * k).factorial : Rat) ≠ 0 := by positivity
  push_cast
  field_simp
  ring

namespace Dec.Laws
variable (L : d.Laws)
include L

theorem square_near {r : D} (h : |L.val r| ≤ 63 / 10) : ∃ xx, d.mul r r = .ok xx ∧ 0 ≤ L.val xx ∧ L.val xx ≤ 40 ∧ |L.val xx - L.val r ^ 2| ≤ 50 * unit := by
  have h2 : L.val r * L.val r ≤ 40 := by
    rw [abs_le] at h; nlinarith
  have h0 : 0 ≤ L.val r * L.val r := mul_self_nonneg _
  obtain ⟨xx, e, n, k⟩ := L.mul_near (x := r) (y := r) (a := 50) (by norm_num) (by rw [abs_of_nonneg h0]; linarith) (by norm_num)
  exact ⟨xx, e, (k 0 (by decide +kernel)).1 h0, (k 40 (by decide +kernel)).2 h2, by rw [pow_two]; linarith⟩

theorem sin_series {r : D} (h : |L.val r| ≤ 63 / 10) : ∃ xx S, d.mul r r = .ok xx ∧
    d.taylor xx (fun n => (2 * n + 1) * (2 * n)) (iterations - 1) 1 r r = .ok S ∧ |(L.val S : ℝ) - Real.sin (L.val r)| ≤ 2 / 10 ^ 19 := by
  obtain ⟨xx, e1, x0, x40, xn⟩ := L.square_near h
  have h7 : |L.val r| ≤ 7 := h.trans (by norm_num)
  obtain ⟨S, e2, n2⟩ := L.taylor_near (T := sinTerm (L.val r)) (m := fun n => (2 * n + 1) * (2 * n)) x0 x40 xn
    le_rfl (fun n hn => by show 6 ≤ (2 * n + 1) * (2 * n); nlinarith)
    (fun n hn => by show 40 ≤ (2 * n + 1) * (2 * n); nlinarith)
    (fun n hn => by show (2 * n + 1) * (2 * n) < _; have : (2 * n + 1) * (2 * n) ≤ 201 * 200 := Nat.mul_le_mul (by omega) (by omega); omega)
    (sinTerm_step _) (fun n => term_le h7 _ (by rw [abs_pow, abs_neg, abs_one, one_pow]) _) 99 1 r r le_rfl (by norm_num)
    (by simp [sinTerm, termErr]) (by push_cast; linarith)
  refine ⟨xx, S, e1, e2, ?_⟩
  have hs : L.val r + ∑ i ∈ Finset.range 99, sinTerm (L.val r) (1 + i) = ∑ i ∈ Finset.range 100, sinTerm (L.val r) i := by
    have h1 : ∑ i ∈ Finset.range 99, sinTerm (L.val r) (1 + i) = ∑ i ∈ Finset.range 99, sinTerm (L.val r) (i + 1) :=
      Finset.sum_congr rfl fun i _ => by rw [add_comm]
    have h2 : sinTerm (L.val r) 0 = L.val r := by simp [sinTerm]
    rw [Finset.sum_range_succ' _ 99, h1, h2, add_comm]
  rw [hs] at n2
  have n2R := (Rat.cast_le (K := ℝ)).mpr n2
  have hr : |(L.val r : ℝ)| ≤ 7 := by exact_mod_cast h7
  have hc := (series_close hr).2
  rw [Rat.cast_abs, Rat.cast_sub, Rat.cast_sum] at n2R
  have hsum : ∑ i ∈ Finset.range 100, ((sinTerm (L.val r) i : Rat) : ℝ) = ∑ n ∈ Finset.range 100, (-1) ^ n * (L.val r : ℝ) ^ (2 * n + 1) / (2 * n + 1).factorial :=
    Finset.sum_congr rfl fun i _ => by unfold sinTerm; push_cast; rfl
  rw [hsum] at n2R
  generalize ∑ n ∈ Finset.range 100, (-1) ^ n * (L.val r : ℝ) ^ (2 * n + 1) / ((2 * n + 1).factorial : ℝ) = s at n2R hc
  unfold unit at n2R
  push_cast at n2R
  rw [abs_le] at *
  constructor <;> linarith

theorem cos_series {r : D} (h : |L.val r| ≤ 63 / 10) : ∃ xx f s S, d.mul r r = .ok xx ∧ d.div (d.neg xx) d.two = .ok f ∧ d.add d.one f = .ok s ∧
    d.taylor xx (fun n => 2 * n * (2 * n - 1)) (iterations - 2) 2 f s = .ok S ∧ |(L.val S : ℝ) - Real.cos (L.val r)| ≤ 2 / 10 ^ 19 := by
  have u : unit = 2 / 10 ^ 28 := rfl
  have u0 : 0 < unit := by rw [u]; norm_num
  obtain ⟨xx, e1, x0, x40, xn⟩ := L.square_near h
  have h7 : |L.val r| ≤ 7 := h.trans (by norm_num)
  obtain ⟨f, ef, nf, -⟩ := L.div_near (x := d.neg xx) (y := d.two) (a := 20) (by rw [L.two_val]; norm_num) (by norm_num)
    (by rw [L.two_val, L.neg, abs_div, abs_neg, abs_of_nonneg x0, abs_of_pos (by norm_num)]; linarith) (by norm_num)
  rw [L.two_val, L.neg] at nf
  have hT1 : cosTerm (L.val r) 1 = -L.val r ^ 2 / 2 := by unfold cosTerm; norm_num [Nat.factorial]
  have hf1 : |L.val f - cosTerm (L.val r) 1| ≤ 45 * unit := by
    rw [hT1]
    rw [abs_le] at nf xn ⊢
    constructor <;> linarith
  have fb : |L.val f| ≤ 21 := by
    rw [abs_le, u] at nf
    rw [abs_le]; constructor <;> linarith
  obtain ⟨s, es, ns, -⟩ := L.add_near (x := d.one) (y := f) (a := 22) (by norm_num)
    (by rw [L.one_val]; refine (abs_add_le _ _).trans ?_; rw [abs_one]; linarith) (by norm_num)
  rw [L.one_val] at ns
  have sb : |L.val s| ≤ 23 := by
    rw [abs_le, u] at ns
    rw [abs_le] at fb ⊢
    constructor <;> linarith
  obtain ⟨S, e2, n2⟩ := L.taylor_near (T := cosTerm (L.val r)) (m := fun n => 2 * n * (2 * n - 1)) x0 x40 xn (n0 := 2) (by norm_num)
    (fun n hn => by
      have : 4 * 3 ≤ 2 * n * (2 * n - 1) := Nat.mul_le_mul (by omega) (by omega)
      show 6 ≤ 2 * n * (2 * n - 1)
      omega)
    (fun n hn => by
      have : 8 * 7 ≤ 2 * n * (2 * n - 1) := Nat.mul_le_mul (by omega) (by omega)
      show 40 ≤ 2 * n * (2 * n - 1)
      omega)
    (fun n hn => by
      have : 2 * n * (2 * n - 1) ≤ 200 * 200 := Nat.mul_le_mul (by omega) (by omega)
      show 2 * n * (2 * n - 1) < _
      omega)
    (fun n hn => cosTerm_step _ n (by omega)) (fun n => term_le h7 _ (by rw [abs_pow, abs_neg, abs_one, one_pow]) _) 98 2 f s (by norm_num) (by norm_num)
    (by show |_ - cosTerm _ 1| ≤ _; refine hf1.trans (mul_le_mul_of_nonneg_right ?_ u0.le); norm_num [termErr]) (by push_cast; linarith)
  refine ⟨xx, f, s, S, e1, ef, es, e2, ?_⟩
  have hs : 1 + cosTerm (L.val r) 1 + ∑ i ∈ Finset.range 98, cosTerm (L.val r) (2 + i) = ∑ i ∈ Finset.range 100, cosTerm (L.val r) i := by
    have h1 : ∑ i ∈ Finset.range 98, cosTerm (L.val r) (2 + i) = ∑ i ∈ Finset.range 98, cosTerm (L.val r) (i + 1 + 1) :=
      Finset.sum_congr rfl fun i _ => by rw [add_comm]
    have h2 : cosTerm (L.val r) 0 = 1 := by simp [cosTerm]
    rw [Finset.sum_range_succ' _ 99, Finset.sum_range_succ' _ 98, h1, h2]
    ring
  have n3 : |L.val S - ∑ i ∈ Finset.range 100, cosTerm (L.val r) i| ≤ 99 * (6 * 10 ^ 6 * unit) := by
    rw [← hs]
    push_cast at n2
    rw [abs_le] at n2 ns hf1 ⊢
    constructor <;> linarith
  have n2R := (Rat.cast_le (K := ℝ)).mpr n3
  have hr : |(L.val r : ℝ)| ≤ 7 := by exact_mod_cast h7
  have hc := (series_close hr).1
  rw [Rat.cast_abs, Rat.cast_sub, Rat.cast_sum] at n2R
  have hsum : ∑ i ∈ Finset.range 100, ((cosTerm (L.val r) i : Rat) : ℝ) = ∑ n ∈ Finset.range 100, (-1) ^ n * (L.val r : ℝ) ^ (2 * n) / (2 * n).factorial :=
    Finset.sum_congr rfl fun i _ => by unfold cosTerm; push_cast; rfl
  rw [hsum] at n2R
  generalize ∑ n ∈ Finset.range 100, (-1) ^ n * (L.val r : ℝ) ^ (2 * n) / ((2 * n).factorial : ℝ) = s at n2R hc
  unfold unit at n2R
  push_cast at n2R
  rw [abs_le] at *
  constructor <;> linarith

end Dec.Laws
end Prexel
