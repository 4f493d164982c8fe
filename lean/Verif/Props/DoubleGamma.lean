import Verif.Props.DoubleRoots
import Verif.Props.DoubleErrors
import Verif.Props.DoublePowers
import Verif.Lemmas.PiDigits
import Mathlib.Analysis.SpecialFunctions.Gaussian.GaussianIntegral
import Mathlib.Analysis.Complex.ExponentialBounds
/-!
# Factorials of fractions over `f64` (C159)
-/

namespace Prexel
open B64

/-- `x (x - 1) (x - 2) …`, so many factors. -/
def falling (x : ℚ) (n : ℕ) : ℚ := ∏ i ∈ Finset.range n, (x - i)

theorem falling_zero (x : ℚ) : falling x 0 = 1 := rfl

theorem falling_succ (x : ℚ) (n : ℕ) : falling x (n + 1) = x * falling (x - 1) n := by
  unfold falling
  rw [Finset.prod_range_succ', mul_comm]
  congr 1
  · simp
  · refine Finset.prod_congr rfl fun i _ => ?_
    push_cast; ring

theorem falling_pos {x : ℚ} {n : ℕ} (h : (n : ℚ) ≤ x) : 1 ≤ falling x n := by
  induction n generalizing x with
  | zero => rw [falling_zero]
  | succ n ih =>
    rw [falling_succ]
    push_cast at h
    have h1 := ih (x := x - 1) (by linarith)
    have hn : (0 : ℚ) ≤ n := Nat.cast_nonneg n
    nlinarith

theorem falling_le {x : ℚ} {n : ℕ} (h0 : (n : ℚ) ≤ x) (h : x ≤ n + 1) : falling x n ≤ (n + 1).factorial := by
  induction n generalizing x with
  | zero => rw [falling_zero]; simp
  | succ n ih =>
    rw [falling_succ, Nat.factorial_succ]
    push_cast at h h0 ⊢
    have h1 := ih (x := x - 1) (by linarith) (by linarith)
    have h2 := falling_pos (x := x - 1) (n := n) (by linarith)
    have hn : (0 : ℚ) ≤ n := Nat.cast_nonneg n
    exact mul_le_mul (by linarith) (by simpa using h1) (by linarith) (by linarith)

namespace B64

/-- Subtracting 1 is exact. -/
theorem isDouble_pred {q : ℚ} (h : IsDouble q) (h1 : 1 ≤ q) (hq : q ≤ 2 ^ 53) : IsDouble (q - 1) := by
  obtain ⟨m, e, hm, he1, he2, rfl⟩ := h
  rcases le_or_gt 0 e with he | he
  · obtain ⟨k, rfl⟩ := Int.eq_ofNat_of_zero_le he
    have e1 : (m : ℚ) * 2 ^ (k : ℤ) - 1 = ((m * 2 ^ k - 1 : ℤ) : ℚ) := by push_cast; rw [zpow_natCast]
    rw [e1]
    have e2 : (m : ℚ) * 2 ^ (k : ℤ) = ((m * 2 ^ k : ℤ) : ℚ) := by push_cast; rw [zpow_natCast]
    rw [e2] at h1 hq
    have h1 : 1 ≤ m * 2 ^ k := by exact_mod_cast h1
    have hq : m * 2 ^ k ≤ 2 ^ 53 := by exact_mod_cast hq
    apply isDouble_int
    rw [abs_of_nonneg (by omega)]
    omega
  · obtain ⟨k, hk⟩ : ∃ k : ℕ, e = -(k : ℤ) := ⟨(-e).toNat, by omega⟩
    subst hk
    have hp : (0 : ℚ) < 2 ^ k := by positivity
    have e1 : (m : ℚ) * 2 ^ (-(k : ℤ)) = m / 2 ^ k := by rw [zpow_neg, zpow_natCast]; ring
    rw [e1] at h1 ⊢
    rw [le_div_iff₀ hp, one_mul] at h1
    have h1 : (2 ^ k : ℤ) ≤ m := by exact_mod_cast h1
    have hk0 : (0 : ℤ) < 2 ^ k := by positivity
    refine ⟨m - 2 ^ k, -(k : ℤ), ?_, he1, he2, ?_⟩
    · rw [abs_of_nonneg (by omega)]
      have := (abs_lt.mp hm).2
      omega
    · rw [zpow_neg, zpow_natCast]; push_cast; field_simp

theorem sub_one {x : B64} (hx : x.isFin) (h1 : 1 ≤ x.val) (hq : x.val ≤ 2 ^ 53) :
    (B64.sub x (lit 1)).isFin ∧ (B64.sub x (lit 1)).val = x.val - 1 := by
  have l := lit_nat (n := 1) (by norm_num)
  simp only [Nat.cast_one] at l
  rw [sub_fin hx l.1, l.2]
  exact of_double _ (isDouble_pred (isDouble_val hx) h1 hq)

/-- What the loop of a factorial gives for fractions. -/
theorem factorialLoop_fraction {lib : Libm} {draw : B64} (m : ℕ) : ∀ (fuel k : ℕ) (t y : B64) (P : ℚ), y.isFin → (m : ℚ) < y.val → y.val < m + 1 → m ≤ fuel → m + k ≤ 2 ^ 52 →
    t.isFin → 1 ≤ P → Near k P t.val → P * falling y.val m ≤ 2 ^ 1022 →
    ∃ r f, Ops.factorialLoop ((f64 lib draw).num B64.num) fuel t y = .ok (r, f) ∧ f.isFin ∧ f.val = y.val - m ∧ r.isFin ∧ Near (k + m) (P * falling y.val m) r.val := by
  have l := lit_nat (n := 1) (by norm_num)
  simp only [Nat.cast_one] at l
  induction m with
  | zero =>
    intro fuel k t y P hy h1 h2 hf hk ht hP hn hl
    have hge : ¬ ((f64 lib draw).num B64.num).ge y ((f64 lib draw).num B64.num).one = true := by
      show ¬ B64.ge y (lit 1) = true
      rw [ge_fin hy l.1, l.2]
      push_cast at h2
      linarith
    refine ⟨t, y, ?_, hy, by simp, ht, by simpa [falling_zero] using hn⟩
    cases fuel <;> simp only [Ops.factorialLoop, hge] <;> rfl
  | succ m ih =>
    intro fuel k t y P hy h1 h2 hf hk ht hP hn hl
    push_cast at h2 h1
    have hm0 : (0 : ℚ) ≤ m := Nat.cast_nonneg m
    have hy1 : 1 ≤ y.val := by linarith
    have hy53 : y.val ≤ 2 ^ 53 := by
      have : (m : ℚ) + 2 ≤ 2 ^ 53 := by exact_mod_cast (by omega : m + 2 ≤ 2 ^ 53)
      linarith
    obtain ⟨fuel, rfl⟩ : ∃ j, fuel = j + 1 := ⟨fuel - 1, by omega⟩
    have hge : ((f64 lib draw).num B64.num).ge y ((f64 lib draw).num B64.num).one = true := by
      show B64.ge y (lit 1) = true
      rw [ge_fin hy l.1, l.2]; exact hy1
    obtain ⟨s1, s2⟩ := sub_one hy hy1 hy53
    have hs : ((f64 lib draw).num B64.num).sub y ((f64 lib draw).num B64.num).one = .ok (B64.sub y (lit 1)) := rfl
    have hmul : ((f64 lib draw).num B64.num).mul t y = .ok (B64.mul t y) := rfl
    rw [falling_succ, ← mul_assoc] at hl
    have hfp := falling_pos (x := y.val - 1) (n := m) (by linarith)
    have hPy : 1 ≤ P * y.val := by nlinarith
    have hus : Usual (P * y.val) := by
      refine ⟨le_trans ?_ hPy, le_trans ?_ hl⟩
      · rw [div_le_one (by positivity)]; exact one_le_pow₀ (by norm_num)
      · nlinarith
    have hny : Near (k + 0) (P * y.val) (t.val * y.val) :=
      near_mul (by linarith) (by linarith) hn ⟨by simp, by simp⟩
    obtain ⟨n1, n2⟩ := near_round (k := k) (by omega) hus hny (t.sign ^^ y.sign)
    rw [← mul_fin ht hy] at n1 n2
    obtain ⟨r, f, g1, g2, g3, g4, g5⟩ := ih fuel (k + 1) (B64.mul t y) (B64.sub y (lit 1)) (P * y.val) s1 (by rw [s2]; linarith) (by rw [s2]; linarith)
      (by omega) (by omega) n1 hPy n2 (by rw [s2]; exact hl)
    refine ⟨r, f, ?_, g2, ?_, g4, ?_⟩
    · simp only [Ops.factorialLoop, hge, if_true]
      rw [hs, hmul]
      simp only [Res.bind_ok]
      exact g1
    · rw [g3, s2]; push_cast; ring
    · rw [falling_succ, ← mul_assoc]
      rw [s2] at g5
      rwa [show k + (m + 1) = k + 1 + m by omega]

end B64

section
variable {K : Keys} {debug docs : Bool} {lib : Libm} {draw : B64} {ctx : Ctx B64}

theorem double_fact (h : BuiltIn K debug docs (f64 lib draw) ((f64 lib draw).num B64.num) ctx) (x : B64) :
    evalTokens ctx [.number x, .unary (str "!")] = (Ops.factorial (f64 lib draw) ((f64 lib draw).num B64.num)).fn.call x :=
  double_tree h (.fact (.num x))

theorem fraction_tests {x : B64} (hx : x.isFin) (h0 : 0 < x.val) (h1 : x.val ≠ 1) :
    B64.lt x (B64.zero false) = false ∧ (x.isZero || (x == lit 1)) = false := by
  have l := lit_nat (n := 1) (by norm_num)
  simp only [Nat.cast_one] at l
  have hz : (B64.zero false).isFin ∧ (B64.zero false).val = 0 := ⟨⟨rfl, rfl⟩, (val_zero_iff _ _ _).mpr rfl⟩
  refine ⟨?_, ?_⟩
  · rw [← Bool.not_eq_true, lt_fin hx hz.1, hz.2]; linarith
  · rw [Bool.or_eq_false_iff]
    constructor
    · rw [← Bool.not_eq_true, isZero_iff hx]; exact h0.ne'
    · rw [beq_eq_false_iff_ne]
      intro h
      exact h1 (by rw [h, l.2])

/-- The factorial of a number between 0 and 1. -/
theorem factorial_below (x : B64) (hx : x.isFin) (h0 : 0 < x.val) (h1 : x.val < 1) :
    (Ops.factorial (f64 lib draw) ((f64 lib draw).num B64.num)).fn.call x = .ok (B64.gamma lib (B64.add x (lit 1))) := by
  have l := lit_nat (n := 1) (by norm_num)
  simp only [Nat.cast_one] at l
  obtain ⟨e1, e2⟩ := fraction_tests hx h0 h1.ne
  have e3 : B64.lt x (lit 1) = true := by rw [lt_fin hx l.1, l.2]; exact h1
  show (if B64.lt x (B64.zero false) = true then _ else if (x.isZero || (x == lit 1)) = true then _ else if B64.lt x (lit 1) = true then Res.ok _ else _) = _
  rw [e1, e2, e3]
  rfl

/-- C159. Over `f64`, in both contexts: the factorial of a fraction x up to 170 is x (x - 1) (x - 2) … f! for its part f behind the point, with the
factors rounded. -/
theorem C159_fraction (h : BuiltIn K debug docs (f64 lib draw) ((f64 lib draw).num B64.num) ctx) (x f : B64) (hx : x.isFin) (hf : f.isFin) (n : ℕ)
    (h1 : (n : ℚ) < x.val) (h2 : x.val < n + 1) (hn : n < 170) (hfv : f.val = x.val - n) (g : B64)
    (hg : evalTokens ctx [.number f, .unary (str "!")] = .ok g) (hgf : g.isFin) (hg1 : 1 / 2 ≤ g.val) (hg2 : g.val ≤ 2) :
    ∃ r, evalTokens ctx [.number x, .unary (str "!")] = .ok r ∧ r.isFin ∧
      |r.val - falling x.val n * g.val| ≤ falling x.val n * g.val * (n / 2 ^ 52) := by
  have l := lit_nat (n := 1) (by norm_num)
  simp only [Nat.cast_one] at l
  have hn0 : (0 : ℚ) ≤ n := Nat.cast_nonneg n
  rw [double_fact h] at hg ⊢
  rcases Nat.eq_zero_or_pos n with rfl | hpos
  · have : x = f := by
      refine eq_of_val hx hf (by rw [hfv]; simp) ?_
      rw [sign_fin_pos hx (by simpa using h1), sign_fin_pos hf (by rw [hfv]; simpa using h1)]
    subst this
    refine ⟨g, hg, hgf, ?_⟩
    rw [falling_zero]; simp
  · have hn1 : (1 : ℚ) ≤ n := by exact_mod_cast hpos
    obtain ⟨e1, e2⟩ := fraction_tests hx (by linarith) (by linarith)
    have e3 : B64.lt x (lit 1) = false := by rw [← Bool.not_eq_true, lt_fin hx l.1, l.2]; linarith
    have hn170 : (n : ℚ) ≤ 169 := by exact_mod_cast (by omega : n ≤ 169)
    have hx53 : x.val ≤ 2 ^ 53 := by norm_num; linarith
    obtain ⟨s1, s2⟩ := sub_one hx (by linarith) hx53
    obtain ⟨m, rfl⟩ : ∃ m, n = m + 1 := ⟨n - 1, by omega⟩
    push_cast at h1 h2 hn1
    have hfal : falling x.val (m + 1) ≤ (170).factorial := by
      refine (falling_le (by push_cast; linarith) (by push_cast; linarith)).trans ?_
      exact_mod_cast Nat.factorial_le (by omega : m + 1 + 1 ≤ 170)
    have hbig : falling x.val (m + 1) * 4 ≤ 2 ^ 1022 := by
      have h3 : (170).factorial * 4 ≤ 2 ^ 1022 := by decide +kernel
      have h4 : (((170).factorial : ℕ) : ℚ) * 4 ≤ 2 ^ 1022 := by exact_mod_cast h3
      exact le_trans (mul_le_mul_of_nonneg_right hfal (by norm_num)) h4
    clear hfal
    have hfal1 := falling_pos (x := x.val) (n := m + 1) (by push_cast; linarith)
    have hfuel : B64.num.fuel x = m + 2 := by
      show (⌊x.val⌋).toNat + 1 = _
      have : ⌊x.val⌋ = ((m + 1 : ℕ) : ℤ) := by
        rw [Int.floor_eq_iff]; push_cast; constructor <;> linarith
      rw [this, Int.toNat_natCast]
    obtain ⟨r, f', g1, g2, g3, g4, g5⟩ := factorialLoop_fraction (lib := lib) (draw := draw) m (m + 2) 0 x (B64.sub x (lit 1)) x.val s1 (by rw [s2]; linarith) (by rw [s2]; linarith)
      (by omega) (by omega) hx (by linarith) ⟨by simp, by simp⟩ (by
        rw [s2, ← falling_succ]
        refine le_trans ?_ hbig
        linarith)
    rw [s2, ← falling_succ] at g5
    have hff : f' = f := by
      have hv : f'.val = f.val := by rw [g3, s2, hfv]; push_cast; ring
      have hp : 0 < f.val := by rw [hfv]; push_cast; linarith
      refine eq_of_val g2 hf hv ?_
      rw [sign_fin_pos hf hp, sign_fin_pos g2 (by rw [hv]; exact hp)]
    have hf0 : 0 < f.val := by rw [hfv]; push_cast; linarith
    have hf1 : f.val < 1 := by rw [hfv]; push_cast; linarith
    have hgg : g = B64.gamma lib (B64.add f (lit 1)) := by
      rw [factorial_below f hf hf0 hf1] at hg
      exact (Res.ok.inj hg).symm
    have hfz : f.isZero = false := by rw [← Bool.not_eq_true, isZero_iff hf]; exact hf0.ne'
    have hcall : (Ops.factorial (f64 lib draw) ((f64 lib draw).num B64.num)).fn.call x = .ok (B64.mul r g) := by
      show (if B64.lt x (B64.zero false) = true then _ else if (x.isZero || (x == lit 1)) = true then _ else if B64.lt x (lit 1) = true then _ else
        (Ops.factorialLoop ((f64 lib draw).num B64.num) (B64.num.fuel x) x (B64.sub x (lit 1))).bind fun r => if r.2.isZero = true then _ else
          Res.ok (B64.mul r.1 (B64.gamma lib (B64.add r.2 (lit 1))))) = _
      rw [e1, e2, e3, hfuel, g1, hff]
      simp only [Res.bind_ok, hfz, hgg]
      rfl
    refine ⟨_, hcall, ?_⟩
    have hng : Near (0 + m + 0) (falling x.val (m + 1) * g.val) (r.val * g.val) :=
      near_mul (by linarith) (by linarith) g5 ⟨by simp, by simp⟩
    have hus : Usual (falling x.val (m + 1) * g.val) := by
      constructor
      · have : 1 / 2 ≤ falling x.val (m + 1) * g.val := by nlinarith
        refine le_trans ?_ this
        apply one_div_le_one_div_of_le (by norm_num)
        calc (2 : ℚ) = 2 ^ 1 := by norm_num
          _ ≤ 2 ^ 1021 := pow_le_pow_right₀ (by norm_num) (by norm_num)
      · refine le_trans ?_ hbig
        nlinarith
    rw [show 0 + m + 0 = m by omega] at hng
    obtain ⟨n1, n2⟩ := near_round (k := m) (by omega) hus hng (r.sign ^^ g.sign)
    rw [← mul_fin g4 hgf] at n1 n2
    exact ⟨n1, near_error (by omega) (by nlinarith) n2⟩

/-! ## One half -/

/-- The contract of `f64::exp` between -700 and 700: an error of at most 2^-51 of the result. -/
structure Libm.Exponentials (lib : Libm) : Prop where
  near : ∀ x : B64, x.isFin → -700 ≤ x.val → x.val ≤ 700 →
    (lib.exp x).isFin ∧ |((lib.exp x).val : ℝ) - Real.exp x.val| ≤ Real.exp x.val / 2 ^ 51

theorem exp_eighth : 2.049863975429899853 ≤ Real.exp (735 / 1024) ∧ Real.exp (735 / 1024) ≤ 2.049863975429899854 := by
  have h := Real.exp_bound (x := 735 / 1024) (by rw [abs_of_pos (by norm_num)]; norm_num) (n := 20) (by norm_num)
  rw [abs_of_pos (by norm_num : (0 : ℝ) < 735 / 1024), abs_le] at h
  norm_num [Finset.sum_range_succ, Nat.factorial] at h
  constructor <;> linarith [h.1, h.2]

theorem exp_neg_t : 0.0032077436556835082 ≤ Real.exp (-(735 / 128)) ∧ Real.exp (-(735 / 128)) ≤ 0.0032077436556835085 := by
  have e : Real.exp (735 / 128) = Real.exp (735 / 1024) ^ 8 := by rw [← Real.exp_nat_mul]; norm_num
  obtain ⟨h1, h2⟩ := exp_eighth
  have h3 : (2.049863975429899853 : ℝ) ^ 8 ≤ Real.exp (735 / 128) := by rw [e]; exact pow_le_pow_left₀ (by norm_num) h1 8
  have h4 : Real.exp (735 / 128) ≤ 2.049863975429899854 ^ 8 := by rw [e]; exact pow_le_pow_left₀ (Real.exp_pos _).le h2 8
  rw [Real.exp_neg]
  constructor
  · rw [le_inv_comm₀ (by norm_num) (Real.exp_pos _)]
    refine h4.trans ?_
    norm_num
  · rw [inv_le_comm₀ (Real.exp_pos _) (by norm_num)]
    refine le_trans ?_ h3
    norm_num

/-- The sum of Lanczos' approximation at one half. -/
theorem lanczos_half : (gammaSum (lit (1 / 2)) 1 gammaRest gammaFirst).isFin ∧
    (gammaSum (lit (1 / 2)) 1 gammaRest gammaFirst).val = 5402786104713661 / 281474976710656 := by
  refine ⟨⟨?_, ?_⟩, ?_⟩ <;> decide +kernel

theorem pi_bounds : (3.1415926535897932384 : ℝ) ≤ Real.pi ∧ Real.pi ≤ 3.1415926535897932385 := by
  have h := pi_near
  rw [abs_le] at h
  constructor <;> norm_num at h ⊢ <;> linarith [h.1, h.2]

theorem root_pi_bounds : (0.8862269254527580136 : ℝ) ≤ √Real.pi / 2 ∧ √Real.pi / 2 ≤ 0.8862269254527580137 := by
  obtain ⟨h1, h2⟩ := pi_bounds
  constructor
  · rw [le_div_iff₀ (by norm_num)]
    apply Real.le_sqrt_of_sq_le
    refine le_trans ?_ h1
    norm_num
  · rw [div_le_iff₀ (by norm_num), Real.sqrt_le_left (by norm_num)]
    refine h2.trans ?_
    norm_num

/-- The first factor. -/
theorem root_two_pi : (sqrt (mul (lit 2) pi)).isFin ∧ (2.5066282746310001 : ℝ) ≤ (sqrt (mul (lit 2) pi)).val ∧ ((sqrt (mul (lit 2) pi)).val : ℝ) ≤ 2.5066282746310009 := by
  have hf : (mul (lit 2) pi).isFin := by constructor <;> decide +kernel
  have hv : (mul (lit 2) pi).val = 884279719003555 / 140737488355328 := by decide +kernel
  obtain ⟨h1, -, h2, h3⟩ := sqrt_fin hf (by rw [hv]; norm_num)
  refine ⟨h1, ?_⟩
  have hr : (2.5066282746310004 : ℝ) ≤ √((mul (lit 2) pi).val : ℝ) ∧ √((mul (lit 2) pi).val : ℝ) ≤ 2.5066282746310005 := by
    rw [hv]
    constructor
    · apply Real.le_sqrt_of_sq_le; norm_num
    · rw [Real.sqrt_le_left (by norm_num)]; norm_num
  -- a double near the root
  have hd : IsDouble (5644425081792261 / 2251799813685248) := ⟨5644425081792261, -51, by norm_num, by norm_num, by norm_num, by norm_num⟩
  have h4 := h3 _ hd
  have h5 : |√((mul (lit 2) pi).val : ℝ) - ((5644425081792261 / 2251799813685248 : ℚ) : ℝ)| ≤ 3 / 10 ^ 16 := by
    rw [abs_le]; push_cast; constructor <;> norm_num at hr ⊢ <;> linarith [hr.1, hr.2]
  have h6 := abs_le.mp (h4.trans h5)
  constructor <;> norm_num at hr h6 ⊢ <;> linarith [hr.1, hr.2, h6.1, h6.2]

/-- The gamma function at 3/2. -/
theorem gamma_three_halves (P : lib.Powers) (E : lib.Exponentials) :
    (B64.gamma lib (lit (3 / 2))).isFin ∧ |((B64.gamma lib (lit (3 / 2))).val : ℝ) - √Real.pi / 2| ≤ √Real.pi / 2 / 10 ^ 14 := by
  have e1 : B64.lt (lit (3 / 2)) (lit (1 / 2)) = false := by decide +kernel
  have e2 : B64.sub (lit (3 / 2)) (lit 1) = lit (1 / 2) := by decide +kernel
  have e3 : B64.add (B64.add (lit (1 / 2)) gammaG) (lit (1 / 2)) = lit (735 / 128) := by decide +kernel
  have e4 : B64.add (lit (1 / 2)) (lit (1 / 2)) = lit 1 := by decide +kernel
  have l := lit_nat (n := 1) (by norm_num)
  simp only [Nat.cast_one] at l
  have ht : (lit (735 / 128)).isFin ∧ (lit (735 / 128)).val = 735 / 128 := by refine ⟨⟨?_, ?_⟩, ?_⟩ <;> decide +kernel
  have hg : B64.gamma lib (lit (3 / 2)) = mul (mul (mul (sqrt (mul (lit 2) pi)) (lib.powf (lit (735 / 128)) (lit 1))) (lib.exp (neg (lit (735 / 128)))))
      (gammaSum (lit (1 / 2)) 1 gammaRest gammaFirst) := by
    unfold B64.gamma gammaRight
    rw [e1]
    simp only [Bool.false_eq_true, if_false, e2, e3, e4]
  rw [hg]
  obtain ⟨s1, s2, s3⟩ := root_two_pi
  obtain ⟨p1, p2⟩ := P.exact (lit (735 / 128)) (lit 1) 1 ht.1 l.1 (by rw [l.2]; simp) (by rw [pow_one]; exact isDouble_val ht.1)
  rw [pow_one, ht.2] at p2
  obtain ⟨n1, n2, -⟩ := neg_fin ht.1
  rw [ht.2] at n2
  obtain ⟨x1, x2⟩ := E.near _ n1 (by rw [n2]; norm_num) (by rw [n2]; norm_num)
  rw [n2] at x2
  push_cast at x2
  obtain ⟨y1, y2⟩ := exp_neg_t
  obtain ⟨f1, f2⟩ := lanczos_half
  have x3 : (0.0032077436556835067 : ℝ) ≤ ((lib.exp (neg (lit (735 / 128)))).val : ℝ) ∧ ((lib.exp (neg (lit (735 / 128)))).val : ℝ) ≤ 0.0032077436556835100 := by
    generalize Real.exp (-(735 / 128)) = z at *
    rw [abs_le] at x2
    constructor <;> norm_num at x2 y1 y2 ⊢ <;> linarith [x2.1, x2.2]
  generalize sqrt (mul (lit 2) pi) = S at *
  generalize lib.powf (lit (735 / 128)) (lit 1) = W at *
  generalize lib.exp (neg (lit (735 / 128))) = X at *
  generalize gammaSum (lit (1 / 2)) 1 gammaRest gammaFirst = G at *
  have s2 : (2.5066282746310001 : ℚ) ≤ S.val := by
    have : ((2.5066282746310001 : ℚ) : ℝ) ≤ (S.val : ℝ) := by push_cast; exact s2
    exact_mod_cast this
  have s3 : S.val ≤ (2.5066282746310009 : ℚ) := by
    have : (S.val : ℝ) ≤ ((2.5066282746310009 : ℚ) : ℝ) := by push_cast; exact s3
    exact_mod_cast this
  have x4 : (0.0032077436556835067 : ℚ) ≤ X.val := by
    have : ((0.0032077436556835067 : ℚ) : ℝ) ≤ (X.val : ℝ) := by push_cast; exact x3.1
    exact_mod_cast this
  have x5 : X.val ≤ (0.0032077436556835100 : ℚ) := by
    have : (X.val : ℝ) ≤ ((0.0032077436556835100 : ℚ) : ℝ) := by push_cast; exact x3.2
    exact_mod_cast this
  have usual : ∀ q : ℚ, 1 / 1000 ≤ q → q ≤ 1000 → Usual q := by
    intro q h1 h2
    constructor
    · refine le_trans ?_ h1
      apply one_div_le_one_div_of_le (by norm_num)
      calc (1000 : ℚ) ≤ 2 ^ 10 := by norm_num
        _ ≤ 2 ^ 1021 := pow_le_pow_right₀ (by norm_num) (by norm_num)
    · refine h2.trans ?_
      calc (1000 : ℚ) ≤ 2 ^ 10 := by norm_num
        _ ≤ 2 ^ 1022 := pow_le_pow_right₀ (by norm_num) (by norm_num)
  have self : ∀ q : ℚ, Near 0 q q := fun q => ⟨by simp, by simp⟩
  have a1 : Near 0 (S.val * W.val) (S.val * W.val) := self _
  have bSW : 14.39352954573 ≤ S.val * W.val ∧ S.val * W.val ≤ 14.39352954574 := by
    rw [p2]; constructor <;> norm_num at s2 s3 ⊢ <;> linarith
  obtain ⟨b1, b2⟩ := near_round (by norm_num) (usual _ (by linarith [bSW.1]) (by linarith [bSW.2])) a1 (S.sign ^^ W.sign)
  rw [← mul_fin s1 p1] at b1 b2
  have bX : 0 < X.val := lt_of_lt_of_le (by norm_num) x4
  have bSWX : 0.04617075308 ≤ S.val * W.val * X.val ∧ S.val * W.val * X.val ≤ 0.04617075309 := by
    constructor
    · exact le_trans (by norm_num) (mul_le_mul bSW.1 x4 (by norm_num) (by linarith [bSW.1]))
    · exact le_trans (mul_le_mul bSW.2 x5 bX.le (by norm_num)) (by norm_num)
  obtain ⟨c1, c2⟩ := near_round (by norm_num) (usual _ (by linarith [bSWX.1]) (by linarith [bSWX.2]))
    (near_mul (by linarith [bSW.1]) bX b2 (self X.val)) ((mul S W).sign ^^ X.sign)
  rw [← mul_fin b1 x1] at c1 c2
  have bF : S.val * W.val * X.val * G.val ≤ 0.89 ∧ 0.88 ≤ S.val * W.val * X.val * G.val := by
    rw [f2]; constructor <;> norm_num at bSWX ⊢ <;> linarith [bSWX.1, bSWX.2]
  obtain ⟨d1, d2⟩ := near_round (by norm_num) (usual _ (by linarith [bF.2]) (by linarith [bF.1]))
    (near_mul (by linarith [bSWX.1]) (by rw [f2]; norm_num) c2 (self G.val)) ((mul (mul S W) X).sign ^^ G.sign)
  rw [← mul_fin c1 f1] at d1 d2
  have d3 := near_error (by norm_num) (by linarith [bF.2]) d2
  refine ⟨d1, ?_⟩
  have lo : 2.5066282746310001 * (735 / 128) * 0.0032077436556835067 ≤ S.val * W.val * X.val := by
    rw [p2]
    exact mul_le_mul (mul_le_mul_of_nonneg_right s2 (by norm_num)) x4 (by norm_num) (by linarith [s2])
  have hi : S.val * W.val * X.val ≤ 2.5066282746310009 * (735 / 128) * 0.0032077436556835100 := by
    rw [p2]
    exact mul_le_mul (mul_le_mul_of_nonneg_right s3 (by norm_num)) x5 bX.le (by norm_num)
  rw [f2] at d3
  generalize (mul (mul (mul S W) X) G).val = r at *
  generalize S.val * W.val * X.val = q at *
  have r1 : 0.88622692545275 ≤ r ∧ 0.88622692545275 + 6e-15 ≤ r ∧ r ≤ 0.88622692545275 + 1e-14 := by
    rw [abs_le] at d3
    norm_num at d3 lo hi ⊢
    refine ⟨?_, ?_, ?_⟩ <;> linarith [d3.1, d3.2]
  obtain ⟨z1, z2⟩ := root_pi_bounds
  have r2 : (0.88622692545275 + 6e-15 : ℝ) ≤ r := by
    have : (((0.88622692545275 + 6e-15 : ℚ)) : ℝ) ≤ (r : ℝ) := by exact_mod_cast r1.2.1
    push_cast at this; exact this
  have r3 : (r : ℝ) ≤ 0.88622692545275 + 1e-14 := by
    have : (r : ℝ) ≤ (((0.88622692545275 + 1e-14 : ℚ)) : ℝ) := by exact_mod_cast r1.2.2
    push_cast at this; exact this
  rw [abs_le]
  generalize √Real.pi / 2 = w at *
  constructor <;> norm_num at z1 z2 r2 r3 ⊢ <;> linarith

theorem gamma_falling (n : ℕ) : ((falling (n + 1 / 2) n : ℚ) : ℝ) * (√Real.pi / 2) = Real.Gamma (n + 3 / 2) := by
  induction n with
  | zero =>
    have : Real.Gamma (1 / 2 + 1) = 1 / 2 * Real.Gamma (1 / 2) := Real.Gamma_add_one (by norm_num)
    rw [Real.Gamma_one_half_eq] at this
    rw [falling_zero, Nat.cast_zero, show (0 : ℝ) + 3 / 2 = 1 / 2 + 1 by norm_num, this]
    push_cast; ring
  | succ n ih =>
    have h : (n : ℝ) + 3 / 2 ≠ 0 := by positivity
    have := Real.Gamma_add_one h
    rw [falling_succ, show ((n + 1 : ℕ) : ℝ) + 3 / 2 = n + 3 / 2 + 1 by push_cast; ring, this, ← ih,
      show ((n + 1 : ℕ) : ℚ) + 1 / 2 - 1 = n + 1 / 2 by push_cast; ring]
    push_cast; ring

/-- C159. Over `f64`, in both contexts: the factorial of n + 1/2, for n below 170, is Γ(n + 3/2) to 13 digits. -/
theorem C159_half (P : lib.Powers) (E : lib.Exponentials) (h : BuiltIn K debug docs (f64 lib draw) ((f64 lib draw).num B64.num) ctx) (x : B64)
    (hx : x.isFin) (n : ℕ) (hn : n < 170) (hv : x.val = n + 1 / 2) :
    ∃ r, evalTokens ctx [.number x, .unary (str "!")] = .ok r ∧ r.isFin ∧ |(r.val : ℝ) - Real.Gamma (n + 3 / 2)| ≤ Real.Gamma (n + 3 / 2) / 10 ^ 13 := by
  have hh : (lit (1 / 2)).isFin ∧ (lit (1 / 2)).val = 1 / 2 := by refine ⟨⟨?_, ?_⟩, ?_⟩ <;> decide +kernel
  have hsum : B64.add (lit (1 / 2)) (lit 1) = lit (3 / 2) := by decide +kernel
  obtain ⟨g1, g2⟩ := gamma_three_halves P E
  have hg : evalTokens ctx [.number (lit (1 / 2)), .unary (str "!")] = .ok (B64.gamma lib (lit (3 / 2))) := by
    rw [double_fact h, factorial_below _ hh.1 (by rw [hh.2]; norm_num) (by rw [hh.2]; norm_num), hsum]
  obtain ⟨z1, z2⟩ := root_pi_bounds
  have hF := gamma_falling n
  generalize B64.gamma lib (lit (3 / 2)) = g at *
  have hb : (1 / 2 : ℝ) ≤ g.val ∧ (g.val : ℝ) ≤ 2 := by
    rw [abs_le] at g2
    constructor <;> norm_num at g2 z1 z2 ⊢ <;> linarith [g2.1, g2.2]
  have hq : 1 / 2 ≤ g.val ∧ g.val ≤ 2 := by
    have h1 : ((1 / 2 : ℚ) : ℝ) ≤ (g.val : ℝ) := by push_cast; exact hb.1
    have h2 : (g.val : ℝ) ≤ ((2 : ℚ) : ℝ) := by push_cast; exact hb.2
    exact ⟨by exact_mod_cast h1, by exact_mod_cast h2⟩
  obtain ⟨r, r1, r2, r3⟩ := C159_fraction h x (lit (1 / 2)) hx hh.1 n (by rw [hv]; linarith) (by rw [hv]; linarith) hn (by rw [hh.2, hv]; ring) g hg g1
    hq.1 hq.2
  refine ⟨r, r1, r2, ?_⟩
  rw [hv] at r3
  have hf1 : 1 ≤ falling (n + 1 / 2) n := falling_pos (by linarith)
  have r4 : |(r.val : ℝ) - (falling (n + 1 / 2) n : ℚ) * g.val| ≤ (falling (n + 1 / 2) n : ℚ) * g.val * (n / 2 ^ 52) := by
    have := (Rat.cast_le (K := ℝ)).mpr r3
    push_cast at this ⊢
    exact this
  have hf2 : (1 : ℝ) ≤ ((falling (n + 1 / 2) n : ℚ) : ℝ) := by exact_mod_cast hf1
  rw [← hF]
  clear hF r3
  generalize ((falling (n + 1 / 2) n : ℚ) : ℝ) = F at *
  generalize √Real.pi / 2 = w at *
  have hw : 0 < w := lt_of_lt_of_le (by norm_num) z1
  have hn' : (n : ℝ) / 2 ^ 52 ≤ 4 / 10 ^ 14 := by
    have : (n : ℝ) ≤ 170 := by exact_mod_cast hn.le
    rw [div_le_iff₀ (by positivity)]
    norm_num
    linarith
  have hg2 : (g.val : ℝ) ≤ w * (1 + 1 / 10 ^ 14) := by
    have := (abs_le.mp g2).2
    linarith [show w * (1 + 1 / 10 ^ 14) = w + w / 10 ^ 14 by ring]
  have hFw : 0 < F * w := by positivity
  calc |(r.val : ℝ) - F * w| = |((r.val : ℝ) - F * g.val) + F * (g.val - w)| := by ring_nf
    _ ≤ |(r.val : ℝ) - F * g.val| + |F * (g.val - w)| := abs_add_le _ _
    _ ≤ F * g.val * (n / 2 ^ 52) + F * (w / 10 ^ 14) := by
      rw [abs_mul, abs_of_pos (by linarith : 0 < F)]
      exact add_le_add r4 (mul_le_mul_of_nonneg_left g2 (by linarith))
    _ ≤ F * (w * (1 + 1 / 10 ^ 14)) * (4 / 10 ^ 14) + F * (w / 10 ^ 14) := by
      have : F * g.val * (n / 2 ^ 52) ≤ F * (w * (1 + 1 / 10 ^ 14)) * (4 / 10 ^ 14) :=
        mul_le_mul (mul_le_mul_of_nonneg_left hg2 (by linarith)) hn' (by positivity) (by positivity)
      linarith
    _ = F * w * ((1 + 1 / 10 ^ 14) * (4 / 10 ^ 14) + 1 / 10 ^ 14) := by ring
    _ ≤ F * w * (1 / 10 ^ 13) := mul_le_mul_of_nonneg_left (by norm_num) hFw.le
    _ = _ := by ring

/-! ## Examples -/

namespace B64

/-- Any library, with this exponential function: the nearest double. -/
noncomputable def withExponential (lib : Libm) : Libm := { lib with exp := fun x => of false (Real.exp x.val) }

/-- The contracts can be met, both at once. -/
theorem withExponential_contract (lib : Libm) (P : lib.Powers) : (withExponential lib).Powers ∧ (withExponential lib).Exponentials := by
  refine ⟨⟨P.exact, P.near, P.large, P.fraction, P.pole⟩, ⟨fun x hx h1 h2 => ?_⟩⟩
  have l1 : (-700 : ℝ) ≤ x.val := by exact_mod_cast h1
  have l2 : (x.val : ℝ) ≤ 700 := by exact_mod_cast h2
  have e3 : Real.exp 1 ≤ 2.72 := by have := Real.exp_one_lt_d9; norm_num at this ⊢; linarith
  have e1 : Real.exp x.val ≤ 2 ^ 1022 := by
    calc Real.exp x.val ≤ Real.exp ((700 : ℕ) * 1) := Real.exp_le_exp.mpr (by push_cast; linarith)
      _ = Real.exp 1 ^ 700 := Real.exp_nat_mul _ _
      _ ≤ 2.72 ^ 700 := pow_le_pow_left₀ (Real.exp_pos _).le e3 700
      _ = ((2.72 : ℝ) ^ 2) ^ 350 := by rw [← pow_mul]
      _ ≤ (7.4 : ℝ) ^ 350 := pow_le_pow_left₀ (by norm_num) (by norm_num) 350
      _ = ((7.4 : ℝ) ^ 50) ^ 7 := by rw [← pow_mul]
      _ ≤ (2 ^ 146) ^ 7 := pow_le_pow_left₀ (by positivity) (by norm_num) 7
      _ = 2 ^ 1022 := by rw [← pow_mul]
  have e2 : 1 / 2 ^ 1022 ≤ Real.exp x.val := by
    have : Real.exp (-(x.val : ℝ)) ≤ 2 ^ 1022 := by
      calc Real.exp (-(x.val : ℝ)) ≤ Real.exp ((700 : ℕ) * 1) := Real.exp_le_exp.mpr (by push_cast; linarith)
        _ = Real.exp 1 ^ 700 := Real.exp_nat_mul _ _
        _ ≤ 2.72 ^ 700 := pow_le_pow_left₀ (Real.exp_pos _).le e3 700
        _ = ((2.72 : ℝ) ^ 2) ^ 350 := by rw [← pow_mul]
        _ ≤ (7.4 : ℝ) ^ 350 := pow_le_pow_left₀ (by norm_num) (by norm_num) 350
        _ = ((7.4 : ℝ) ^ 50) ^ 7 := by rw [← pow_mul]
        _ ≤ (2 ^ 146) ^ 7 := pow_le_pow_left₀ (by positivity) (by norm_num) 7
        _ = 2 ^ 1022 := by rw [← pow_mul]
    rw [Real.exp_neg] at this
    rw [one_div, inv_le_comm₀ (by positivity) (Real.exp_pos _)]
    exact this
  have e4 : Real.exp x.val ≤ 2 ^ 1023 := e1.trans (pow_le_pow_right₀ (by norm_num) (by norm_num))
  refine ⟨(of_real (Real.exp_pos _).le e4 false).1, ?_⟩
  rw [abs_sub_comm]
  refine (of_real_error e2 e4 false).trans ?_
  have := Real.exp_pos (x.val : ℝ)
  apply div_le_div_of_nonneg_left this.le (by norm_num) (by norm_num)

end B64

/-- The hypotheses are met: 5/2 is n + 1/2 for n = 2, and some library meets both contracts. -/
example (lib : Libm) : (withExponential (withPower lib)).Powers ∧ (withExponential (withPower lib)).Exponentials ∧
    (lit (5 / 2)).isFin ∧ (lit (5 / 2)).val = (2 : ℕ) + 1 / 2 ∧ falling (5 / 2) 2 = 15 / 4 := by
  obtain ⟨h1, h2⟩ := withExponential_contract (withPower lib) (withPower_powers lib)
  refine ⟨h1, h2, ⟨by decide +kernel, by decide +kernel⟩, ?_, by simp [falling, Finset.prod_range_succ]; norm_num⟩
  have : (lit (5 / 2)).val = 5 / 2 := by decide +kernel
  rw [this]; norm_num

end

end Prexel
