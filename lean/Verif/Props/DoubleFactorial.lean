import Verif.Props.Literals
import Verif.Props.Cost
import Mathlib.Data.Nat.Factorial.Basic
/-!
# Factorials over `f64` (C133)
-/

set_option linter.unusedVariables false

namespace Prexel
open B64

namespace B64

/-- Rounding changes a number that is not too small by at most 2^-53 of itself. -/
theorem rnd_relative {q : ℚ} (h : 1 / 2 ^ 1022 ≤ q) : |rnd q - q| ≤ q / 2 ^ 53 := by
  have hp := perOne_pos
  have h0 : 0 ≤ q := le_trans (by positivity) h
  have ht : 0 ≤ q * perOne := by positivity
  rw [rnd_nonneg h0]
  have e : |(units (q * perOne) : ℚ) / perOne - q| = |q * perOne - units (q * perOne)| / perOne := by
    rw [abs_sub_comm]
    have : q - (units (q * perOne) : ℚ) / perOne = (q * perOne - units (q * perOne)) / perOne := by field_simp
    rw [this, abs_div, abs_of_pos hp]
  rw [e, div_le_iff₀ hp]
  have e2 : q / 2 ^ 53 * perOne = q * perOne / 2 ^ 53 := by ring
  rw [e2]
  rcases units_error ht with h1 | h1
  · refine h1.trans ?_
    have h2 : (2 : ℚ) ^ 52 ≤ q * perOne := by
      have h3 : (perOne : ℚ) = 2 ^ 52 * 2 ^ 1022 := by
        unfold perOne
        rw [← pow_add, Nat.cast_pow, Nat.cast_ofNat]
      have h4 := mul_le_mul_of_nonneg_right h hp.le
      rw [h3] at h4 ⊢
      generalize (2 : ℚ) ^ 1022 = x at *
      have hx : 0 < x := by
        by_contra hx
        rw [h3] at hp
        nlinarith
      have h5 : 1 / x * (2 ^ 52 * x) = 2 ^ 52 := by field_simp
      linarith
    rw [le_div_iff₀ (by positivity)]
    linarith [show (1 / 2 : ℚ) * 2 ^ 53 = 2 ^ 52 by norm_num]
  · exact h1

/-- The product of `t` and `m`, `m - 1`, …, 1, rounded after each factor. -/
def product : ℕ → B64 → B64
  | 0, t => t
  | m + 1, t => product m (mul t (lit ((m + 1 : ℕ) : ℚ)))

theorem lit_nat {n : ℕ} (h : n ≤ 2 ^ 53) : (lit (n : ℚ)).isFin ∧ (lit (n : ℚ)).val = n := by
  have := lit_double (q := ((n : ℤ) : ℚ)) (isDouble_int (by rw [abs_of_nonneg (by omega)]; exact_mod_cast h))
  simpa using this

theorem lit_sign {n : ℕ} : (lit (n : ℚ)).sign = false := by
  unfold lit
  rcases Nat.eq_zero_or_pos n with rfl | h
  · exact (of_sign false _).2.2 (by simp)
  · exact (of_sign false _).2.1 (by exact_mod_cast h)

theorem lit_sub {n : ℕ} (h : n + 1 ≤ 2 ^ 53) : sub (lit ((n + 1 : ℕ) : ℚ)) (lit 1) = lit (n : ℚ) := by
  obtain ⟨h1, h2⟩ := lit_nat h
  have h3 := lit_nat (n := 1) (by norm_num)
  simp only [Nat.cast_one] at h3
  rw [sub_fin h1 h3.1, h2, h3.2, lit_sign]
  show of (false && _) _ = of false _
  rw [Bool.false_and]
  congr 1
  push_cast; ring

variable {lib : Libm} {draw : B64}

theorem ge_one {n : ℕ} (h : n ≤ 2 ^ 53) : ge (lit (n : ℚ)) (lit 1) = true ↔ 1 ≤ n := by
  obtain ⟨h1, h2⟩ := lit_nat h
  have h3 := lit_nat (n := 1) (by norm_num)
  simp only [Nat.cast_one] at h3
  rw [ge_fin h1 h3.1, h2, h3.2]
  exact Nat.one_le_cast

/-- The loop of `Factorial`. -/
theorem factorialLoop_double {m : ℕ} (hm : m ≤ 2 ^ 53) {fuel : ℕ} (hf : m ≤ fuel) (t : B64) :
    Ops.factorialLoop ((f64 lib draw).num B64.num) fuel t (lit (m : ℚ)) = .ok (product m t, lit ((0 : ℕ) : ℚ)) := by
  induction m generalizing fuel t with
  | zero =>
    have h0 : ¬ ge (lit ((0 : ℕ) : ℚ)) (lit 1) = true := by rw [ge_one hm]; omega
    have h0' : ¬ ((f64 lib draw).num B64.num).ge (lit ((0 : ℕ) : ℚ)) ((f64 lib draw).num B64.num).one = true := h0
    cases fuel <;> simp only [Ops.factorialLoop, h0', product] <;> rfl
  | succ m ih =>
    have h1 : ((f64 lib draw).num B64.num).ge (lit ((m + 1 : ℕ) : ℚ)) ((f64 lib draw).num B64.num).one = true := (ge_one hm).mpr (by omega)
    cases fuel with
    | zero => omega
    | succ fuel =>
      simp only [Ops.factorialLoop, h1, if_true]
      have h2 : ((f64 lib draw).num B64.num).sub (lit ((m + 1 : ℕ) : ℚ)) ((f64 lib draw).num B64.num).one = .ok (lit (m : ℚ)) := by
        show Res.ok (sub _ (lit 1)) = _
        rw [lit_sub hm]
      have h3 : ((f64 lib draw).num B64.num).mul t (lit ((m + 1 : ℕ) : ℚ)) = .ok (mul t (lit ((m + 1 : ℕ) : ℚ))) := rfl
      rw [h2, h3]
      simp only [Res.bind_ok]
      rw [ih (by omega) (by omega)]
      rfl

/-! ## The error -/

/-- After `j` factors the error is at most `j` in 2^52. -/
theorem product_error (m : ℕ) : ∀ (t : B64) (j : ℕ) (P : ℚ), t.isFin → 1 ≤ P → |t.val - P| ≤ P * (j / 2 ^ 52) → j + m ≤ 2 ^ 52 → ¬ TooLarge (2 * (P * m.factorial)) →
    m ≤ 2 ^ 53 → (product m t).isFin ∧ |(product m t).val - P * m.factorial| ≤ P * m.factorial * ((j + m : ℕ) / 2 ^ 52) := by
  induction m with
  | zero =>
    intro t j P ht hP he hj hl hm
    simpa [product] using ⟨ht, he⟩
  | succ m ih =>
    intro t j P ht hP he hj hl hm
    obtain ⟨l1, l2⟩ := lit_nat hm
    have hmq : (1 : ℚ) ≤ ((m + 1 : ℕ) : ℚ) := by exact_mod_cast Nat.succ_le_succ (Nat.zero_le m)
    have hfact : (1 : ℚ) ≤ (m.factorial : ℚ) := by exact_mod_cast Nat.one_le_iff_ne_zero.mpr (Nat.factorial_ne_zero m)
    obtain ⟨u, hu⟩ : ∃ u : ℚ, u = 1 / 2 ^ 53 := ⟨_, rfl⟩
    have hu0 : 0 < u := by rw [hu]; positivity
    have hj' : ((j : ℚ) / 2 ^ 52) = 2 * j * u := by rw [hu]; norm_num; ring
    have hju : 2 * (j : ℚ) * u ≤ 1 := by
      rw [← hj', div_le_one (by positivity)]
      exact_mod_cast (by omega : j ≤ 2 ^ 52)
    rw [hj'] at he
    obtain ⟨he1, he2⟩ := abs_le.mp he
    have hP0 : 0 < P := by linarith
    have hup : t.val ≤ 2 * P := by nlinarith
    have hlow : P / 2 ^ 52 ≤ t.val := by
      have h1 : (j : ℚ) + 1 ≤ 2 ^ 52 := by exact_mod_cast (by omega : j + 1 ≤ 2 ^ 52)
      have h2 : 2 * (j : ℚ) * u ≤ 1 - 1 / 2 ^ 52 := by
        rw [← hj', div_le_iff₀ (by positivity)]
        linarith [show ((1 : ℚ) - 1 / 2 ^ 52) * 2 ^ 52 = 2 ^ 52 - 1 by norm_num]
      have : P * (2 * j * u) ≤ P * (1 - 1 / 2 ^ 52) := mul_le_mul_of_nonneg_left h2 hP0.le
      have e : P * (1 - 1 / 2 ^ 52) = P - P / 2 ^ 52 := by ring
      linarith
    -- the next product
    have hv0 : 0 ≤ t.val := le_trans (by positivity) hlow
    have hv : ¬ TooLarge (t.val * ((m + 1 : ℕ) : ℚ)) := by
      unfold TooLarge at hl ⊢
      rw [not_le] at hl ⊢
      refine lt_of_le_of_lt ?_ hl
      rw [abs_of_nonneg (by positivity), abs_of_nonneg (by positivity), Nat.factorial_succ]
      push_cast
      have h1 : t.val * ((m : ℚ) + 1) ≤ 2 * P * (m + 1) := mul_le_mul_of_nonneg_right hup (by positivity)
      have h2 : 2 * P * ((m : ℚ) + 1) * 1 ≤ 2 * P * (m + 1) * m.factorial := mul_le_mul_of_nonneg_left hfact (by positivity)
      calc t.val * ((m : ℚ) + 1) ≤ 2 * P * (m + 1) * 1 := by linarith
        _ ≤ 2 * P * (m + 1) * m.factorial := h2
        _ = 2 * (P * ((m + 1) * m.factorial)) := by ring
    have hv' : ¬ TooLarge (t.val * (lit ((m + 1 : ℕ) : ℚ)).val) := by rw [l2]; exact hv
    obtain ⟨hf, hr⟩ := of_fin (t.sign ^^ (lit ((m + 1 : ℕ) : ℚ)).sign) hv'
    rw [← mul_fin ht l1] at hf hr
    have hrel := rnd_relative (q := t.val * (lit ((m + 1 : ℕ) : ℚ)).val) (by
      rw [l2]
      have h1 : (1 : ℚ) / 2 ^ 1022 ≤ 1 / 2 ^ 52 := by
        rw [show (1022 : ℕ) = 52 + 970 from rfl, pow_add]
        apply one_div_le_one_div_of_le (by positivity)
        have : (1 : ℚ) ≤ 2 ^ 970 := one_le_pow₀ (by norm_num)
        exact le_mul_of_one_le_right (by positivity) this
      have h2 : (1 : ℚ) / 2 ^ 52 ≤ P / 2 ^ 52 := by
        rw [div_le_div_iff_of_pos_right (by positivity)]; exact hP
      calc (1 : ℚ) / 2 ^ 1022 ≤ 1 / 2 ^ 52 := h1
        _ ≤ P / 2 ^ 52 := h2
        _ ≤ t.val := hlow
        _ ≤ t.val * ((m + 1 : ℕ) : ℚ) := by nlinarith)
    rw [← hr, l2] at hrel
    have hnew : |(mul t (lit ((m + 1 : ℕ) : ℚ))).val - P * ((m + 1 : ℕ) : ℚ)| ≤ P * ((m + 1 : ℕ) : ℚ) * ((j + 1 : ℕ) / 2 ^ 52) := by
      generalize hM : ((m + 1 : ℕ) : ℚ) = M at *
      have h1 : |t.val * M - P * M| ≤ P * (2 * j * u) * M := by
        rw [← sub_mul, abs_mul, abs_of_pos (by linarith : 0 < M)]
        exact mul_le_mul_of_nonneg_right he (by linarith)
      have h2 : t.val * M / 2 ^ 53 ≤ P * (1 + 2 * j * u) * M * u := by
        have h3 : t.val ≤ P * (1 + 2 * j * u) := by linarith [show P * (1 + 2 * j * u) = P + P * (2 * j * u) by ring]
        have h4 := mul_le_mul_of_nonneg_right h3 (by linarith : 0 ≤ M)
        have h5 := mul_le_mul_of_nonneg_right h4 hu0.le
        calc t.val * M / 2 ^ 53 = t.val * M * u := by rw [hu]; ring
          _ ≤ _ := h5
      have h6 : P * (1 + 2 * j * u) * M * u + P * (2 * j * u) * M ≤ P * M * ((j + 1 : ℕ) / 2 ^ 52) := by
        have h7 : ((j + 1 : ℕ) : ℚ) / 2 ^ 52 = 2 * (j + 1) * u := by rw [hu]; push_cast; norm_num; ring
        rw [h7]
        have h8 : P * M * (2 * (j + 1) * u) - (P * (1 + 2 * j * u) * M * u + P * (2 * j * u) * M) = P * M * u * (1 - 2 * j * u) := by ring
        have h9 : 0 ≤ P * M * u * (1 - 2 * j * u) := by
          have : 0 ≤ 1 - 2 * (j : ℚ) * u := by linarith
          have : 0 ≤ P * M * u := by
            have : 0 ≤ P * M := mul_nonneg hP0.le (by linarith)
            exact mul_nonneg this hu0.le
          positivity
        linarith
      calc |(mul t (lit M)).val - P * M| = |((mul t (lit M)).val - t.val * M) + (t.val * M - P * M)| := by ring_nf
        _ ≤ |(mul t (lit M)).val - t.val * M| + |t.val * M - P * M| := abs_add_le _ _
        _ ≤ _ := by linarith
    have hPm : P * ((m + 1 : ℕ) : ℚ) * (m.factorial : ℚ) = P * ((m + 1).factorial : ℚ) := by
      rw [Nat.factorial_succ]; push_cast; ring
    have := ih (mul t (lit ((m + 1 : ℕ) : ℚ))) (j + 1) (P * ((m + 1 : ℕ) : ℚ)) hf (by nlinarith) hnew (by omega) (by rw [hPm]; exact hl) (by omega)
    rw [hPm, show j + 1 + m = j + (m + 1) by omega] at this
    exact this

/-! ## Infinity -/

/-- Infinite, or at least `q`. -/
def AtLeast (q : ℚ) (x : B64) : Prop := x = .inf false ∨ (x.isFin ∧ q ≤ x.val)

theorem mul_inf {m : ℕ} (h0 : 1 ≤ m) (hm : m ≤ 2 ^ 53) : mul (.inf false) (lit (m : ℚ)) = .inf false := by
  obtain ⟨l1, l2⟩ := lit_nat hm
  have ls := lit_sign (n := m)
  obtain ⟨a, k, hk, he⟩ := isFin_fin l1
  rw [he] at ls l2 ⊢
  cases (show a = false from ls)
  have : k ≠ 0 := by
    rintro rfl
    have : (B64.fin false 0 hk).val = 0 := (val_zero_iff _ _ _).mpr rfl
    rw [this] at l2
    have : m = 0 := by exact_mod_cast l2.symm
    omega
  simp [B64.mul, this]

theorem product_inf {m : ℕ} (hm : m ≤ 2 ^ 53) : product m (.inf false) = .inf false := by
  induction m with
  | zero => rfl
  | succ m ih => rw [product, mul_inf (by omega) hm, ih (by omega)]

theorem mul_cases {x : B64} (hx : x.isFin) (h0 : 0 ≤ x.val) {m : ℕ} (hm : m ≤ 2 ^ 53) :
    (TooLarge (x.val * m) ∧ mul x (lit (m : ℚ)) = .inf false) ∨
    (¬ TooLarge (x.val * m) ∧ (mul x (lit (m : ℚ))).isFin ∧ (mul x (lit (m : ℚ))).val = rnd (x.val * m)) := by
  obtain ⟨l1, l2⟩ := lit_nat hm
  rw [mul_fin hx l1, l2]
  by_cases h : TooLarge (x.val * m)
  · left
    refine ⟨h, ?_⟩
    rw [of_inf _ h, decide_eq_false (not_lt.mpr (by positivity))]
  · exact .inr ⟨h, of_fin _ h⟩

theorem tooLarge_mono {a b : ℚ} (h0 : 0 ≤ a) (h : a ≤ b) (ha : TooLarge a) : TooLarge b := by
  unfold TooLarge at *
  rw [abs_of_nonneg h0] at ha
  rw [abs_of_nonneg (h0.trans h)]
  exact ha.trans h

theorem product_mono {m : ℕ} (hm : m ≤ 2 ^ 53) {x y : B64} (hx : x.isFin) (h0 : 0 ≤ x.val) (hy : AtLeast x.val y) (h : product m x = .inf false) :
    product m y = .inf false := by
  induction m generalizing x y with
  | zero =>
    rw [product] at h
    rw [h] at hx
    exact absurd hx.2 (by simp [isInf])
  | succ m ih =>
    rcases hy with rfl | ⟨hy, hle⟩
    · exact product_inf hm
    rw [product] at h ⊢
    have hle' : x.val * ((m + 1 : ℕ) : ℚ) ≤ y.val * ((m + 1 : ℕ) : ℚ) := mul_le_mul_of_nonneg_right hle (by positivity)
    rcases mul_cases hy (h0.trans hle) hm with ⟨ty, ey⟩ | ⟨ty, fy, vy⟩
    · rw [ey]; exact product_inf (by omega)
    · rcases mul_cases hx h0 hm with ⟨tx, ex⟩ | ⟨tx, fx, vx⟩
      · exact absurd (tooLarge_mono (by positivity) hle' tx) ty
      · refine ih (by omega) fx ?_ (.inr ⟨fy, ?_⟩) h
        · rw [vx]; exact rnd_pos (by positivity)
        · rw [vx, vy]; exact rnd_mono hle'

theorem product_171 : product 170 (lit ((171 : ℕ) : ℚ)) = .inf false := by decide +kernel

theorem product_large (k : ℕ) (hk : 170 + k ≤ 2 ^ 53) (t : B64) (ht : AtLeast 171 t) : product (170 + k) t = .inf false := by
  induction k generalizing t with
  | zero =>
    have h := lit_nat (n := 171) (by norm_num)
    exact product_mono hk h.1 (by rw [h.2]; norm_num) (by rw [h.2]; exact ht) product_171
  | succ k ih =>
    show product (170 + k + 1) t = _
    rw [product]
    apply ih (by omega)
    rcases ht with rfl | ⟨hf, hv⟩
    · exact .inl (mul_inf (by omega) hk)
    · rcases mul_cases (m := 170 + k + 1) hf (by linarith) hk with ⟨-, e⟩ | ⟨-, e1, e2⟩
      · exact .inl e
      · refine .inr ⟨e1, ?_⟩
        rw [e2]
        have hd : rnd 171 = 171 := rnd_keep (by simpa using isDouble_int (n := 171) (by norm_num))
        rw [← hd]
        apply rnd_mono
        have : (1 : ℚ) ≤ ((170 + k + 1 : ℕ) : ℚ) := by exact_mod_cast (by omega : 1 ≤ 170 + k + 1)
        nlinarith

/-- What `Factorial` gives, by what subtracting 1 gives. -/
theorem factorial_from {n m : ℕ} (h2 : 2 ≤ n) (hm : m ≤ 2 ^ 53) (hmn : m ≤ n + 1) {x : B64} (hx : x.isFin) (hv : x.val = n) (e5 : B64.sub x (lit 1) = lit (m : ℚ)) :
    (Ops.factorial (f64 lib draw) ((f64 lib draw).num B64.num)).fn.call x = .ok (product m x) := by
  have h1 := lit_nat (n := 1) (by norm_num)
  simp only [Nat.cast_one] at h1
  have hz : (B64.zero false).isFin ∧ (B64.zero false).val = 0 := ⟨⟨rfl, rfl⟩, (val_zero_iff _ _ _).mpr rfl⟩
  have hnq : (2 : ℚ) ≤ n := by exact_mod_cast h2
  have e1 : B64.lt x (B64.zero false) = false := by rw [← Bool.not_eq_true, lt_fin hx hz.1, hv, hz.2]; linarith
  have e2 : x.isZero = false := by rw [← Bool.not_eq_true, isZero_iff hx, hv]; linarith
  have e3 : (x == lit 1) = false := by
    rw [beq_eq_false_iff_ne]
    intro h
    have := congrArg B64.val h
    rw [hv, h1.2] at this
    linarith
  have e4 : B64.lt x (lit 1) = false := by rw [← Bool.not_eq_true, lt_fin hx h1.1, hv, h1.2]; linarith
  have e6 : (B64.num).fuel x = n + 1 := by
    show (⌊x.val⌋).toNat + 1 = _
    rw [hv, Int.floor_natCast, Int.toNat_natCast]
  have e7 : (lit 0).isZero = true := by decide +kernel
  show (if B64.lt x (B64.zero false) = true then _ else if (x.isZero || (x == lit 1)) = true then _ else if B64.lt x (lit 1) = true then _ else
    (Ops.factorialLoop ((f64 lib draw).num B64.num) ((B64.num).fuel x) x (B64.sub x (lit 1))).bind fun r => if r.2.isZero = true then Res.ok r.1 else _) = _
  rw [e1, e2, e3, e4, e5, e6, factorialLoop_double hm hmn]
  simp [e7]

/-- What `Factorial` gives for whole numbers. -/
theorem factorial_whole {n : ℕ} (h2 : 2 ≤ n) (hn : n ≤ 2 ^ 53) {x : B64} (hx : x.isFin) (hv : x.val = n) :
    (Ops.factorial (f64 lib draw) ((f64 lib draw).num B64.num)).fn.call x = .ok (product (n - 1) x) := by
  have hxl : x = lit (n : ℚ) := by
    obtain ⟨l1, l2⟩ := lit_nat hn
    refine eq_of_val hx l1 (hv.trans l2.symm) ?_
    rw [lit_sign]
    exact sign_fin_pos hx (by rw [hv]; positivity)
  refine factorial_from h2 (by omega) (by omega) hx hv ?_
  have := lit_sub (n := n - 1) (by omega)
  rw [Nat.sub_add_cancel (by omega)] at this
  rw [hxl]; exact this

/-- A whole number above 2^53 and below 2^53 + 4 that is a double is 2^53 + 2. -/
theorem whole_above {n : ℕ} (h1 : 2 ^ 53 < n) (h2 : n < 2 ^ 53 + 4) (hd : IsDouble (n : ℚ)) : n = 2 ^ 53 + 2 := by
  have hr := rnd_keep hd
  rcases (by omega : n = 2 ^ 53 + 1 ∨ n = 2 ^ 53 + 2 ∨ n = 2 ^ 53 + 3) with rfl | h | rfl
  · exact absurd hr (by decide +kernel)
  · exact h
  · exact absurd hr (by decide +kernel)

/-- What `Factorial` gives for 2^53 + 2: subtracting 1 gives 2^53, as the tie is rounded to the even double. -/
theorem factorial_top {x : B64} (hx : x.isFin) (hv : x.val = (2 ^ 53 + 2 : ℕ)) :
    (Ops.factorial (f64 lib draw) ((f64 lib draw).num B64.num)).fn.call x = .ok (.inf false) := by
  have ht : (lit ((2 ^ 53 + 2 : ℕ) : ℚ)).isFin ∧ (lit ((2 ^ 53 + 2 : ℕ) : ℚ)).val = ((2 ^ 53 + 2 : ℕ) : ℚ) := by
    have := lit_double (isDouble_val hx)
    rwa [hv] at this
  have hxl : x = lit ((2 ^ 53 + 2 : ℕ) : ℚ) := by
    refine eq_of_val hx ht.1 (hv.trans ht.2.symm) ?_
    rw [lit_sign]
    exact sign_fin_pos hx (by rw [hv]; positivity)
  have hs : B64.sub (lit ((2 ^ 53 + 2 : ℕ) : ℚ)) (lit 1) = lit ((2 ^ 53 : ℕ) : ℚ) := by decide +kernel
  rw [factorial_from (n := 2 ^ 53 + 2) (m := 2 ^ 53) (by norm_num) (by norm_num) (by norm_num) hx hv (by rw [hxl]; exact hs)]
  have := product_large (2 ^ 53 - 170) (by norm_num) x (.inr ⟨hx, by rw [hv]; norm_num⟩)
  rw [show 170 + (2 ^ 53 - 170) = 2 ^ 53 by norm_num] at this
  rw [this]

end B64

section
variable {K : Keys} {debug docs : Bool} {lib : Libm} {draw : B64} {ctx : Ctx B64}

theorem factorial_170 : 2 * (170).factorial < 2 ^ 1024 - 2 ^ 970 := by decide +kernel

theorem cast_lt_powers {a b n : ℕ} (h : b ≤ a) (hn : n < 2 ^ a - 2 ^ b) : (n : ℚ) < 2 ^ a - 2 ^ b := by
  have h1 : ((n : ℕ) : ℚ) < ((2 ^ a - 2 ^ b : ℕ) : ℚ) := Nat.cast_lt.mpr hn
  rw [Nat.cast_sub (Nat.pow_le_pow_right (by norm_num) h)] at h1
  push_cast at h1
  exact h1

theorem small_nat {n : ℕ} (h : n < 2 ^ 1024 - 2 ^ 970) : ¬ TooLarge (n : ℚ) := by
  unfold TooLarge
  rw [not_le, abs_of_nonneg (Nat.cast_nonneg n)]
  exact cast_lt_powers (by norm_num) h

/-- C133. Over `f64`, in both contexts, for a whole number n: n! is exact up to 22!, within n / 2^52 of itself up to 170!, and infinite for all
further numbers below 2^53 + 4. Missing: from there on, see the counterexample. -/
theorem C133_factorial_partial (h : BuiltIn K debug docs (f64 lib draw) ((f64 lib draw).num B64.num) ctx) (x : B64) (hx : x.isFin) (n : ℕ) (hv : x.val = n) :
    let result := evalTokens ctx [.number x, .unary (str "!")]
    (n ≤ 22 → ∃ r, result = .ok r ∧ r.isFin ∧ r.val = n.factorial) ∧
    (n ≤ 170 → ∃ r, result = .ok r ∧ r.isFin ∧ |r.val - n.factorial| ≤ n.factorial * (n / 2 ^ 52)) ∧
    (171 ≤ n → n < 2 ^ 53 + 4 → result = .ok (.inf false)) := by
  intro result
  have hres : result = (Ops.factorial (f64 lib draw) ((f64 lib draw).num B64.num)).fn.call x := double_tree h (.fact (.num x))
  have hone := lit_nat (n := 1) (by norm_num)
  simp only [Nat.cast_one] at hone
  have small : n < 2 → result = .ok (lit 1) := by
    intro hn
    have hz : (B64.zero false).isFin ∧ (B64.zero false).val = 0 := ⟨⟨rfl, rfl⟩, (val_zero_iff _ _ _).mpr rfl⟩
    have e1 : B64.lt x (B64.zero false) = false := by
      rw [← Bool.not_eq_true, lt_fin hx hz.1, hv, hz.2, not_lt]; exact Nat.cast_nonneg n
    have e2 : (x.isZero || (x == lit 1)) = true := by
      rcases (by omega : n = 0 ∨ n = 1) with rfl | rfl
      · rw [(isZero_iff hx).mpr (by rw [hv]; simp)]; rfl
      · have : x = lit 1 := by
          refine eq_of_val hx hone.1 (by rw [hv, hone.2]; simp) ?_
          rw [sign_fin_pos hx (by rw [hv]; simp)]
          exact (lit_sign (n := 1) ▸ by simp : false = (lit 1).sign)
        rw [this]; simp
    rw [hres]
    show (if B64.lt x (B64.zero false) = true then _ else if (x.isZero || (x == lit 1)) = true then Res.ok (lit 1) else _) = _
    rw [e1, e2]; rfl
  have large : 2 ≤ n → n ≤ 2 ^ 53 → result = .ok (product (n - 1) x) := fun h2 hn => hres.trans (factorial_whole h2 hn hx hv)
  have hxl : 2 ≤ n → n ≤ 2 ^ 53 → x = lit (n : ℚ) := by
    intro h2 hn
    obtain ⟨l1, l2⟩ := lit_nat hn
    refine eq_of_val hx l1 (hv.trans l2.symm) ?_
    rw [lit_sign]
    exact sign_fin_pos hx (by rw [hv]; exact_mod_cast (by omega : 0 < n))
  refine ⟨fun hn => ?_, fun hn => ?_, fun h171 hn => ?_⟩
  · rcases Nat.lt_or_ge n 2 with h2 | h2
    · exact ⟨_, small h2, hone.1, by rw [hone.2]; rcases (by omega : n = 0 ∨ n = 1) with rfl | rfl <;> simp⟩
    · have hn53 : n ≤ 2 ^ 53 := hn.trans (by norm_num)
      have key : ∀ i < 21, (product (i + 1) (lit ((i + 2 : ℕ) : ℚ))).isNan = false ∧ (product (i + 1) (lit ((i + 2 : ℕ) : ℚ))).isInf = false ∧
          (product (i + 1) (lit ((i + 2 : ℕ) : ℚ))).val = (i + 2).factorial := by decide +kernel
      obtain ⟨k1, k2, k3⟩ := key (n - 2) (by omega)
      rw [show n - 2 + 2 = n by omega, show n - 2 + 1 = n - 1 by omega] at k1 k2 k3
      rw [← hxl h2 hn53] at k1 k2 k3
      exact ⟨_, large h2 hn53, ⟨k1, k2⟩, k3⟩
  · rcases Nat.lt_or_ge n 2 with h2 | h2
    · refine ⟨_, small h2, hone.1, ?_⟩
      rw [hone.2]
      rcases (by omega : n = 0 ∨ n = 1) with rfl | rfl <;> simp
    · have hn53 : n ≤ 2 ^ 53 := hn.trans (by norm_num)
      have hnq : (1 : ℚ) ≤ n := by exact_mod_cast (by omega : 1 ≤ n)
      have hfac : (n : ℚ) * ((n - 1).factorial : ℚ) = n.factorial := by
        rw [← Nat.cast_mul, Nat.mul_factorial_pred (by omega)]
      have := product_error (n - 1) x 0 n hx hnq (by rw [hv]; simp) (by omega) (by
        rw [hfac]
        have h1 := lt_of_le_of_lt (Nat.mul_le_mul_left 2 (Nat.factorial_le hn)) factorial_170
        have h2 := small_nat h1
        rwa [Nat.cast_mul] at h2) (by omega)
      rw [hfac] at this
      refine ⟨_, large h2 hn53, this.1, this.2.trans ?_⟩
      apply mul_le_mul_of_nonneg_left _ (Nat.cast_nonneg _)
      rw [div_le_div_iff_of_pos_right (by positivity)]
      exact_mod_cast (by omega : 0 + (n - 1) ≤ n)
  · rcases Nat.lt_or_ge (2 ^ 53) n with hbig | hn
    · obtain rfl := whole_above hbig hn (by rw [← hv]; exact isDouble_val hx)
      rw [hres]
      exact factorial_top hx hv
    rw [large (by omega) hn]
    have := product_large (n - 1 - 170) (by omega) x (.inr ⟨hx, by rw [hv]; exact_mod_cast h171⟩)
    rw [show 170 + (n - 1 - 170) = n - 1 by omega] at this
    rw [this]

/-- C133 fails for larger numbers: from 2^53 + 4 on the loop makes as many rounds as it is allowed to, however many these are, as subtracting 1 never
makes the number less than 2^53 + 4; the evaluation never ends. -/
theorem C133_hangs_counterexample (h : BuiltIn K debug docs (f64 lib draw) ((f64 lib draw).num B64.num) ctx) (x : B64) (hx : x.isFin)
    (hv : 2 ^ 53 + 4 ≤ x.val) :
    (∀ rounds total, factorialCost ((f64 lib draw).num B64.num) rounds total (B64.sub x (lit 1)) = rounds) ∧
    evalTokens ctx [.number x, .unary (str "!")] = .panic := by
  have hone := lit_nat (n := 1) (by norm_num)
  simp only [Nat.cast_one] at hone
  have hstep : ∀ y : B64, y.isFin → 2 ^ 53 + 4 ≤ y.val → (B64.sub y (lit 1)).isFin ∧ 2 ^ 53 + 4 ≤ (B64.sub y (lit 1)).val := by
    intro y hy hyv
    have hs : ¬ TooLarge (y.val - (lit 1).val) := small_between (isDouble_val hy) (by
      rw [hone.2, abs_of_nonneg (by linarith), abs_of_nonneg (by linarith)]; linarith)
    obtain ⟨h1, h2⟩ := of_fin (y.sign && !(lit 1).sign) hs
    rw [← sub_fin hy hone.1] at h1 h2
    refine ⟨h1, ?_⟩
    rw [h2, hone.2]
    have : rnd (2 ^ 53 + 3) = 2 ^ 53 + 4 := by decide +kernel
    rw [← this]
    exact rnd_mono (by linarith)
  have hge : ∀ y : B64, y.isFin → 2 ^ 53 + 4 ≤ y.val → ((f64 lib draw).num B64.num).ge y ((f64 lib draw).num B64.num).one = true := by
    intro y hy hyv
    show B64.ge y (lit 1) = true
    rw [ge_fin hy hone.1, hone.2]; linarith
  have key : ∀ rounds total (y : B64), y.isFin → 2 ^ 53 + 4 ≤ y.val →
      factorialCost ((f64 lib draw).num B64.num) rounds total y = rounds ∧ Ops.factorialLoop ((f64 lib draw).num B64.num) rounds total y = .panic := by
    intro rounds
    induction rounds with
    | zero => intro total y hy hyv; simp [factorialCost, Ops.factorialLoop, hge y hy hyv]
    | succ k ih =>
      intro total y hy hyv
      obtain ⟨s1, s2⟩ := hstep y hy hyv
      have hs : ((f64 lib draw).num B64.num).sub y ((f64 lib draw).num B64.num).one = .ok (B64.sub y (lit 1)) := rfl
      have hm : ((f64 lib draw).num B64.num).mul total y = .ok (B64.mul total y) := rfl
      obtain ⟨i1, i2⟩ := ih (B64.mul total y) _ s1 s2
      simp [factorialCost, Ops.factorialLoop, hge y hy hyv, hs, hm, i1, i2, Nat.add_comm]
  obtain ⟨s1, s2⟩ := hstep x hx hv
  refine ⟨fun rounds total => (key rounds total _ s1 s2).1, ?_⟩
  have hres : evalTokens ctx [.number x, .unary (str "!")] = (Ops.factorial (f64 lib draw) ((f64 lib draw).num B64.num)).fn.call x :=
    double_tree h (.fact (.num x))
  rw [hres]
  have hz : (B64.zero false).isFin ∧ (B64.zero false).val = 0 := ⟨⟨rfl, rfl⟩, (val_zero_iff _ _ _).mpr rfl⟩
  have e1 : B64.lt x (B64.zero false) = false := by rw [← Bool.not_eq_true, lt_fin hx hz.1, hz.2]; linarith
  have e2 : x.isZero = false := by rw [← Bool.not_eq_true, isZero_iff hx]; linarith
  have e3 : (x == lit 1) = false := by
    rw [beq_eq_false_iff_ne]
    rintro rfl
    rw [hone.2] at hv
    linarith
  have e4 : B64.lt x (lit 1) = false := by rw [← Bool.not_eq_true, lt_fin hx hone.1, hone.2]; linarith
  show (if B64.lt x (B64.zero false) = true then _ else if (x.isZero || (x == lit 1)) = true then _ else if B64.lt x (lit 1) = true then _ else
    (Ops.factorialLoop ((f64 lib draw).num B64.num) ((B64.num).fuel x) x (B64.sub x (lit 1))).bind fun r => _) = _
  rw [e1, e2, e3, e4, (key _ _ _ s1 s2).2]
  rfl

/-- 25 is a whole number, and 10^16 one whose factorial never ends. -/
example : (lit 25).isFin ∧ (lit 25).val = (25 : ℕ) ∧ (lit (10 ^ 16)).isFin ∧ 2 ^ 53 + 4 ≤ (lit (10 ^ 16)).val := by
  refine ⟨⟨?_, ?_⟩, ?_, ⟨?_, ?_⟩, ?_⟩ <;> decide +kernel

/-- 23! is not exact: it has more than 53 binary digits. -/
example : (product 22 (lit ((23 : ℕ) : ℚ))).val ≠ (23).factorial := by decide +kernel

end

end Prexel
