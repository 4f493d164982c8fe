import Verif.Props.DoubleAngles
import Mathlib.Analysis.SpecialFunctions.Log.Base
/-!
# Logarithms over `f64` (C164)
-/

namespace Prexel
open B64

/-- The contract of `f64::ln` and `f64::log10`: an error of at most 2^-52 of the result; minus infinity at zero, NaN below. -/
structure Libm.Logarithms (lib : Libm) : Prop where
  ln : ∀ x : B64, x.isFin → 0 < x.val → (lib.ln x).isFin ∧ |((lib.ln x).val : ℝ) - Real.log x.val| ≤ |Real.log x.val| / 2 ^ 52
  log10 : ∀ x : B64, x.isFin → 0 < x.val → (lib.log10 x).isFin ∧ |((lib.log10 x).val : ℝ) - Real.logb 10 x.val| ≤ |Real.logb 10 x.val| / 2 ^ 52
  zero : ∀ x : B64, x.isFin → x.val = 0 → lib.ln x = .inf true ∧ lib.log10 x = .inf true
  negative : ∀ x : B64, x.isFin → x.val < 0 → lib.ln x = .nan ∧ lib.log10 x = .nan

namespace B64

/-- No double is closer to 1 than 2^-53. -/
theorem double_near_one {q : ℚ} (h : IsDouble q) (h1 : q ≠ 1) : 1 / 2 ^ 53 ≤ |q - 1| := by
  obtain ⟨m, e, hm, -, -, rfl⟩ := h
  by_cases he : -53 ≤ e
  · obtain ⟨n, hn⟩ : ∃ n : ℕ, e = (n : ℤ) - 53 := ⟨(e + 53).toNat, by omega⟩
    have e1 : (m : ℚ) * 2 ^ e - 1 = ((m * 2 ^ n - 2 ^ 53 : ℤ) : ℚ) / 2 ^ 53 := by
      rw [hn, zpow_sub₀ (by norm_num), zpow_natCast]
      push_cast
      norm_num
      ring
    rw [e1, abs_div, abs_of_pos (by norm_num : (0 : ℚ) < 2 ^ 53)]
    apply div_le_div_of_nonneg_right _ (by norm_num)
    have h2 : m * 2 ^ n - 2 ^ 53 ≠ 0 := by
      intro h0
      rw [h0] at e1
      apply h1
      have : (m : ℚ) * 2 ^ e - 1 = 0 := by rw [e1]; simp
      linarith
    exact_mod_cast Int.one_le_abs h2
  · have h2 : |(m : ℚ) * 2 ^ e| ≤ 1 / 2 := by
      rw [abs_mul, abs_of_pos (zpow_pos (by norm_num : (0 : ℚ) < 2) e)]
      have h3 : (|m| : ℚ) ≤ 2 ^ 53 := by exact_mod_cast hm.le
      have h4 : (2 : ℚ) ^ e ≤ 2 ^ (-54 : ℤ) := zpow_le_zpow_right₀ (by norm_num) (by omega)
      calc |(m : ℚ)| * 2 ^ e ≤ 2 ^ 53 * 2 ^ (-54 : ℤ) := mul_le_mul h3 h4 (zpow_pos (by norm_num) e).le (by norm_num)
        _ = 1 / 2 := by rw [zpow_neg]; norm_num
    have h5 := abs_sub_abs_le_abs_sub 1 ((m : ℚ) * 2 ^ e)
    rw [abs_one, abs_sub_comm] at h5
    have h6 : (1 : ℚ) / 2 ^ 53 ≤ 1 / 2 := by norm_num
    linarith

theorem log_bounds {x : B64} (hx : x.isFin) (h0 : 0 < x.val) : |Real.log x.val| ≤ 800 ∧ (x.val ≠ 1 → 1 / 2 ^ 54 ≤ |Real.log x.val|) := by
  have hpos : (0 : ℝ) < x.val := by exact_mod_cast h0
  have l2 := Real.log_two_lt_d9
  have l0 := Real.log_two_gt_d9
  constructor
  · rw [abs_le]
    constructor
    · have low : (1 : ℚ) / 2 ^ 1074 ≤ x.val := by
        obtain ⟨k, -, hk | hk⟩ := isDouble_units.mp (isDouble_val hx)
        · have hk1 : 1 ≤ k := by
            rcases Nat.eq_zero_or_pos k with h | h
            · rw [hk, h] at h0; simp at h0
            · exact h
          rw [hk]
          have : ((perOne : ℕ) : ℚ) = 2 ^ 1074 := by unfold perOne; push_cast; rfl
          rw [this]
          apply div_le_div_of_nonneg_right _ (by positivity)
          exact_mod_cast hk1
        · have : (0 : ℚ) ≤ (k : ℚ) / perOne := div_nonneg (Nat.cast_nonneg _) (Nat.cast_nonneg _)
          rw [hk] at h0
          linarith
      have lowr : ((1 / 2 ^ 1074 : ℚ) : ℝ) ≤ x.val := Rat.cast_le.mpr low
      push_cast at lowr
      have := Real.log_le_log (by positivity) lowr
      rw [one_div, Real.log_inv, Real.log_pow] at this
      norm_num at this l2 ⊢
      linarith
    · have up : (x.val : ℝ) ≤ 2 ^ 1024 := by exact_mod_cast val_below hx
      have := Real.log_le_log hpos up
      rw [Real.log_pow] at this
      norm_num at this l2 ⊢
      linarith
  · intro h1
    have hq := double_near_one (isDouble_val hx) h1
    have hr : (1 : ℝ) / 2 ^ 53 ≤ |(x.val : ℝ) - 1| := by
      have : ((1 / 2 ^ 53 : ℚ) : ℝ) ≤ ((|x.val - 1| : ℚ) : ℝ) := Rat.cast_le.mpr hq
      rw [Rat.cast_abs] at this
      push_cast at this
      exact this
    generalize (x.val : ℝ) = v at *
    rcases le_total v 1 with hv | hv
    · rw [abs_of_nonpos (by linarith)] at hr
      have := Real.log_le_sub_one_of_pos hpos
      rw [abs_of_nonpos (by linarith)]
      norm_num at hr ⊢
      linarith
    · rw [abs_of_nonneg (by linarith)] at hr
      rw [abs_of_nonneg (Real.log_nonneg hv)]
      rcases le_total v 2 with h2 | h2
      · have := Real.one_sub_inv_le_log_of_pos hpos
        refine le_trans ?_ this
        have e : 1 - v⁻¹ = (v - 1) / v := by field_simp
        rw [e, le_div_iff₀ hpos]
        norm_num at hr ⊢
        linarith
      · have := Real.log_le_log (by norm_num) h2
        norm_num at l0 ⊢
        linarith

/-- A quotient of numbers that are each off by 2^-52 of themselves. -/
theorem quotient_near {l L m M : ℝ} (hl : |l - L| ≤ |L| / 2 ^ 52) (hm : |m - M| ≤ |M| / 2 ^ 52) (hM : M ≠ 0) :
    |l / m - L / M| ≤ |L / M| * (4441 / 10 ^ 19) := by
  have hMp := abs_pos.mpr hM
  have hmp : |M| * (999999 / 1000000) ≤ |m| := by
    have h1 := abs_sub_abs_le_abs_sub M m
    rw [abs_sub_comm] at h1
    norm_num at hm ⊢
    linarith
  have hm0 : 0 < |m| := lt_of_lt_of_le (by positivity) hmp
  have hmne : m ≠ 0 := abs_pos.mp hm0
  have e : l / m - L / M = ((l - L) * M - L * (m - M)) / (m * M) := by field_simp; ring
  rw [e, abs_div, abs_mul, abs_div, div_le_iff₀ (by positivity)]
  have h1 : |(l - L) * M - L * (m - M)| ≤ |L| * |M| * (2 / 2 ^ 52) := by
    refine (abs_sub _ _).trans ?_
    rw [abs_mul, abs_mul]
    have a1 := mul_le_mul_of_nonneg_right hl hMp.le
    have a2 := mul_le_mul_of_nonneg_left hm (abs_nonneg L)
    calc |l - L| * |M| + |L| * |m - M| ≤ |L| / 2 ^ 52 * |M| + |L| * (|M| / 2 ^ 52) := add_le_add a1 a2
      _ = _ := by ring
  refine h1.trans ?_
  have h2 : |L| / |M| * (4441 / 10 ^ 19) * (|m| * |M|) = |L| * |m| * (4441 / 10 ^ 19) := by field_simp
  rw [h2]
  have h3 : |L| * (|M| * (999999 / 1000000)) ≤ |L| * |m| := mul_le_mul_of_nonneg_left hmp (abs_nonneg L)
  have h4 : 0 ≤ |L| * |M| := by positivity
  norm_num
  linarith

end B64

section
variable {K : Keys} {debug docs : Bool} {lib : Libm} {draw : B64} {ctx : Ctx B64}

/-- C164, natural logarithm: of what the number is taken for. Zero gives minus infinity, and a negative number NaN; neither is an error. -/
theorem C164_ln (A : lib.Logarithms) (h : BuiltIn K debug docs (f64 lib draw) ((f64 lib draw).num B64.num) ctx) (x : B64) (hx : x.isFin)
    (q : ℚ) (hq : TakenFor x.val q) :
    (0 < q → ∃ y, evalTokens ctx (callTokens (str "ln") [x]) = .ok y ∧ y.isFin ∧ |(y.val : ℝ) - Real.log q| ≤ |Real.log q| / 2 ^ 52) ∧
    (q = 0 → evalTokens ctx (callTokens (str "ln") [x]) = .ok (.inf true)) ∧
    (q < 0 → evalTokens ctx (callTokens (str "ln") [x]) = .ok .nan) := by
  have table := ((C82_one_argument h x x rfl).1 (str "ln", lib.ln) (by simp [plainTable, f64])).1 hx
  obtain ⟨s1, s2⟩ := snap_taken (lib := lib) (draw := draw) hx hq
  refine ⟨fun h0 => ?_, fun h0 => ?_, fun h0 => ?_⟩
  · obtain ⟨a1, a2⟩ := A.ln _ s1 (by rw [s2]; exact h0)
    rw [s2] at a2
    exact ⟨_, table, a1, a2⟩
  · exact table.trans (congrArg Res.ok (A.zero _ s1 (by rw [s2]; exact h0)).1)
  · exact table.trans (congrArg Res.ok (A.negative _ s1 (by rw [s2]; exact h0)).1)

/-- C164, decimal logarithm. -/
theorem C164_log (A : lib.Logarithms) (h : BuiltIn K debug docs (f64 lib draw) ((f64 lib draw).num B64.num) ctx) (x : B64) (hx : x.isFin) :
    (0 < x.val → ∃ y, evalTokens ctx (callTokens (str "log") [x]) = .ok y ∧ y.isFin ∧
      |(y.val : ℝ) - Real.logb 10 x.val| ≤ |Real.logb 10 x.val| / 2 ^ 52) ∧
    (x.val ≤ 0 → evalTokens ctx (callTokens (str "log") [x]) = .err .nan) := by
  have table := (C82_one_argument h x x rfl).2.2.2.2.2.2
  refine ⟨fun h0 => ?_, fun h0 => ?_⟩
  · obtain ⟨a1, a2⟩ := A.log10 x hx h0
    exact ⟨_, table.1 a1, a1, a2⟩
  · apply table.2
    rintro ⟨b1, b2⟩
    have b1 : (lib.log10 x).isNan = false := b1
    have b2 : (lib.log10 x).isInf = false := b2
    rcases h0.lt_or_eq with h0 | h0
    · rw [(A.negative x hx h0).2] at b1
      exact absurd b1 (by simp [isNan])
    · rw [(A.zero x hx h0).2] at b2
      exact absurd b2 (by simp [isInf])

/-- C164, logarithm to a base. -/
theorem C164_base (A : lib.Logarithms) (h : BuiltIn K debug docs (f64 lib draw) ((f64 lib draw).num B64.num) ctx) (x b : B64) (hx : x.isFin)
    (hb : b.isFin) (h0 : 0 < x.val) (hb0 : 0 < b.val) (hb1 : b.val ≠ 1) :
    ∃ y, evalTokens ctx (callTokens (str "log") [x, b]) = .ok y ∧ y.isFin ∧
      |(y.val : ℝ) - Real.logb b.val x.val| ≤ |Real.logb b.val x.val| * (6 / 10 ^ 16) := by
  have table := (C82_two_arguments h x b x b rfl rfl).1
  obtain ⟨a1, a2⟩ := A.ln x hx h0
  obtain ⟨c1, c2⟩ := A.ln b hb hb0
  obtain ⟨u1, u2⟩ := log_bounds hx h0
  obtain ⟨v1, v2⟩ := log_bounds hb hb0
  have v2 := v2 hb1
  have hM : Real.log b.val ≠ 0 := by
    intro h; rw [h, abs_zero] at v2; norm_num at v2
  have qn := quotient_near a2 c2 hM
  have hmv : (1 : ℝ) / 2 ^ 55 ≤ |((lib.ln b).val : ℝ)| := by
    have h1 := abs_sub_abs_le_abs_sub (Real.log b.val) ((lib.ln b).val : ℝ)
    rw [abs_sub_comm] at h1
    norm_num at c2 v2 ⊢
    linarith
  have hlv : |((lib.ln x).val : ℝ)| ≤ 801 := by
    have h1 := abs_sub_abs_le_abs_sub ((lib.ln x).val : ℝ) (Real.log x.val)
    norm_num at a2 ⊢
    linarith
  have hne : (lib.ln b).val ≠ 0 := by
    intro h; rw [h] at hmv; norm_num at hmv
  have hqb : |(lib.ln x).val / (lib.ln b).val| ≤ 2 ^ 65 := by
    have h1 : |((lib.ln x).val : ℝ) / (lib.ln b).val| ≤ 2 ^ 65 := by
      rw [abs_div, div_le_iff₀ (lt_of_lt_of_le (by norm_num) hmv)]
      norm_num at hmv hlv ⊢
      linarith
    have h2 : ((|(lib.ln x).val / (lib.ln b).val| : ℚ) : ℝ) ≤ ((2 ^ 65 : ℚ) : ℝ) := by
      rw [Rat.cast_abs]; push_cast; exact h1
    exact Rat.cast_le.mp h2
  have hnl : ¬ TooLarge ((lib.ln x).val / (lib.ln b).val) := by
    have hd : IsDouble (2 ^ 65) := ⟨1, 65, by norm_num, by norm_num, by norm_num, by norm_num⟩
    exact small_between hd (by rwa [abs_of_pos (by norm_num : (0 : ℚ) < 2 ^ 65)])
  have hdiv : (f64 lib draw).log x b = of ((lib.ln x).sign ^^ (lib.ln b).sign) ((lib.ln x).val / (lib.ln b).val) := div_fin a1 c1 hne
  obtain ⟨f1, f2⟩ := of_fin ((lib.ln x).sign ^^ (lib.ln b).sign) hnl
  refine ⟨_, table.1 (by rw [hdiv]; exact f1), by rw [hdiv]; exact f1, ?_⟩
  rw [hdiv, f2]
  have hm := rnd_moves (hqb.trans (pow_le_pow_right₀ (by norm_num : (1 : ℚ) ≤ 2) (by norm_num : 65 ≤ 1000)))
  rw [Real.logb]
  by_cases hx1 : x.val = 1
  · -- the logarithm of one is zero
    have e0 : Real.log (x.val : ℝ) = 0 := by rw [hx1]; simp
    rw [e0, abs_zero, zero_div] at a2
    have e1 : (lib.ln x).val = 0 := by
      have := abs_nonpos_iff.mp a2
      rw [sub_zero] at this
      exact_mod_cast this
    rw [e1, e0]
    simp [rnd_zero]
  · have u2 := u2 hx1
    generalize hL : Real.log x.val = L at *
    generalize hMM : Real.log b.val = M at *
    have hbig : (1 : ℝ) / 2 ^ 64 ≤ |L / M| := by
      rw [abs_div, le_div_iff₀ (abs_pos.mpr hM)]
      norm_num at u2 v1 ⊢
      linarith
    have tiny : (1 : ℚ) / 2 ^ 1022 ≤ 1 / 2 ^ 120 := one_div_le_one_div_of_le (by positivity) (pow_le_pow_right₀ (by norm_num) (by norm_num))
    have hm2 := cast_near (hm.trans (add_le_add_right tiny _))
    push_cast at hm2
    generalize hR : ((lib.ln x).val : ℝ) / (lib.ln b).val = R at *
    have hRb : |R| ≤ |L / M| * (1 + 4441 / 10 ^ 19) := by
      have := abs_sub_abs_le_abs_sub R (L / M)
      linarith
    have h5 := abs_sub_le ((rnd ((lib.ln x).val / (lib.ln b).val) : ℚ) : ℝ) R (L / M)
    norm_num at hm2 hRb qn hbig h5 ⊢
    linarith

/-- C164: there are no logarithms to the base 1, and none of zero and negative numbers or to negative bases. -/
theorem C164_refused (A : lib.Logarithms) (h : BuiltIn K debug docs (f64 lib draw) ((f64 lib draw).num B64.num) ctx) (x b : B64) (hx : x.isFin)
    (hb : b.isFin) (hbad : x.val < 0 ∨ b.val < 0 ∨ b.val = 1 ∨ x.val = 0) : evalTokens ctx (callTokens (str "log") [x, b]) = .err .nan := by
  have table := (C82_two_arguments h x b x b rfl rfl).1
  apply table.2
  rintro ⟨b1, b2⟩
  have b1 : (div (lib.ln x) (lib.ln b)).isNan = false := b1
  have b2 : (div (lib.ln x) (lib.ln b)).isInf = false := b2
  -- a denominator that is zero
  have under : ∀ {n d : B64}, d.isFin → d.val = 0 → (div n d).isNan = true ∨ (div n d).isInf = true := by
    intro n d hd h0
    obtain ⟨a, k, hk, rfl⟩ := isFin_fin hd
    have hk0 := (val_zero_iff _ _ _).mp h0
    subst hk0
    cases n with
    | nan => exact .inl rfl
    | inf s => exact .inr rfl
    | fin s j hj =>
      by_cases hj0 : j = 0
      · subst hj0; exact .inl rfl
      · right
        show (div _ _).isInf = true
        simp [div, hj0, isInf]
  have none : ¬ ((div (lib.ln x) (lib.ln b)).isNan = true ∨ (div (lib.ln x) (lib.ln b)).isInf = true) := by
    rw [b1, b2]; simp
  apply none
  have hnan : ∀ n : B64, div n .nan = .nan := fun n => by cases n <;> rfl
  rcases hbad with hbad | hbad | hbad | hbad
  · rw [(A.negative x hx hbad).1]; exact .inl rfl
  · rw [(A.negative b hb hbad).1, hnan]; exact .inl rfl
  · obtain ⟨c1, c2⟩ := A.ln b hb (by rw [hbad]; norm_num)
    rw [hbad, Rat.cast_one, Real.log_one, abs_zero, zero_div, sub_zero] at c2
    have e1 : (lib.ln b).val = 0 := by exact_mod_cast abs_nonpos_iff.mp c2
    exact under c1 e1
  · rw [(A.zero x hx hbad).1]
    rcases lt_trichotomy b.val 0 with h0 | h0 | h0
    · rw [(A.negative b hb h0).1]; exact .inl rfl
    · rw [(A.zero b hb h0).1]; exact .inl rfl
    · obtain ⟨c1, -⟩ := A.ln b hb h0
      obtain ⟨a, k, hk, e⟩ := isFin_fin c1
      rw [e]; exact .inr rfl

/-- C164: the logarithm of a positive number to the base 0 is 0, and no error. -/
theorem C164_base_zero (A : lib.Logarithms) (h : BuiltIn K debug docs (f64 lib draw) ((f64 lib draw).num B64.num) ctx) (x b : B64) (hx : x.isFin)
    (hb : b.isFin) (h0 : 0 < x.val) (hb0 : b.val = 0) : ∃ y, evalTokens ctx (callTokens (str "log") [x, b]) = .ok y ∧ y.isFin ∧ y.val = 0 := by
  have table := (C82_two_arguments h x b x b rfl rfl).1
  obtain ⟨a1, a2⟩ := A.ln x hx h0
  have e : (f64 lib draw).log x b = zero ((lib.ln x).sign ^^ true) := by
    show div (lib.ln x) (lib.ln b) = _
    rw [(A.zero b hb hb0).1]
    obtain ⟨a, k, hk, e⟩ := isFin_fin a1
    rw [e]
    rfl
  have hf : (zero ((lib.ln x).sign ^^ true)).isFin := ⟨rfl, rfl⟩
  exact ⟨_, table.1 (by rw [e]; exact hf), by rw [e]; exact hf, by rw [e]; exact (val_zero_iff _ _ _).mpr rfl⟩

/-! ## Examples -/

namespace B64

/-- Any library, with these logarithms: the nearest doubles. -/
noncomputable def withLogs (lib : Libm) : Libm :=
  { lib with
    ln := fun x => if 0 < x.val then nearestTo (Real.log x.val) else if x.val = 0 then .inf true else .nan
    log10 := fun x => if 0 < x.val then nearestTo (Real.logb 10 x.val) else if x.val = 0 then .inf true else .nan }

/-- The contract can be met. -/
theorem withLogs_contract (lib : Libm) : (withLogs lib).Logarithms := by
  have key : ∀ t : ℝ, |t| ≤ 800 → (t = 0 ∨ 1 / 2 ^ 57 ≤ |t|) → (nearestTo t).isFin ∧ |((nearestTo t).val : ℝ) - t| ≤ |t| / 2 ^ 52 := by
    intro t ht h0
    obtain ⟨h1, h2⟩ := nearestTo_near (ht.trans (le_trans (by norm_num : (800 : ℝ) ≤ 2 ^ 10) (pow_le_pow_right₀ (by norm_num) (by norm_num))))
    refine ⟨h1, ?_⟩
    rcases h0 with rfl | h0
    · have e : nearestTo 0 = zero false := by
        unfold nearestTo of
        simp
      rw [e]
      have : (zero false).val = 0 := (val_zero_iff _ _ _).mpr rfl
      rw [this]
      simp
    · norm_num at h0 h2 ⊢
      linarith
  have l10 : 1 ≤ Real.log 10 ∧ Real.log 10 ≤ 4 := by
    have e : Real.log 16 = 4 * Real.log 2 := by rw [show (16 : ℝ) = 2 ^ 4 by norm_num, Real.log_pow]; norm_num
    have e8 : Real.log 8 = 3 * Real.log 2 := by rw [show (8 : ℝ) = 2 ^ 3 by norm_num, Real.log_pow]; norm_num
    have h1 := Real.log_le_log (by norm_num) (by norm_num : (10 : ℝ) ≤ 16)
    have h2 := Real.log_le_log (by norm_num) (by norm_num : (8 : ℝ) ≤ 10)
    have h3 := Real.log_two_lt_d9
    have h4 := Real.log_two_gt_d9
    norm_num at h3 h4
    constructor <;> linarith
  refine ⟨fun x hx h0 => ?_, fun x hx h0 => ?_, fun x _ h0 => ?_, fun x _ h0 => ?_⟩
  · have e : (withLogs lib).ln x = nearestTo (Real.log x.val) := if_pos h0
    rw [e]
    obtain ⟨b1, b2⟩ := log_bounds hx h0
    refine key _ b1 ?_
    by_cases h1 : x.val = 1
    · left; rw [h1]; simp
    · right; exact le_trans (by norm_num) (b2 h1)
  · have e : (withLogs lib).log10 x = nearestTo (Real.logb 10 x.val) := if_pos h0
    rw [e]
    obtain ⟨b1, b2⟩ := log_bounds hx h0
    refine key _ ?_ ?_
    · rw [Real.logb, abs_div, abs_of_pos (by linarith : 0 < Real.log 10), div_le_iff₀ (by linarith)]
      linarith [l10.1]
    · by_cases h1 : x.val = 1
      · left; rw [h1]; simp
      · right
        rw [Real.logb, abs_div, abs_of_pos (by linarith : 0 < Real.log 10), le_div_iff₀ (by linarith)]
        have := b2 h1
        have := l10.2
        norm_num at *
        linarith
  · have h1 : ¬ 0 < x.val := by rw [h0]; exact lt_irrefl _
    exact ⟨(if_neg h1).trans (if_pos h0), (if_neg h1).trans (if_pos h0)⟩
  · have h1 : ¬ 0 < x.val := not_lt.mpr h0.le
    exact ⟨(if_neg h1).trans (if_neg h0.ne), (if_neg h1).trans (if_neg h0.ne)⟩

end B64

/-- The hypotheses are met: some library meets the contract, 8 and 2 are positive and 2 is not 1; 1/4 is taken for 1/4. -/
example (lib : Libm) : (withLogs lib).Logarithms ∧ (lit 8).isFin ∧ 0 < (lit 8).val ∧ (lit 2).isFin ∧ 0 < (lit 2).val ∧ (lit 2).val ≠ 1 :=
  ⟨withLogs_contract lib, ⟨by decide +kernel, by decide +kernel⟩, by decide +kernel, ⟨by decide +kernel, by decide +kernel⟩, by decide +kernel, by decide +kernel⟩

end

end Prexel
