import Verif.Props.Literals
/-!
# Rounding and random numbers over `f64` (C83, C87) without contracts
-/

set_option linter.unusedVariables false

namespace Prexel
open B64

namespace B64

/-- A number that was rounded up and is then made smaller by at least 2^-53 of itself and rounded again is not more than before. -/
theorem units_shrink (t : ℕ) {x : ℚ} (hx : 0 ≤ x) (h : x ≤ (units (t : ℚ) : ℚ) * (1 - 1 / 2 ^ 53)) : (units x : ℚ) ≤ t := by
  have hd0 : (0 : ℚ) ≤ units (t : ℚ) := Nat.cast_nonneg _
  have hxd : x ≤ units (t : ℚ) := h.trans (by nlinarith [hd0])
  have hmono : units x ≤ units (t : ℚ) := by
    have := units_mono hx hxd
    rwa [units_keep (units_wide (Nat.cast_nonneg t))] at this
  rcases le_or_gt (units (t : ℚ)) t with hle | hgt
  · exact_mod_cast hmono.trans hle
  obtain ⟨n, e, hd, hn, hnear, hlt, hge⟩ := units_eq (t := (t : ℚ)) (Nat.cast_nonneg t)
  have hp : (0 : ℚ) < 2 ^ e := by positivity
  have he : e ≠ 0 := by
    rintro rfl
    have : toNearestEven ((t : ℚ) / 2 ^ 0) = t := by
      have := toNearestEven_int (α := ℚ) (t : ℤ)
      simpa using this
    rw [this] at hnear
    simp at hd
    omega
  have hbig := hge he
  -- the value has more than 2^52 steps
  have hn52 : 2 ^ 52 < n := by
    have h1 : ((2 ^ 52 * 2 ^ e : ℕ) : ℚ) < ((n * 2 ^ e : ℕ) : ℚ) := by
      rw [← hd]
      refine lt_of_le_of_lt ?_ (by exact_mod_cast hgt : (t : ℚ) < (units (t : ℚ) : ℕ))
      rw [Nat.cast_mul, Nat.cast_pow, Nat.cast_pow, Nat.cast_ofNat, ← pow_add, Nat.add_comm]
      exact hbig
    have h2 : 2 ^ 52 * 2 ^ e < n * 2 ^ e := by exact_mod_cast h1
    exact Nat.lt_of_mul_lt_mul_right h2
  -- and is at most half a step more than `t`
  have hhalf : (units (t : ℚ) : ℚ) - t ≤ 2 ^ e / 2 := by
    have h1 := toNearestEven_half ((t : ℚ) / 2 ^ e)
    rw [← hnear] at h1
    have h2 := (abs_le.mp h1).1
    push_cast at h2
    rw [hd]
    push_cast
    have h3 : (t : ℚ) = t / 2 ^ e * 2 ^ e := by field_simp
    nlinarith [hp]
  have hnq : (2 : ℚ) ^ 52 + 1 ≤ n := by exact_mod_cast hn52
  have hdq : (units (t : ℚ) : ℚ) = n * 2 ^ e := by rw [hd]; push_cast; rfl
  -- the double before it
  have hwide : Wide ((n - 1) * 2 ^ e) := wide_mul (by omega)
  have hpq : (((n - 1) * 2 ^ e : ℕ) : ℚ) = n * 2 ^ e - 2 ^ e := by
    rw [Nat.cast_mul, Nat.cast_sub (by omega)]; push_cast; ring
  have hxlt : x < n * 2 ^ e - 2 ^ e / 2 := by
    rw [hdq] at h
    have : (n : ℚ) * 2 ^ e * (1 / 2 ^ 53) > 2 ^ e / 2 := by
      have h52 : (2 : ℚ) ^ 53 = 2 * 2 ^ 52 := by norm_num
      rw [h52]
      have h1 : (n : ℚ) * 2 ^ e * (1 / (2 * 2 ^ 52)) = n / 2 ^ 52 * (2 ^ e / 2) := by ring
      rw [h1]
      have h2 : 1 < (n : ℚ) / 2 ^ 52 := by rw [lt_div_iff₀ (by positivity)]; linarith
      nlinarith [hp]
    linarith
  have hs : units x ≤ (n - 1) * 2 ^ e := by
    by_contra hcon
    rw [not_le] at hcon
    rcases le_or_gt x ((((n - 1) * 2 ^ e : ℕ)) : ℚ) with hxp | hxp
    · have := units_mono hx hxp
      rw [units_keep hwide] at this
      omega
    · -- then the rounded number is `n` steps
      have hs2 : n * 2 ^ e ≤ units x := by
        have hw := units_wide hx
        have hsp : e ≤ spacing (units x) := by
          unfold spacing
          have h1 : 2 ^ (e + 52) ≤ units x := by
            refine le_trans ?_ hcon.le
            rw [Nat.pow_add, Nat.mul_comm]
            exact Nat.mul_le_mul_right _ (by omega)
          have h2 : e + 52 ≤ Nat.log2 (units x) := (Nat.le_log2 (by have := Nat.two_pow_pos (e + 52); omega)).mpr h1
          omega
        obtain ⟨m, hm⟩ := (Nat.pow_dvd_pow 2 hsp).trans hw
        rw [hm, Nat.mul_comm (2 ^ e) m] at hcon
        have := Nat.lt_of_mul_lt_mul_right hcon
        rw [hm, Nat.mul_comm (2 ^ e) m]
        exact Nat.mul_le_mul_right _ (by omega)
      have hs3 : units x = n * 2 ^ e := le_antisymm (hd ▸ hmono) hs2
      have h1 := units_near hx hwide
      rw [hs3, hpq] at h1
      rw [hpq] at hxp
      push_cast at h1
      rw [abs_of_neg (by linarith), abs_of_pos (by linarith)] at h1
      linarith
  have : (units x : ℚ) ≤ n * 2 ^ e - 2 ^ e := by rw [← hpq]; exact_mod_cast hs
  rw [hdq] at hhalf
  linarith

end B64

section
variable {K : Keys} {debug docs : Bool} {lib : Libm} {draw : B64} {ctx : Ctx B64}

theorem fits_val {x : B64} (hx : x.isFin) : ∃ n : ℤ, x.val * perOne = n := by
  obtain ⟨a, k, hk, rfl⟩ := isFin_fin hx
  have hp := perOne_pos
  cases a
  · exact ⟨k, by unfold val; simp; field_simp⟩
  · exact ⟨-k, by unfold val; simp; field_simp⟩

theorem random_two (h : BuiltIn K debug docs (f64 lib draw) ((f64 lib draw).num B64.num) ctx) {a b : B64} (ha : a.isFin) (hb : b.isFin)
    (hle : ¬ b.val < a.val) : evalTokens ctx (callTokens (str "random") [a, b]) = .ok (add a (mul (sub b a) draw)) := by
  rw [random_call h]
  have hfin : ∀ x : B64, (f64 lib draw).Finite x → Ops.tryToFloat (f64 lib draw) ((f64 lib draw).num B64.num) x = .ok x := by
    intro x hx
    rw [finite_iff] at hx
    show (if (f64 lib draw).notFinite x = true then (.err .nan : Res B64) else .ok x) = _
    rw [hx]; rfl
  show (Ops.tryToFloat _ _ a).bind _ = _
  rw [hfin a ha]
  show (Ops.tryToFloat _ _ b).bind _ = _
  rw [hfin b hb]
  have hlt : B64.lt b a = false := by
    rw [← Bool.not_eq_true, lt_fin hb ha]; exact hle
  show (if B64.lt b a = true then _ else _) = _
  rw [hlt]; rfl

/-- C87 over `f64`. `random(a, b)` is in `[a, b]` whenever `b - a` does not overflow, also if `b - a` is rounded: the numbers that are drawn are
at most `1 - 2^-53`. -/
theorem C87_double (h : BuiltIn K debug docs (f64 lib draw) ((f64 lib draw).num B64.num) ctx) (hfin : draw.isFin) (h0 : 0 ≤ draw.val)
    (h1 : draw.val ≤ 1 - 1 / 2 ^ 53) :
    let call := fun xs => evalTokens ctx (callTokens (str "random") xs)
    (∃ r, call [] = .ok r ∧ 0 ≤ r.val ∧ r.val < 1) ∧
    (∀ m, m.isFin → m.val < 0 → call [m] = .err .negativeValue) ∧
    (∀ m, m.isFin → 0 < m.val → ∃ r, call [m] = .ok r ∧ 0 ≤ r.val ∧ r.val ≤ m.val) ∧
    (∀ a b, a.isFin → b.isFin → b.val < a.val → call [a, b] = .err .invalidInput) ∧
    (∀ a b, a.isFin → b.isFin → a.val ≤ b.val → ¬ TooLarge (b.val - a.val) →
      ∃ r, call [a, b] = .ok r ∧ r.isFin ∧ a.val ≤ r.val ∧ r.val ≤ b.val) := by
  have h1' : draw.val < 1 := by linarith [show (0 : ℚ) < 1 / 2 ^ 53 by positivity]
  obtain ⟨r1, r2, r3, r4, -⟩ := C87_random (roundsContract lib draw hfin h0 h1') h
  refine ⟨r1, r2, r3, r4, ?_⟩
  intro a b ha hb hle hsmall
  have hp := perOne_pos
  obtain ⟨hsf, hsv⟩ := of_fin (b.sign && !a.sign) hsmall
  rw [← sub_fin hb ha] at hsf hsv
  -- the difference in units
  obtain ⟨t, ht⟩ : ∃ t : ℕ, (b.val - a.val) * perOne = t := by
    obtain ⟨m, hm⟩ := fits_val ha
    obtain ⟨n, hn⟩ := fits_val hb
    have hmn : (m : ℚ) ≤ n := by rw [← hm, ← hn]; exact mul_le_mul_of_nonneg_right hle hp.le
    have hmn' : m ≤ n := by exact_mod_cast hmn
    refine ⟨(n - m).toNat, ?_⟩
    rw [sub_mul, hm, hn]
    have : (((n - m).toNat : ℤ) : ℚ) = ((n - m : ℤ) : ℚ) := by rw [Int.toNat_of_nonneg (by omega)]
    push_cast at this
    rw [← this]
  have hsub : (sub b a).val = units (t : ℚ) / perOne := by rw [hsv, rnd_nonneg (by linarith), ht]
  have hs0 : 0 ≤ (sub b a).val := by rw [hsub]; positivity
  -- the product
  have hprod0 : 0 ≤ (sub b a).val * draw.val := mul_nonneg hs0 h0
  have hprodle : (sub b a).val * draw.val ≤ (sub b a).val := by nlinarith
  have hps : ¬ TooLarge ((sub b a).val * draw.val) := small_between (isDouble_val hsf) (by rw [abs_of_nonneg hprod0, abs_of_nonneg hs0]; exact hprodle)
  obtain ⟨hmf, hmv⟩ := of_fin ((sub b a).sign ^^ draw.sign) hps
  rw [← mul_fin hsf hfin] at hmf hmv
  have hm0 : 0 ≤ (mul (sub b a) draw).val := by rw [hmv]; exact rnd_pos hprod0
  have hmle : (mul (sub b a) draw).val ≤ b.val - a.val := by
    rw [hmv, rnd_nonneg hprod0, div_le_iff₀ hp, ht]
    refine units_shrink t (by positivity) ?_
    rw [hsub]
    have : (units (t : ℚ) : ℚ) / perOne * draw.val * perOne = units (t : ℚ) * draw.val := by field_simp
    rw [this]
    exact mul_le_mul_of_nonneg_left h1 (Nat.cast_nonneg _)
  -- the sum
  have hs : ¬ TooLarge (a.val + (mul (sub b a) draw).val) := by
    rcases le_total 0 (a.val + (mul (sub b a) draw).val) with h | h
    · exact small_between (isDouble_val hb) (by rw [abs_of_nonneg h]; exact (by linarith : _ ≤ b.val).trans (le_abs_self _))
    · exact small_between (isDouble_val ha) (by rw [abs_of_nonpos h]; exact (by linarith : _ ≤ -a.val).trans (neg_le_abs _))
  obtain ⟨haf, hav⟩ := of_fin (a.sign && (mul (sub b a) draw).sign) hs
  rw [← add_fin ha hmf] at haf hav
  refine ⟨add a (mul (sub b a) draw), ?_, haf, ?_, ?_⟩
  · exact random_two h ha hb (by linarith)
  · have := rnd_mono (show a.val ≤ a.val + (mul (sub b a) draw).val by linarith)
    rwa [rnd_keep (isDouble_val ha), ← hav] at this
  · have := rnd_mono (show a.val + (mul (sub b a) draw).val ≤ b.val by linarith)
    rwa [rnd_keep (isDouble_val hb), ← hav] at this

/-- The hypotheses of `C87_double` with the largest number that is drawn, and a difference that is rounded up, `0.1 - (-1)`: the result is still in
the range. -/
example : let draw := lit (1 - 1 / 2 ^ 53)
    draw.isFin ∧ 0 ≤ draw.val ∧ draw.val ≤ 1 - 1 / 2 ^ 53 ∧ (∃ a b : B64, a.isFin ∧ b.isFin ∧ a.val ≤ b.val ∧ b.val - a.val < (sub b a).val ∧
      (add a (mul (sub b a) draw)).val ≤ b.val) := by
  refine ⟨⟨by decide +kernel, by decide +kernel⟩, by decide +kernel, by decide +kernel, lit (-1), lit (1 / 10), ?_⟩
  refine ⟨⟨by decide +kernel, by decide +kernel⟩, ⟨by decide +kernel, by decide +kernel⟩, by decide +kernel, by decide +kernel, by decide +kernel⟩

/-- Why the difference must not overflow: a random number between -10^308 and 10^308 is always infinite, or not a number. -/
theorem C87_overflow_counterexample (h : BuiltIn K debug docs (f64 lib draw) ((f64 lib draw).num B64.num) ctx) (hfin : draw.isFin) :
    ∃ r, evalTokens ctx (callTokens (str "random") [lit (-10 ^ 308), lit (10 ^ 308)]) = .ok r ∧ ¬ r.isFin := by
  refine ⟨_, random_two h ⟨by decide +kernel, by decide +kernel⟩ ⟨by decide +kernel, by decide +kernel⟩ (by decide +kernel), ?_⟩
  have hs : sub (lit (10 ^ 308)) (lit (-10 ^ 308)) = .inf false := by decide +kernel
  rw [hs]
  obtain ⟨s, k, hk, rfl⟩ := isFin_fin hfin
  obtain ⟨s', j, hj, ha⟩ := isFin_fin (x := lit (-10 ^ 308)) ⟨by decide +kernel, by decide +kernel⟩
  rw [ha]
  rintro ⟨h1, h2⟩
  by_cases hk0 : k = 0
  · simp [B64.mul, hk0, B64.add, isNan] at h1
  · simp [B64.mul, hk0, B64.add, isInf] at h2

/-- C83 over `f64`: in the checked context, for finite numbers, `round` gives the nearest whole number; `floor` and `ceil` give the greatest whole number
that is not more and the least that is not less, unless the argument is within 10^-10 of a whole number without being one. -/
theorem C83_double_partial {config : Config} {c : Context B64}
    (hc : Context.checked K debug docs (f64 lib draw) ((f64 lib draw).num B64.num) config = .ok c) (os : List (Op B64)) (x : B64) (hx : x.isFin) :
    let call := fun name => evalTokens ((c.runAll K debug os).view K) (callTokens name [x])
    (∃ r, ∃ n : ℤ, call (str "round") = .ok r ∧ r.val = n ∧ |x.val - n| ≤ 1 / 2) ∧
    ((∃ n : ℤ, x.val = n) ∨ (∀ n : ℤ, 10000000001 / 10 ^ 20 ≤ |x.val - n|) →
      (∃ r, call (str "floor") = .ok r ∧ r.val = ⌊x.val⌋) ∧ ∃ r, call (str "ceil") = .ok r ∧ r.val = ⌈x.val⌉) := by
  intro call
  obtain ⟨⟨r, n, h1, h2, h3, h4⟩, h5, h6⟩ := C83_rounding_partial (wholeContract lib draw) hc os x hx
  refine ⟨⟨r, n, h1, h2, abs_le.mpr ⟨h3, h4⟩⟩, fun hcl => ?_⟩
  have hcl' : Clear (wholeContract lib draw) x := by
    refine hcl.imp id fun h n => ?_
    have he : (lit (1 / 10000000000)).val ≤ 10000000001 / 10 ^ 20 := by decide +kernel
    have he' : (wholeContract lib draw).val (f64 lib draw).error ≤ 10000000001 / 10 ^ 20 := he
    show x.val - n ≤ _ ∨ _ ≤ x.val - n
    rcases abs_cases (x.val - n) with ⟨ha, -⟩ | ⟨ha, -⟩
    · right; have := h n; rw [ha] at this; linarith
    · left; have := h n; rw [ha] at this; linarith
  obtain ⟨r1, n1, c1, v1, l1, u1⟩ := h5 hcl'
  obtain ⟨r2, n2, c2, v2, l2, u2⟩ := h6 hcl'
  have e1 : ⌊x.val⌋ = n1 := Int.floor_eq_iff.mpr ⟨l1, u1⟩
  have e2 : ⌈x.val⌉ = n2 := Int.ceil_eq_iff.mpr ⟨l2, u2⟩
  exact ⟨⟨r1, c1, by rw [e1]; exact v1⟩, ⟨r2, c2, by rw [e2]; exact v2⟩⟩

/-- C83 fails over `f64` for every number that is less than 10^-10 below a whole number (`floor` gives a number that is more), or above one. -/
theorem C83_double_counterexample {config : Config} {c : Context B64}
    (hc : Context.checked K debug docs (f64 lib draw) ((f64 lib draw).num B64.num) config = .ok c) (os : List (Op B64)) (x : B64) (hx : x.isFin) (n : ℤ) :
    let call := fun name => evalTokens ((c.runAll K debug os).view K) (callTokens name [x])
    ((n : ℚ) - 1 / 10 ^ 10 ≤ x.val → x.val < n → ∃ r, call (str "floor") = .ok r ∧ r.val = n ∧ x.val < r.val) ∧
    ((n : ℚ) < x.val → x.val ≤ n + 1 / 10 ^ 10 → ∃ r, call (str "ceil") = .ok r ∧ r.val = n ∧ r.val < x.val) := by
  intro call
  obtain ⟨h1, h2⟩ := C83_floor_counterexample (wholeContract lib draw) hc os x hx n
  have he : 1 / 10 ^ 10 < (lit (1 / 10000000000)).val := by decide +kernel
  have he' : 1 / 10 ^ 10 < (wholeContract lib draw).val (f64 lib draw).error := he
  refine ⟨fun ha hb => h1 ?_ hb, fun ha hb => h2 ha ?_⟩
  · show _ < x.val; linarith
  · show x.val < _; linarith

/-- `2.99999999995` is such a number: its `floor` is 3. -/
example : ((3 : ℤ) : ℚ) - 1 / 10 ^ 10 ≤ (lit (299999999995 / 10 ^ 11)).val ∧ (lit (299999999995 / 10 ^ 11)).val < (3 : ℤ) ∧
    (lit (299999999995 / 10 ^ 11)).isFin := by
  refine ⟨by decide +kernel, by decide +kernel, by constructor <;> decide +kernel⟩

end

end Prexel
