import Verif.Lemmas.DoubleOps
import Verif.Props.Floats
import Verif.Props.Arith
/-!
# Arithmetic over `f64` (C130, C131), and the contracts of floating point numbers

`f64` is the model of IEEE 754 binary64 (`Verif.Model.Binary64`); the platform's mathematical library is any `Libm`.
-/

set_option linter.unusedVariables false
set_option linter.unusedSimpArgs false

namespace Prexel
open B64

/-- What the operators of both contexts do over `f64`. -/
noncomputable def doubleArithmetic (lib : Libm) (draw : B64) : Arithmetic B64 where
  op
    | .add => fun x y => .ok (B64.add x y)
    | .sub => fun x y => .ok (B64.sub x y)
    | .mul => fun x y => .ok (B64.mul x y)
    | .div => fun x y => if y.isZero then .err .divisionByZero else .ok (B64.div x y)
    | .mod => fun x y => if y.isZero then .err .divisionByZero else .ok (B64.rem x y)
    | .pow => fun x y => .ok (lib.powf x y)
  neg x := .ok (B64.neg x)
  fact := (Ops.factorial (f64 lib draw) ((f64 lib draw).num B64.num)).fn.call

theorem checked_double (lib : Libm) (draw : B64) : checkedArithmetic (f64 lib draw) ((f64 lib draw).num B64.num) = doubleArithmetic lib draw := by
  unfold checkedArithmetic doubleArithmetic
  congr 1
  funext o x y
  cases o with
  | add => rfl
  | sub => rfl
  | mul => rfl
  | pow => rfl
  | div =>
    show (if y.isZero = true then _ else Res.ofOption (if y.isZero = true then none else some (B64.div x y)) .overflow) = if y.isZero = true then _ else _
    by_cases h : y.isZero = true <;> simp [h, Res.ofOption]
  | mod =>
    show (if y.isZero = true then _ else Res.ofOption (if y.isZero = true then none else some (B64.rem x y)) .overflow) = if y.isZero = true then _ else _
    by_cases h : y.isZero = true <;> simp [h, Res.ofOption]

theorem unchecked_double (lib : Libm) (draw : B64) :
    uncheckedArithmetic (f64 lib draw) ((f64 lib draw).num B64.num) = doubleArithmetic lib draw := by
  unfold uncheckedArithmetic doubleArithmetic
  congr 1

section
variable {K : Keys} {debug docs : Bool} {lib : Libm} {draw : B64} {ctx : Ctx B64}

/-- Trees in both contexts. -/
theorem double_tree (h : BuiltIn K debug docs (f64 lib draw) ((f64 lib draw).num B64.num) ctx) (e : Arith B64) :
    evalTokens ctx e.tokens = e.value (doubleArithmetic lib draw) := by
  obtain ⟨config, c, os, hc | hc, rfl⟩ := h
  · rw [C32_checked K debug docs _ _ config c hc os e, checked_double]
  · rw [C32_unchecked K debug _ _ config c hc os e, unchecked_double]

theorem rounded_of (a : Bool) (q : ℚ) : RoundedTo q (of a q) := by
  refine ⟨fun h => ?_, fun h => of_inf a h, (of_sign a q).1, (of_sign a q).2.1⟩
  obtain ⟨h1, h2⟩ := of_fin a h
  exact ⟨h1, by rw [h2]; exact rnd_nearest h⟩

/-- The remainder of division towards zero is a double. -/
theorem isDouble_rem {x y : ℚ} (hx : IsDouble x) (hy : IsDouble y) (h0 : y ≠ 0) : IsDouble (x - y * towardsZero (x / y)) := by
  obtain ⟨n, hn⟩ : ∃ n : ℤ, towardsZero (x / y) = n := ⟨_, rfl⟩
  have hq : x = y * (x / y) := by field_simp
  -- the remainder is smaller than both
  have key : |x - y * n| ≤ |x| ∧ |x - y * n| < |y| := by
    have e1 : x - y * n = y * (x / y - n) := by rw [mul_sub, ← hq]
    have hy0 : 0 < |y| := abs_pos.mpr h0
    rw [e1, abs_mul]
    have h1 : |x / y - n| ≤ |x / y| ∧ |x / y - n| < 1 := by
      rw [← hn]
      unfold towardsZero
      split
      · rename_i hlt
        have h1 : (x / y : ℚ) ≤ (⌈x / y⌉ : ℤ) := Int.le_ceil (x / y)
        have h2 : ((⌈x / y⌉ : ℤ) : ℚ) < x / y + 1 := Int.ceil_lt_add_one (x / y)
        have h3 : ((⌈x / y⌉ : ℤ) : ℚ) ≤ 0 := by
          have : ⌈x / y⌉ ≤ 0 := Int.ceil_le.mpr (by simpa using hlt.le)
          exact_mod_cast this
        rw [abs_of_nonpos (by linarith), abs_of_neg hlt]
        constructor <;> linarith
      · rename_i hlt
        have hge : 0 ≤ x / y := not_lt.mp hlt
        have h1 : ((⌊x / y⌋ : ℤ) : ℚ) ≤ x / y := Int.floor_le (x / y)
        have h2 : x / y < ((⌊x / y⌋ : ℤ) : ℚ) + 1 := Int.lt_floor_add_one (x / y)
        have h3 : 0 ≤ ((⌊x / y⌋ : ℤ) : ℚ) := by
          have : 0 ≤ ⌊x / y⌋ := Int.floor_nonneg.mpr hge
          exact_mod_cast this
        rw [abs_of_nonneg (by linarith), abs_of_nonneg hge]
        constructor <;> linarith
    constructor
    · calc |y| * |x / y - n| ≤ |y| * |x / y| := mul_le_mul_of_nonneg_left h1.1 hy0.le
        _ = |x| := by rw [← abs_mul, ← hq]
    · calc |y| * |x / y - n| < |y| * 1 := mul_lt_mul_of_pos_left h1.2 hy0
        _ = |y| := mul_one _
  rw [hn]
  obtain ⟨m, e, hm, he1, he2, rfl⟩ := hx
  obtain ⟨m', e', hm', he1', he2', rfl⟩ := hy
  have hp : ∀ i : ℤ, (0 : ℚ) < 2 ^ i := fun i => zpow_pos (by norm_num) i
  have hsmall : ∀ (i j : ℤ) (a : ℤ), |(i : ℚ) * 2 ^ j| ≤ |(a : ℚ) * 2 ^ j| → |i| ≤ |a| := by
    intro i j a h
    rw [abs_mul, abs_mul, abs_of_pos (hp j)] at h
    have := le_of_mul_le_mul_right h (hp j)
    exact_mod_cast this
  rcases le_total e e' with h | h
  · obtain ⟨j, hj⟩ : ∃ j : ℕ, e' = e + j := ⟨(e' - e).toNat, by omega⟩
    have e1 : (m : ℚ) * 2 ^ e - m' * 2 ^ e' * n = ((m - m' * 2 ^ j * n : ℤ) : ℚ) * 2 ^ e := by
      rw [hj, zpow_add₀ (by norm_num), zpow_natCast]; push_cast; ring
    have := key.1
    rw [e1] at this ⊢
    exact ⟨_, e, (hsmall _ _ _ this).trans_lt hm, he1, he2, rfl⟩
  · obtain ⟨j, hj⟩ : ∃ j : ℕ, e = e' + j := ⟨(e - e').toNat, by omega⟩
    have e1 : (m : ℚ) * 2 ^ e - m' * 2 ^ e' * n = ((m * 2 ^ j - m' * n : ℤ) : ℚ) * 2 ^ e' := by
      rw [hj, zpow_add₀ (by norm_num), zpow_natCast]; push_cast; ring
    have := key.2.le
    rw [e1] at this ⊢
    exact ⟨_, e', (hsmall _ _ _ this).trans_lt hm', he1', he2', rfl⟩

/-- C130. Over `f64`, in both contexts, for finite numbers: the sum, difference, product and quotient of two numbers are the exact ones, rounded
as IEEE 754 requires; remainders and signs are exact; division by zero is an error. -/
theorem C130_operators (h : BuiltIn K debug docs (f64 lib draw) ((f64 lib draw).num B64.num) ctx) (x y : B64) (hx : x.isFin) (hy : y.isFin) :
    let result := fun o => evalTokens ctx (infixTokens x (str o) y)
    (∃ r, result "+" = .ok r ∧ RoundedTo (x.val + y.val) r) ∧
    (∃ r, result "-" = .ok r ∧ RoundedTo (x.val - y.val) r) ∧
    (∃ r, result "*" = .ok r ∧ RoundedTo (x.val * y.val) r) ∧
    (y.val ≠ 0 → ∃ r, result "/" = .ok r ∧ RoundedTo (x.val / y.val) r) ∧
    (y.val ≠ 0 → ∃ r, result "mod" = .ok r ∧ r.isFin ∧ r.val = x.val - y.val * towardsZero (x.val / y.val)) ∧
    (y.val = 0 → result "/" = .err .divisionByZero ∧ result "mod" = .err .divisionByZero) ∧
    ∃ r, evalTokens ctx [.unary (str "-"), .number x] = .ok r ∧ r.isFin ∧ r.val = -x.val := by
  intro result
  have hb : ∀ o : ArOp, evalTokens ctx (infixTokens x o.symbol y) = (doubleArithmetic lib draw).op o x y := by
    intro o
    have := double_tree h (.bin o (.num x) (.num y))
    cases o <;> exact this
  have hz := isZero_iff hy
  refine ⟨⟨_, hb .add, ?_⟩, ⟨_, hb .sub, ?_⟩, ⟨_, hb .mul, ?_⟩, fun h0 => ?_, fun h0 => ?_, fun h0 => ?_, ?_⟩
  · rw [add_fin hx hy]; exact rounded_of _ _
  · rw [sub_fin hx hy]; exact rounded_of _ _
  · rw [mul_fin hx hy]; exact rounded_of _ _
  · have h1 : y.isZero = false := by rw [← Bool.not_eq_true, hz]; exact h0
    refine ⟨B64.div x y, (hb .div).trans ?_, ?_⟩
    · show (if y.isZero = true then _ else _) = _
      rw [h1]; rfl
    · rw [div_fin hx hy h0]; exact rounded_of _ _
  · have h1 : y.isZero = false := by rw [← Bool.not_eq_true, hz]; exact h0
    refine ⟨B64.rem x y, (hb .mod).trans ?_, ?_⟩
    · show (if y.isZero = true then _ else _) = _
      rw [h1]; rfl
    · rw [rem_fin hx hy h0]
      exact of_double _ (isDouble_rem (isDouble_val hx) (isDouble_val hy) h0)
  · have h1 : y.isZero = true := hz.mpr h0
    constructor
    · refine (hb .div).trans ?_
      show (if y.isZero = true then _ else _) = _
      rw [h1]; rfl
    · refine (hb .mod).trans ?_
      show (if y.isZero = true then _ else _) = _
      rw [h1]; rfl
  · obtain ⟨h1, h2, -⟩ := neg_fin hx
    exact ⟨_, double_tree h (.neg (.num x)), h1, h2⟩

/-- C131. Over `f64`, in both contexts: if the exact value of every part of an arithmetic tree of sums, differences, products, quotients and signs
is a double, the result is exact; a divisor that is zero is an error. -/
theorem C131_exact (h : BuiltIn K debug docs (f64 lib draw) ((f64 lib draw).num B64.num) ctx) (e : Arith B64) (hr : e.Rational)
    (ha : e.AllDoubles) :
    (∀ q, e.ratValue B64.val = some q → ∃ r, evalTokens ctx e.tokens = .ok r ∧ r.isFin ∧ r.val = q) ∧
    (e.ratValue B64.val = none → evalTokens ctx e.tokens = .err .divisionByZero) := by
  rw [double_tree h e]
  clear h
  induction e with
  | num n => exact ⟨fun q hq => ⟨n, rfl, ha, by simpa [Arith.ratValue] using hq⟩, fun hq => by simp [Arith.ratValue] at hq⟩
  | neg e ih =>
    obtain ⟨h1, h2⟩ := ih hr ha
    constructor
    · intro q hq
      simp only [Arith.ratValue, Option.map_eq_some_iff] at hq
      obtain ⟨p, hp, rfl⟩ := hq
      obtain ⟨z, hz, hf, hv⟩ := h1 p hp
      obtain ⟨n1, n2, -⟩ := neg_fin hf
      exact ⟨B64.neg z, by simp only [Arith.value, hz, Res.bind_ok]; rfl, n1, by rw [n2, hv]⟩
    · intro hq
      simp only [Arith.ratValue, Option.map_eq_none_iff] at hq
      simp [Arith.value, h2 hq]
  | fact e ih => exact hr.elim
  | bin o l r ihl ihr =>
    obtain ⟨ho, hrl, hrr⟩ := hr
    obtain ⟨hal, har, hrep⟩ := ha
    obtain ⟨hl1, hl2⟩ := ihl hrl hal
    obtain ⟨hr1, hr2⟩ := ihr hrr har
    cases hlv : l.ratValue B64.val with
    | none => exact ⟨fun q h => by simp [Arith.ratValue, hlv] at h, fun _ => by simp [Arith.value, hl2 hlv]⟩
    | some p =>
      obtain ⟨x, hx, hxf, hxv⟩ := hl1 p hlv
      cases hrv : r.ratValue B64.val with
      | none => exact ⟨fun q h => by simp [Arith.ratValue, hlv, hrv] at h, fun _ => by simp [Arith.value, hx, hr2 hrv]⟩
      | some p' =>
        obtain ⟨y, hy, hyf, hyv⟩ := hr1 p' hrv
        have hz := isZero_iff hyf
        simp only [Arith.ratValue, hlv, hrv, Option.bind_some] at hrep ⊢
        simp only [Arith.value, hx, hy, Res.bind_ok]
        subst hxv hyv
        rcases ho with rfl | rfl | rfl | rfl
        · refine ⟨fun q hq => ?_, fun hq => by simp at hq⟩
          cases hq
          exact ⟨_, rfl, by rw [add_fin hxf hyf]; exact of_double _ (hrep _ rfl)⟩
        · refine ⟨fun q hq => ?_, fun hq => by simp at hq⟩
          cases hq
          exact ⟨_, rfl, by rw [sub_fin hxf hyf]; exact of_double _ (hrep _ rfl)⟩
        · refine ⟨fun q hq => ?_, fun hq => by simp at hq⟩
          cases hq
          exact ⟨_, rfl, by rw [mul_fin hxf hyf]; exact of_double _ (hrep _ rfl)⟩
        · by_cases h0 : y.val = 0
          · simp only [h0, if_true]
            refine ⟨fun q hq => by simp at hq, fun _ => ?_⟩
            show (if y.isZero = true then _ else _) = _
            rw [hz.mpr h0]; rfl
          · simp only [h0, if_false] at hrep ⊢
            refine ⟨fun q hq => ?_, fun hq => by simp at hq⟩
            cases hq
            have h1 : y.isZero = false := by rw [← Bool.not_eq_true, hz]; exact h0
            refine ⟨B64.div x y, ?_, by rw [div_fin hxf hyf h0]; exact of_double _ (hrep _ rfl)⟩
            show (if y.isZero = true then _ else _) = _
            rw [h1]; rfl

end

/-- The specification has one answer: two nearest doubles are the same. -/
theorem nearestDouble_unique {r s q : ℚ} (hr : NearestDouble r q) (hs : NearestDouble s q) : r = s := by
  by_contra hne
  obtain ⟨h1, h2⟩ := hr.2 s hs.1
  obtain ⟨h3, h4⟩ := hs.2 r hr.1
  obtain ⟨k, hk⟩ := h2 (le_antisymm h1 h3) (Ne.symm hne)
  obtain ⟨j, hj⟩ := h4 (le_antisymm h3 h1) hne
  rw [abs_sub_comm] at hk
  have hd : 0 < |r - s| := abs_pos.mpr (sub_ne_zero.mpr hne)
  have h5 : r - s = 2 * (k - j) * |r - s| := by
    have h6 : 2 * ((k : ℚ) - j) * |r - s| = 2 * k * |r - s| - 2 * j * |r - s| := by ring
    rw [h6, ← hk, ← hj]
  have h6 : |((2 * (k - j) : ℤ) : ℚ)| = 1 := by
    have : |r - s| = |((2 * (k - j) : ℤ) : ℚ)| * |r - s| := by
      conv_lhs => rw [h5]
      rw [abs_mul, abs_abs]; push_cast; rfl
    have : |((2 * (k - j) : ℤ) : ℚ)| * |r - s| = 1 * |r - s| := by rw [one_mul]; exact this.symm
    exact mul_right_cancel₀ hd.ne' this
  have h7 : |2 * (k - j)| = 1 := by exact_mod_cast h6
  rcases abs_eq (by norm_num) |>.mp h7 with h | h <;> omega

end Prexel
