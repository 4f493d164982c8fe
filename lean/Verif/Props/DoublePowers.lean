import Verif.Props.Powers
import Verif.Props.Doubles
import Verif.Props.DoubleFactorial
/-!
# Powers of integers through `f64` (C88)

Integers are converted to `f64`, raised by `powf`, and converted back. Here `f64` is IEEE 754 binary64; only `powf` has a contract.
-/

namespace Prexel
open B64

/-- The contract of `f64::powf` for whole exponents: a power that is a double is exact; otherwise it has an error of at most 2^-52 of the power;
a power beyond 2^1023 is infinite or at least 2^1000; with a negative exponent, powers of numbers beyond 1 are less than 1 and powers of 0 are
infinite. -/
structure Libm.Powers (lib : Libm) : Prop where
  exact : ∀ (x y : B64) (b : ℕ), x.isFin → y.isFin → y.val = b → IsDouble (x.val ^ b) → (lib.powf x y).isFin ∧ (lib.powf x y).val = x.val ^ b
  near : ∀ (x y : B64) (b : ℕ), x.isFin → y.isFin → y.val = b → 1 ≤ |x.val ^ b| → |x.val ^ b| ≤ 2 ^ 1023 →
    (lib.powf x y).isFin ∧ |(lib.powf x y).val - x.val ^ b| ≤ |x.val ^ b| / 2 ^ 52
  large : ∀ (x y : B64) (b : ℕ), x.isFin → y.isFin → y.val = b → 2 ^ 1023 < |x.val ^ b| → (lib.powf x y).isFin → 2 ^ 1000 ≤ |(lib.powf x y).val|
  fraction : ∀ (x y : B64) (b : ℕ), x.isFin → y.isFin → y.val = -(b : ℚ) → 0 < b → 2 ≤ |x.val| → (lib.powf x y).isFin ∧ |(lib.powf x y).val| < 1
  pole : ∀ (x y : B64) (b : ℕ), x.isFin → y.isFin → y.val = -(b : ℚ) → 0 < b → x.val = 0 → ¬ (lib.powf x y).isFin

/-- `n as f64`, as `ToPrimitive::to_f64` of num-traits does it: rounded to nearest. -/
def doubleOf (x : SInt w) : B64 := lit x.1

/-- `FromPrimitive::from_f64` for integers: the whole part, if it fits. -/
def intOf (v : B64) : Option (SInt w) := (toInt v).bind SInt.of?

/-- Doubles from 2^52 on are whole numbers, and those beyond 2^53 are even. -/
theorem double_whole {q : ℚ} (h : IsDouble q) : (2 ^ 52 ≤ |q| → ∃ n : ℤ, q = n) ∧ (2 ^ 53 < |q| → ∃ n : ℤ, q = 2 * n) := by
  obtain ⟨m, e, hm, he1, he2, rfl⟩ := h
  have hp : ∀ i : ℤ, (0 : ℚ) < 2 ^ i := fun i => zpow_pos (by norm_num) i
  have hm' : |(m : ℚ)| ≤ 2 ^ 53 := by exact_mod_cast hm.le
  have hm2 : |(m : ℚ)| < 2 ^ 53 := by exact_mod_cast hm
  have ha : |(m : ℚ) * 2 ^ e| = |(m : ℚ)| * 2 ^ e := by rw [abs_mul, abs_of_pos (hp e)]
  rw [ha]
  constructor
  · intro h
    have h0 : 0 ≤ e := by
      by_contra hc
      have h1 : (2 : ℚ) ^ e ≤ 2 ^ (-1 : ℤ) := zpow_le_zpow_right₀ (by norm_num) (by omega)
      have h2 : |(m : ℚ)| * 2 ^ e ≤ |(m : ℚ)| * 2 ^ (-1 : ℤ) := mul_le_mul_of_nonneg_left h1 (abs_nonneg _)
      have h3 : (2 : ℚ) ^ (-1 : ℤ) = 1 / 2 := by norm_num
      rw [h3] at h2
      have : (2 : ℚ) ^ 53 = 2 * 2 ^ 52 := by norm_num
      linarith
    obtain ⟨j, rfl⟩ := Int.eq_ofNat_of_zero_le h0
    exact ⟨m * 2 ^ j, by push_cast; rw [zpow_natCast]⟩
  · intro h
    have h0 : 1 ≤ e := by
      by_contra hc
      have h1 : (2 : ℚ) ^ e ≤ 2 ^ (0 : ℤ) := zpow_le_zpow_right₀ (by norm_num) (by omega)
      have h2 : |(m : ℚ)| * 2 ^ e ≤ |(m : ℚ)| * 2 ^ (0 : ℤ) := mul_le_mul_of_nonneg_left h1 (abs_nonneg _)
      rw [zpow_zero, mul_one] at h2
      linarith
    obtain ⟨j, hj⟩ : ∃ j : ℕ, e = j + 1 := ⟨(e - 1).toNat, by omega⟩
    exact ⟨m * 2 ^ j, by rw [hj, zpow_add₀ (by norm_num)]; push_cast; rw [zpow_natCast]; ring⟩

theorem cut_int (n : ℤ) : cut (n : ℚ) = n := by unfold cut; split <;> simp

theorem double_cut_small {q : ℚ} (h : |q| < 1) : cut q = 0 := by
  rw [abs_lt] at h
  unfold cut
  split
  · rename_i hn
    rw [Int.ceil_eq_iff]
    constructor <;> push_cast <;> linarith
  · rename_i hn
    rw [Int.floor_eq_iff]
    constructor <;> push_cast <;> linarith

theorem toInt_fin {v : B64} (h : v.isFin) : toInt v = some (cut v.val) := by
  obtain ⟨a, k, hk, rfl⟩ := isFin_fin h
  rfl

theorem toInt_not {v : B64} (h : ¬ v.isFin) : toInt v = none := by
  cases v with
  | nan => rfl
  | inf a => rfl
  | fin a k hk => exact absurd ⟨rfl, rfl⟩ h

theorem small_double {x : ℤ} (h : Small x) : IsDouble x := isDouble_int (by rw [abs_le]; exact h)

section
variable {w : Width} {K : Keys} {debug docs : Bool} {lib : Libm} {draw : B64} {ctx : Ctx (SInt w)}

theorem doubleOf_small {x : SInt w} (h : Small x.1) : (doubleOf x).isFin ∧ (doubleOf x).val = x.1 := by
  exact lit_double (q := (x.1 : ℚ)) (small_double h)

/-- C88 over `f64`: for integers up to 2^53, a power with an exponent that is not negative is exact if it is at most 2^53; otherwise the result has
an error of at most 2^-52 of the power, or is refused with `Overflow`, which never happens if the power fits with this error. Negative exponents:
powers of 0 are refused, and the others are 0, except those of 1 and -1. -/
theorem C88_double_partial (hl : lib.Powers) (h : BuiltIn K debug docs (f64 lib draw) (SInt.num w debug doubleOf intOf) ctx)
    (hw : w.bits ≤ 999) (x y : SInt w) (hx : Small x.1) (hy : Small y.1) :
    let result := evalTokens ctx (infixTokens x (str "^") y)
    (∀ b : ℕ, y.1 = b → Small (x.1 ^ b) → result = exactly (x.1 ^ b)) ∧
    (∀ b : ℕ, y.1 = b → (∃ r, result = .ok r ∧ |((r.1 - x.1 ^ b : ℤ) : ℚ)| ≤ |((x.1 ^ b : ℤ) : ℚ)| / 2 ^ 52) ∨ result = .err .overflow) ∧
    (∀ b : ℕ, y.1 = b → |((x.1 ^ b : ℤ) : ℚ)| * (1 + 1 / 2 ^ 52) < 2 ^ w.bits → ∃ r, result = .ok r) ∧
    (y.1 < 0 → x.1 = 0 → result = .err .overflow) ∧
    (y.1 < 0 → 2 ≤ |x.1| → result = exactly 0) := by
  intro result
  have hr : result = Res.ofOption (intOf (lib.powf (doubleOf x) (doubleOf y))) .overflow := pow_infix h x y
  obtain ⟨x1, x2⟩ := doubleOf_small hx
  obtain ⟨y1, y2⟩ := doubleOf_small hy
  have fits : ∀ n : ℤ, |(n : ℚ)| < 2 ^ w.bits → w.Fits n := by
    intro n hn
    rw [abs_lt] at hn
    have e : ((2 ^ w.bits : ℕ) : ℚ) = 2 ^ w.bits := by push_cast; rfl
    rw [← e] at hn
    have h1 : -((2 ^ w.bits : ℕ) : ℤ) < n := by exact_mod_cast hn.1
    have h2 : n < ((2 ^ w.bits : ℕ) : ℤ) := by exact_mod_cast hn.2
    unfold Width.Fits Width.lo Width.hi
    constructor <;> omega
  -- the cases of a power
  have small : ∀ b : ℕ, y.1 = b → Small (x.1 ^ b) → result = exactly (x.1 ^ b) := by
    intro b hb hs
    have e : (doubleOf x).val ^ b = ((x.1 ^ b : ℤ) : ℚ) := by rw [x2]; push_cast; rfl
    obtain ⟨p1, p2⟩ := hl.exact _ _ b x1 y1 (by rw [y2, hb]; push_cast; rfl) (by rw [e]; exact small_double hs)
    rw [hr, intOf, toInt_fin p1, p2, e, cut_int]
    exact orOverflow_exactly _
  have big : ∀ b : ℕ, y.1 = b → ¬ Small (x.1 ^ b) → |((x.1 ^ b : ℤ) : ℚ)| ≤ 2 ^ 1023 →
      ∃ n : ℤ, result = exactly n ∧ |((n - x.1 ^ b : ℤ) : ℚ)| ≤ |((x.1 ^ b : ℤ) : ℚ)| / 2 ^ 52 := by
    intro b hb hs hlarge
    have e : (doubleOf x).val ^ b = ((x.1 ^ b : ℤ) : ℚ) := by rw [x2]; push_cast; rfl
    have hgt : 2 ^ 53 < |((x.1 ^ b : ℤ) : ℚ)| := by
      have : (2 ^ 53 : ℤ) < |x.1 ^ b| := by
        unfold Small at hs
        rw [lt_abs]
        by_contra hc
        push Not at hc
        exact hs ⟨by omega, by omega⟩
      exact_mod_cast this
    obtain ⟨p1, p2⟩ := hl.near _ _ b x1 y1 (by rw [y2, hb]; push_cast; rfl) (by rw [e]; exact le_trans (by norm_num) hgt.le) (by rw [e]; exact hlarge)
    rw [e] at p2
    generalize hP : ((x.1 ^ b : ℤ) : ℚ) = P at *
    have h52 : 2 ^ 52 ≤ |(lib.powf (doubleOf x) (doubleOf y)).val| := by
      have := abs_sub_abs_le_abs_sub P (lib.powf (doubleOf x) (doubleOf y)).val
      rw [abs_sub_comm] at this
      have h3 : |P| - |P| / 2 ^ 52 ≤ |(lib.powf (doubleOf x) (doubleOf y)).val| := by linarith
      refine le_trans ?_ h3
      have e4 : |P| - |P| / 2 ^ 52 = |P| * (1 - 1 / 2 ^ 52) := by ring
      rw [e4]
      calc (2 : ℚ) ^ 52 ≤ 2 ^ 53 * (1 - 1 / 2 ^ 52) := by norm_num
        _ ≤ |P| * (1 - 1 / 2 ^ 52) := mul_le_mul_of_nonneg_right hgt.le (by norm_num)
    obtain ⟨n, hn⟩ := (double_whole (isDouble_val p1)).1 h52
    refine ⟨n, ?_, ?_⟩
    · rw [hr, intOf, toInt_fin p1, hn, cut_int]
      exact orOverflow_exactly _
    · rw [hn] at p2
      push_cast
      rw [show ((x.1 : ℚ) ^ b) = P by rw [← hP]; push_cast; rfl]
      exact p2
  have huge : ∀ b : ℕ, y.1 = b → 2 ^ 1023 < |((x.1 ^ b : ℤ) : ℚ)| → result = .err .overflow := by
    intro b hb hlarge
    have e : (doubleOf x).val ^ b = ((x.1 ^ b : ℤ) : ℚ) := by rw [x2]; push_cast; rfl
    by_cases hf : (lib.powf (doubleOf x) (doubleOf y)).isFin
    · have h1 := hl.large _ _ b x1 y1 (by rw [y2, hb]; push_cast; rfl) (by rw [e]; exact hlarge) hf
      have h2 : (2 : ℚ) ^ 52 ≤ 2 ^ 1000 := pow_le_pow_right₀ (by norm_num) (by norm_num only)
      obtain ⟨n, hn⟩ := (double_whole (isDouble_val hf)).1 (h2.trans h1)
      rw [hr, intOf, toInt_fin hf, hn, cut_int]
      rw [hn] at h1
      refine (orOverflow_exactly n).trans ?_
      unfold exactly
      rw [dif_neg]
      intro hfit
      have h3 : (2 : ℤ) ^ 1000 ≤ |n| := by exact_mod_cast h1
      have h4 : ((2 ^ w.bits : ℕ) : ℤ) ≤ 2 ^ 999 := by
        push_cast
        exact pow_le_pow_right₀ (by norm_num) hw
      have h5 : (2 : ℤ) ^ 1000 = 2 * 2 ^ 999 := by rw [show (1000 : ℕ) = 999 + 1 from rfl, pow_succ']
      have h6 : (0 : ℤ) < 2 ^ 999 := by positivity
      unfold Width.Fits Width.lo Width.hi at hfit
      rw [h5] at h3
      clear h1 h2 h5
      generalize (2 : ℤ) ^ 999 = m at *
      rw [le_abs] at h3
      omega
    · rw [hr, intOf, toInt_not hf]
      rfl
  refine ⟨small, ?_, ?_, ?_, ?_⟩
  · intro b hb
    by_cases hs : Small (x.1 ^ b)
    · rw [small b hb hs]
      unfold exactly
      split
      · left; exact ⟨_, rfl, by rw [sub_self, Int.cast_zero, abs_zero]; positivity⟩
      · right; rfl
    · by_cases hlarge : |((x.1 ^ b : ℤ) : ℚ)| ≤ 2 ^ 1023
      · obtain ⟨n, h1, h2⟩ := big b hb hs hlarge
        rw [h1]
        unfold exactly
        split
        · left; exact ⟨_, rfl, h2⟩
        · right; rfl
      · right; exact huge b hb (not_le.mp hlarge)
  · intro b hb hfit
    have hle : |((x.1 ^ b : ℤ) : ℚ)| < 2 ^ w.bits := by
      refine lt_of_le_of_lt ?_ hfit
      exact le_mul_of_one_le_right (abs_nonneg _) (by norm_num)
    by_cases hs : Small (x.1 ^ b)
    · rw [small b hb hs]
      unfold exactly
      rw [dif_pos (fits _ hle)]
      exact ⟨_, rfl⟩
    · have hlarge : |((x.1 ^ b : ℤ) : ℚ)| ≤ 2 ^ 1023 :=
        hle.le.trans (pow_le_pow_right₀ (by norm_num) (hw.trans (by norm_num only)))
      obtain ⟨n, h1, h2⟩ := big b hb hs hlarge
      rw [h1]
      unfold exactly
      rw [dif_pos (fits _ ?_)]
      · exact ⟨_, rfl⟩
      · refine lt_of_le_of_lt ?_ hfit
        have e : (n : ℚ) = ((n - x.1 ^ b : ℤ) : ℚ) + ((x.1 ^ b : ℤ) : ℚ) := by push_cast; ring
        rw [e]
        refine (abs_add_le _ _).trans ?_
        linarith
  · intro h0 hz
    obtain ⟨b, hb⟩ : ∃ b : ℕ, y.1 = -b := ⟨(-y.1).toNat, by omega⟩
    have := hl.pole _ _ b x1 y1 (by rw [y2, hb]; push_cast; rfl) (by omega) (by rw [x2, hz]; rfl)
    rw [hr, intOf, toInt_not this]
    rfl
  · intro h0 h2
    obtain ⟨b, hb⟩ : ∃ b : ℕ, y.1 = -b := ⟨(-y.1).toNat, by omega⟩
    obtain ⟨p1, p2⟩ := hl.fraction _ _ b x1 y1 (by rw [y2, hb]; push_cast; rfl) (by omega) (by rw [x2]; exact_mod_cast h2)
    rw [hr, intOf, toInt_fin p1, double_cut_small p2]
    exact orOverflow_exactly _

/-- C88 is false of the code over `f64`, whatever `powf` does: no power of an odd number beyond 2^53 is ever evaluated to that power. -/
theorem C88_double_counterexample (h : BuiltIn K debug docs (f64 lib draw) (SInt.num w debug doubleOf intOf) ctx)
    (x y r : SInt w) (b : ℕ) (hodd : x.1 % 2 = 1) (hr : r.1 = x.1 ^ b) (hbig : ¬ Small r.1) :
    evalTokens ctx (infixTokens x (str "^") y) ≠ .ok r := by
  have hres : evalTokens ctx (infixTokens x (str "^") y) = Res.ofOption (intOf (lib.powf (doubleOf x) (doubleOf y))) .overflow := pow_infix h x y
  rw [hres]
  generalize lib.powf (doubleOf x) (doubleOf y) = v
  intro he
  by_cases hf : v.isFin
  · rw [intOf, toInt_fin hf] at he
    change Res.ofOption (SInt.of? (cut v.val)) .overflow = _ at he
    rw [orOverflow_exactly] at he
    unfold exactly at he
    split at he
    · injection he with he
      have hv : cut v.val = r.1 := by rw [← he]
      have hgt : (2 ^ 53 : ℤ) < |r.1| := by
        unfold Small at hbig
        rw [lt_abs]
        by_contra hc
        push Not at hc
        exact hbig ⟨by omega, by omega⟩
      have hle : |((cut v.val : ℤ) : ℚ)| ≤ |v.val| := by
        unfold cut
        split
        · rename_i hn
          have h1 : ((⌈v.val⌉ : ℤ) : ℚ) ≤ 0 := by
            have : ⌈v.val⌉ ≤ 0 := Int.ceil_le.mpr (by simpa using hn.le)
            exact_mod_cast this
          rw [abs_of_nonpos h1, abs_of_neg hn]
          linarith [Int.le_ceil v.val]
        · rename_i hn
          have hn' := not_lt.mp hn
          have h1 : (0 : ℚ) ≤ ((⌊v.val⌋ : ℤ) : ℚ) := by
            have : 0 ≤ ⌊v.val⌋ := Int.floor_nonneg.mpr hn'
            exact_mod_cast this
          rw [abs_of_nonneg h1, abs_of_nonneg hn']
          exact Int.floor_le v.val
      rw [hv] at hle
      have h53 : (2 : ℚ) ^ 53 < |v.val| := lt_of_lt_of_le (by exact_mod_cast hgt) hle
      obtain ⟨n, hn⟩ := (double_whole (isDouble_val hf)).2 h53
      have e : v.val = ((2 * n : ℤ) : ℚ) := by rw [hn]; push_cast; rfl
      rw [e, cut_int] at hv
      have h2 := odd_pow x.1 hodd b
      rw [← hr, ← hv] at h2
      omega
    · cases he
  · rw [intOf, toInt_not hf] at he
    cases he

end

/-! ## Examples -/

namespace B64

instance (x : B64) : Decidable x.isFin := inferInstanceAs (Decidable (_ ∧ _))

/-- Powers with whole exponents, rounded once; others are not needed here. -/
noncomputable def roundedPower (x y : B64) : B64 :=
  if y.isFin ∧ x.isFin then
    if 0 ≤ y.val then of false (x.val ^ ⌊y.val⌋.toNat) else if x.val = 0 then .inf false else of false (1 / x.val ^ ⌊-y.val⌋.toNat)
  else .nan

/-- Any library, with this power. -/
noncomputable def withPower (lib : Libm) : Libm := { lib with powf := roundedPower }

theorem isDouble_pow_two (a b : ℕ) (ha : a < 53) (hb : b ≤ 971) : IsDouble (2 ^ (a + b)) := by
  refine ⟨2 ^ a, b, ?_, by omega, by omega, by push_cast; rw [pow_add, zpow_natCast]⟩
  rw [abs_of_pos (by positivity)]
  exact pow_lt_pow_right₀ (by norm_num) ha

theorem rnd_abs (q : ℚ) : |rnd q| = rnd |q| := by
  rcases le_total 0 q with h | h
  · rw [abs_of_nonneg h, abs_of_nonneg (rnd_pos h)]
  · rw [abs_of_nonpos h, rnd_neg, abs_of_nonpos]
    have := rnd_pos (q := -q) (by linarith)
    rw [rnd_neg] at this
    linarith

/-- The contract of powers can be met. -/
theorem withPower_powers (lib : Libm) : (withPower lib).Powers := by
  have e1 : ∀ (x y : B64) (b : ℕ), x.isFin → y.isFin → y.val = b → roundedPower x y = of false (x.val ^ b) := by
    intro x y b hx hy hb
    unfold roundedPower
    rw [if_pos ⟨hy, hx⟩, hb, if_pos (Nat.cast_nonneg b)]
    simp
  have e2 : ∀ (x y : B64) (b : ℕ), x.isFin → y.isFin → y.val = -(b : ℚ) → 0 < b →
      roundedPower x y = if x.val = 0 then .inf false else of false (1 / x.val ^ b) := by
    intro x y b hx hy hb h0
    have : ¬ (0 : ℚ) ≤ -(b : ℚ) := by
      have : (0 : ℚ) < b := by exact_mod_cast h0
      linarith
    unfold roundedPower
    rw [if_pos ⟨hy, hx⟩, hb, if_neg this]
    simp
  have notLarge : ∀ q : ℚ, |q| ≤ 2 ^ 1023 → ¬ TooLarge q := by
    intro q hq
    unfold TooLarge
    rw [not_le]
    refine lt_of_le_of_lt hq ?_
    have e : (2 : ℚ) ^ 1024 = 2 * 2 ^ 1023 := by rw [show (1024 : ℕ) = 1023 + 1 from rfl, pow_succ']
    have e2 : (2 : ℚ) ^ 970 < 2 ^ 1023 := pow_lt_pow_right₀ (by norm_num) (by norm_num only)
    rw [e]
    clear hq
    generalize (2 : ℚ) ^ 1023 = m at *
    generalize (2 : ℚ) ^ 970 = n at *
    linarith
  refine ⟨?_, ?_, ?_, ?_, ?_⟩
  · intro x y b hx hy hb hd
    show (roundedPower x y).isFin ∧ (roundedPower x y).val = _
    rw [e1 x y b hx hy hb]
    exact of_double false hd
  · intro x y b hx hy hb h1 h2
    show (roundedPower x y).isFin ∧ |(roundedPower x y).val - _| ≤ _
    rw [e1 x y b hx hy hb]
    obtain ⟨f1, f2⟩ := of_fin false (notLarge _ h2)
    refine ⟨f1, ?_⟩
    rw [f2]
    generalize x.val ^ b = q at *
    have low : (1 : ℚ) / 2 ^ 1022 ≤ |q| := le_trans (div_le_one_of_le₀ (one_le_pow₀ (by norm_num)) (by positivity)) h1
    have h3 : |q| / 2 ^ 53 ≤ |q| / 2 ^ 52 := div_le_div_of_nonneg_left (abs_nonneg q) (by norm_num) (by norm_num)
    refine le_trans ?_ h3
    have h4 := rnd_relative low
    rcases le_total 0 q with h | h
    · rw [abs_of_nonneg h] at h4 ⊢; exact h4
    · rw [abs_of_nonpos h] at h4 ⊢
      rw [rnd_neg, show -rnd q - -q = -(rnd q - q) by ring, abs_neg] at h4
      exact h4
  · intro x y b hx hy hb h1
    show (roundedPower x y).isFin → 2 ^ 1000 ≤ |(roundedPower x y).val|
    rw [e1 x y b hx hy hb]
    intro hf
    have hl : ¬ TooLarge (x.val ^ b) := by
      intro hl
      rw [of_inf false hl] at hf
      cases hf.2
    rw [(of_fin false hl).2, rnd_abs]
    generalize x.val ^ b = q at *
    have hd : IsDouble (2 ^ 1000) := isDouble_pow_two 29 971 (by norm_num only) le_rfl
    rw [← rnd_keep hd]
    apply rnd_mono
    exact le_trans (pow_le_pow_right₀ (by norm_num) (by norm_num only)) h1.le
  · intro x y b hx hy hb h0 h2
    show (roundedPower x y).isFin ∧ |(roundedPower x y).val| < 1
    have hx0 : x.val ≠ 0 := by intro h; rw [h] at h2; norm_num at h2
    rw [e2 x y b hx hy hb h0, if_neg hx0]
    have hle : |1 / x.val ^ b| ≤ 1 / 2 := by
      rw [abs_div, abs_one, abs_pow]
      apply one_div_le_one_div_of_le (by norm_num)
      calc (2 : ℚ) ≤ |x.val| := h2
        _ = |x.val| ^ 1 := (pow_one _).symm
        _ ≤ |x.val| ^ b := pow_le_pow_right₀ (by linarith) h0
    have hl := notLarge (1 / x.val ^ b) (hle.trans (le_trans (by norm_num) (one_le_pow₀ (by norm_num : (1 : ℚ) ≤ 2))))
    obtain ⟨f1, f2⟩ := of_fin false hl
    refine ⟨f1, ?_⟩
    rw [f2, rnd_abs]
    have hd : IsDouble (1 / 2) := ⟨1, -1, by norm_num, by norm_num, by norm_num, by norm_num⟩
    calc rnd |1 / x.val ^ b| ≤ rnd (1 / 2) := rnd_mono hle
      _ = 1 / 2 := rnd_keep hd
      _ < 1 := by norm_num
  · intro x y b hx hy hb h0 hz
    show ¬ (roundedPower x y).isFin
    rw [e2 x y b hx hy hb h0, if_pos hz]
    intro h
    cases h.2

end B64

/-- With any such library, over `i64`: 3 ^ 33 is right; 3 ^ 34 fits and is evaluated, but not to the power. -/
example (lib : Libm) (draw : B64) : ∃ c, Context.checked Demo.keys true true (f64 (withPower lib) draw) (SInt.num i64 true doubleOf intOf) Config.new = .ok c ∧
    (∀ (x y : SInt i64), x.1 = 3 → y.1 = 33 → evalTokens (c.view Demo.keys) (infixTokens x (str "^") y) = exactly 5559060566555523) ∧
    (∀ (x y : SInt i64), x.1 = 3 → y.1 = 34 → ∃ r, evalTokens (c.view Demo.keys) (infixTokens x (str "^") y) = .ok r ∧ r.1 ≠ 16677181699666569) := by
  obtain ⟨c, hc, -⟩ := C31_checked Demo.keys true true (f64 (withPower lib) draw) (SInt.num i64 true doubleOf intOf) Config.new ⟨3, by decide⟩ ⟨2, by decide⟩
    (by show intOf pi = _; decide +kernel) (by show intOf e = _; decide +kernel)
  have hb : BuiltIn Demo.keys true true (f64 (withPower lib) draw) (SInt.num i64 true doubleOf intOf) (c.view Demo.keys) := ⟨_, c, [], .inl hc, rfl⟩
  refine ⟨c, hc, fun x y hx hy => ?_, fun x y hx hy => ?_⟩
  · have h := C88_double_partial (withPower_powers lib) hb (by decide) x y (by rw [hx]; unfold Small; omega) (by rw [hy]; unfold Small; omega)
    have := h.1 33 hy (by rw [hx]; unfold Small; norm_num)
    rw [this, hx]
    norm_num
  · have h := C88_double_partial (withPower_powers lib) hb (by decide) x y (by rw [hx]; unfold Small; omega) (by rw [hy]; unfold Small; omega)
    obtain ⟨r, hr⟩ := h.2.2.1 34 hy (by rw [hx, show i64.bits = 63 from rfl]; norm_num)
    refine ⟨r, hr, fun hv => ?_⟩
    exact C88_double_counterexample hb x y r 34 (by omega) (by rw [hv, hx]; norm_num) (by rw [hv]; unfold Small; omega) hr

end Prexel
