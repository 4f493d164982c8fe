import Verif.Lemmas.JsonFloat
import Verif.Props.Json
import Verif.Props.DoubleFactorial
/-!
# C148: numbers in requests
-/

namespace Prexel
open B64 Json

theorem ten_units {p : ℤ} (h : -300 ≤ p) : 8 ≤ (10 : ℚ) ^ p * perOne := by
  have h1 : (10 : ℚ) ^ (-300 : ℤ) ≤ 10 ^ p := zpow_le_zpow_right₀ (by norm_num) h
  have h2 : (8 : ℚ) * 10 ^ 300 ≤ perOne := by
    rw [perOne_pow]
    have : 8 * 10 ^ 300 ≤ 2 ^ 1074 := by decide +kernel
    exact_mod_cast this
  have h3 : (10 : ℚ) ^ (-300 : ℤ) = (10 ^ 300)⁻¹ := by rw [zpow_neg]; congr 1
  have h4 : (0 : ℚ) < 10 ^ 300 := by positivity
  rw [h3] at h1
  calc (8 : ℚ) = (10 ^ 300)⁻¹ * (8 * 10 ^ 300) := by field_simp
    _ ≤ 10 ^ p * perOne := mul_le_mul h1 h2 (by positivity) (zpow_nonneg (by norm_num) _)

/-- The absolute value of a JSON number. -/
theorem Json.Number.abs_value (n : Number) : |n.value| = (n.significand : ℚ) * 10 ^ n.power := by
  have h : (0 : ℚ) ≤ 10 ^ n.power := zpow_nonneg (by norm_num) _
  unfold Number.value
  cases n.neg <;> simp [abs_mul, abs_of_nonneg h]

theorem Json.Number.value_eq (n : Number) : n.value = if n.neg then -((n.significand : ℚ) * 10 ^ n.power) else n.significand * 10 ^ n.power := by
  unfold Number.value
  cases n.neg <;> simp

/-- C148. A JSON number of at most 2^53 without its point and with a power of ten of at most 22 is read as the double nearest to it; a zero keeps its sign. -/
theorem C148_nearest {n : Number} (h : n.WF) (hs : n.significand ≤ 2 ^ 53) (hp : n.power.natAbs ≤ 22) :
    ∃ f, float n.text = some f ∧ f.isFin ∧ NearestDouble f.val n.value ∧ (n.value = 0 → f.sign = n.neg) := by
  have hsmall : ¬ TooLarge n.value := by
    refine small_between (hi := ((2 ^ 52 : ℤ) : ℚ) * 2 ^ (100 : ℤ)) ⟨2 ^ 52, 100, by norm_num, by norm_num, by norm_num, rfl⟩ ?_
    rw [n.abs_value, abs_of_nonneg (by norm_num)]
    have h1 : (n.significand : ℚ) ≤ 2 ^ 53 := by exact_mod_cast hs
    have h2 : (10 : ℚ) ^ n.power ≤ 10 ^ 22 := by
      rw [← zpow_natCast]; exact zpow_le_zpow_right₀ (by norm_num) (by push_cast; omega)
    calc (n.significand : ℚ) * 10 ^ n.power ≤ 2 ^ 53 * 10 ^ 22 := mul_le_mul h1 h2 (zpow_nonneg (by norm_num) _) (by positivity)
      _ ≤ _ := by norm_num
  refine ⟨_, float_nearest h hs hp, (of_fin _ hsmall).1, ?_, (of_sign _ _).2.2⟩
  rw [(of_fin _ hsmall).2]
  exact rnd_nearest hsmall

/-- What is printed for a JSON number of at most 15 digits. -/
theorem number_printed {n : Number} (h : n.WF) (hs : n.significand < 10 ^ 15) (hp : n.power.natAbs ≤ 22) :
    float n.text = some (of n.neg n.value) ∧ ∃ d j, toStr (of n.neg n.value) = (if n.neg then ['-'] else []) ++ plain d j ∧ min n.power 0 ≤ j ∧
      (d : ℚ) * 10 ^ j = |n.value| := by
  refine ⟨float_nearest h (hs.le.trans (by norm_num)) hp, ?_⟩
  rw [n.abs_value, n.value_eq]
  exact toStr_exact n.neg hs (ten_units (by omega)) (by omega)

/-- C148. The text of a JSON number of at most 15 digits, as the server passes it on, is a numeral for exactly the number that was written. -/
theorem C148_text {n : Number} (h : n.WF) (hs : n.significand < 10 ^ 15) (hp : n.power.natAbs ≤ 22) :
    ∃ f s, float n.text = some f ∧ toStr f = (if n.neg then ['-'] else []) ++ s ∧ Stands s |n.value| := by
  obtain ⟨h1, d, j, h2, -, h3⟩ := number_printed h hs hp
  exact ⟨_, _, h1, h2, by rw [← h3]; exact plain_stands d j⟩

theorem parse_minus (w : Width) {s : Str} (h : Digits s) : SInt.parse w ('-' :: s) = SInt.of? (-(digitsValue s : ℤ)) := by
  obtain ⟨hne, hd⟩ := h
  unfold SInt.parse SInt.fromStrRadix
  simp only
  rw [SInt.signed, if_neg hne, digits_value 0 s fun x hx => isDigit_iff.2 (hd x hx)]
  simp [digitsValue]

theorem plain_whole (d : ℕ) {j : ℤ} (h : 0 ≤ j) : Digits (plain d j) ∧ (digitsValue (plain d j) : ℚ) = d * 10 ^ j := by
  have := plain_places d j
  rw [show (-j).toNat = 0 by omega] at this
  generalize hq : d * 10 ^ j.toNat = q at this
  generalize hz : (0 : ℕ) = z at this
  generalize plain d j = s at this ⊢
  cases this with
  | whole hd =>
    refine ⟨hd, ?_⟩
    rw [← hq]
    push_cast
    rw [← zpow_natCast, Int.toNat_of_nonneg h]
  | pointed ha hb => exact absurd (List.length_eq_zero_iff.1 hz.symm) hb.1

/-- What is printed for a JSON number that is whole: its digits. -/
theorem whole_printed {n : Number} (hs : n.significand < 10 ^ 15) (hp : n.power.natAbs ≤ 22) {z : ℤ} (hz : n.value = z) :
    ∃ s, toStr (of n.neg n.value) = (if n.neg then ['-'] else []) ++ s ∧ Digits s ∧ digitsValue s = z.natAbs := by
  have habs : |n.value| = (z.natAbs : ℚ) := by rw [hz, ← Int.cast_abs, Int.abs_eq_natAbs]; simp
  have habs' := n.abs_value
  rw [habs] at habs'
  obtain ⟨d, j, h1, h2, h3⟩ : ∃ d j, toStr (of n.neg n.value) = (if n.neg then ['-'] else []) ++ plain d j ∧ 0 ≤ j ∧ (d : ℚ) * 10 ^ j = z.natAbs := by
    by_cases h0 : 0 ≤ n.power
    · obtain ⟨d, j, h1, h2, h3⟩ := toStr_exact n.neg hs (ten_units (p := n.power) (by omega)) (by omega)
      rw [← n.value_eq] at h1
      exact ⟨d, j, h1, by omega, by rw [h3, habs']⟩
    · have hle : z.natAbs < 10 ^ 15 := by
        have : (z.natAbs : ℚ) ≤ n.significand := by
          rw [habs']
          refine mul_le_of_le_one_right (by positivity) ?_
          exact zpow_le_one_of_nonpos₀ (by norm_num) (by omega)
        have : z.natAbs ≤ n.significand := by exact_mod_cast this
        omega
      obtain ⟨d, j, h1, h2, h3⟩ := toStr_exact n.neg hle (ten_units (p := 0) (by omega)) (by omega)
      rw [zpow_zero, mul_one] at h1 h3
      refine ⟨d, j, ?_, by omega, h3⟩
      rw [n.value_eq, ← habs']
      exact h1
  obtain ⟨h4, h5⟩ := plain_whole d h2
  refine ⟨_, h1, h4, ?_⟩
  rw [h3] at h5
  exact_mod_cast h5

/-- C148. A JSON number of at most 15 digits as the value of a variable. The variable is exactly the number that was written if the type is decimal or,
for whole numbers, integer or binary; if the type is float it is the double nearest to it. -/
theorem C148_variable {lib : D96.Lib B64} {T : Type} (W : World D96 B64 T) (hread : W.readFloat = fromStr) (hshow : W.showFloat = toStr)
    (hdec : W.readDecimal = D96.fromStr lib) {n : Number} (h : n.WF) (hs : n.significand < 10 ^ 15) (hp : n.power.natAbs ≤ 22) {x : Variable B64}
    (hx : IsVariable (.num n.text) x) :
    (∃ f, W.floatBackend.readVariable (W.showVariable x) = some f ∧ f.isFin ∧ NearestDouble f.val n.value ∧ (n.value = 0 → f.sign = n.neg)) ∧
    (n.power ≤ 13 → (n.neg = true → n.significand ≠ 0) → ∃ d, W.decimalBackend.readVariable (W.showVariable x) = some d ∧ d.val = n.value) ∧
    (∀ z : ℤ, n.value = z → (∃ i, W.integerBackend.readVariable (W.showVariable x) = some i ∧ i.1 = z) ∧
      ∃ b, W.binaryBackend.readVariable (W.showVariable x) = some b ∧ b.toInt = z) := by
  obtain ⟨h1, d, j, h2, h3, h4⟩ := number_printed h hs hp
  have hx' : x = .number (of n.neg n.value) := by
    cases x with
    | text t => obtain ⟨r, hr, -⟩ := hx; cases hr
    | number f =>
      obtain ⟨t, ht, hf⟩ := hx
      cases ht
      rw [h1] at hf; cases hf; rfl
  subst hx'
  have e : W.showVariable (.number (of n.neg n.value)) = toStr (of n.neg n.value) := by rw [World.showVariable, hshow]
  refine ⟨?_, ?_, ?_⟩
  · obtain ⟨f, hf, hr⟩ := C148_nearest h (hs.le.trans (by norm_num)) hp
    rw [h1] at hf; cases hf
    refine ⟨_, ?_, hr⟩
    show W.readFloat _ = _
    rw [e, hread, toStr_reads]
  · intro hp' hneg
    show ∃ d, W.readDecimal _ = some d ∧ _
    rw [e, hdec, h2]
    have hw := plain_places d j
    have hval : ((d * 10 ^ j.toNat : ℕ) : ℚ) / 10 ^ (-j).toNat = |n.value| := by
      rw [← h4]
      by_cases hj : 0 ≤ j
      · rw [show (-j).toNat = 0 by omega, pow_zero, div_one]; push_cast
        rw [← zpow_natCast, Int.toNat_of_nonneg hj]
      · rw [show j.toNat = 0 by omega, pow_zero, mul_one, div_eq_mul_inv, ← zpow_natCast, ← zpow_neg, Int.toNat_of_nonneg (by omega), neg_neg]
    have hc : d * 10 ^ j.toNat < 2 ^ 96 := by
      have h5 : ((d * 10 ^ j.toNat : ℕ) : ℚ) = |n.value| * 10 ^ (-j).toNat := by
        rw [← hval]; field_simp
      have h6 : (10 : ℚ) ^ (-j).toNat * 10 ^ n.power ≤ 10 ^ 13 := by
        rw [← zpow_natCast, ← zpow_add₀ (by norm_num), ← zpow_natCast]
        exact zpow_le_zpow_right₀ (by norm_num) (by push_cast; omega)
      have h7 : ((d * 10 ^ j.toNat : ℕ) : ℚ) < 10 ^ 15 * 10 ^ 13 := by
        rw [h5, n.abs_value]
        calc (n.significand : ℚ) * 10 ^ n.power * 10 ^ (-j).toNat = n.significand * (10 ^ (-j).toNat * 10 ^ n.power) := by ring
          _ ≤ n.significand * 10 ^ 13 := mul_le_mul_of_nonneg_left h6 (by positivity)
          _ < 10 ^ 15 * 10 ^ 13 := mul_lt_mul_of_pos_right (by exact_mod_cast hs) (by norm_num)
      have h8 : d * 10 ^ j.toNat < 10 ^ 15 * 10 ^ 13 := by exact_mod_cast h7
      exact h8.trans (by norm_num)
    have hpl : (-j).toNat ≤ 28 := by omega
    cases hn : n.neg with
    | false =>
      refine ⟨_, D96.fromStr_written lib hw hc hpl, ?_⟩
      rw [D96.val_eq, n.value_eq, hn, ← n.abs_value, ← hval]
      simp
    | true =>
      have hne : d * 10 ^ j.toNat ≠ 0 := by
        intro h0
        have : |n.value| = 0 := by rw [← hval, h0]; simp
        rw [n.abs_value] at this
        have h10 : (10 : ℚ) ^ n.power ≠ 0 := zpow_ne_zero _ (by norm_num)
        have := (mul_eq_zero.1 this).resolve_right h10
        exact hneg hn (by exact_mod_cast this)
      refine ⟨⟨true, d * 10 ^ j.toNat, (-j).toNat, hc, hpl⟩, ?_, ?_⟩
      · obtain ⟨c, r, hr, hcd⟩ := Stands.head (plain_stands d j)
        simp only [if_true, List.cons_append, List.nil_append]
        unfold D96.fromStr
        rw [if_neg]
        · simp only [D96.plain_written (neg := true) hw hc hpl]
          rw [if_neg hne]
        · rw [hr]
          simp only [List.any_cons, List.head?_cons, Option.any_some, hcd, Bool.or_true, Bool.true_or]
          decide
      · rw [D96.val_eq, n.value_eq, hn, ← n.abs_value, ← hval]
        simp
  · intro z hz
    obtain ⟨s, h5, h6, h7⟩ := whole_printed hs hp hz
    have hfit : i128.Fits z := by
      have : (z.natAbs : ℚ) < 10 ^ 15 * 10 ^ 22 := by
        have habs : |n.value| = (z.natAbs : ℚ) := by rw [hz, ← Int.cast_abs, Int.abs_eq_natAbs]; simp
        rw [← habs, n.abs_value]
        have h10 : (10 : ℚ) ^ n.power ≤ 10 ^ 22 := by
          rw [← zpow_natCast]; exact zpow_le_zpow_right₀ (by norm_num) (by push_cast; omega)
        calc (n.significand : ℚ) * 10 ^ n.power ≤ n.significand * 10 ^ 22 := mul_le_mul_of_nonneg_left h10 (by positivity)
          _ < _ := mul_lt_mul_of_pos_right (by exact_mod_cast hs) (by norm_num)
      have : z.natAbs < 10 ^ 15 * 10 ^ 22 := by exact_mod_cast this
      simp only [Width.Fits, Width.lo, Width.hi, i128]
      omega
    have hsgn : z = if n.neg then -(z.natAbs : ℤ) else z.natAbs := by
      have h10 : (0 : ℚ) ≤ n.significand * 10 ^ n.power := mul_nonneg (by positivity) (zpow_nonneg (by norm_num) _)
      have hv := n.value_eq
      rw [hz] at hv
      cases hn : n.neg with
      | false =>
        rw [hn] at hv
        have : (0 : ℚ) ≤ z := by rw [hv]; simpa using h10
        have : 0 ≤ z := by exact_mod_cast this
        simp only [Bool.false_eq_true, if_false]; omega
      | true =>
        rw [hn] at hv
        have : (z : ℚ) ≤ 0 := by rw [hv]; simpa using h10
        have : z ≤ 0 := by exact_mod_cast this
        simp only [if_true]; omega
    have key : SInt.parse i128 (W.showVariable (.number (of n.neg n.value))) = some ⟨z, hfit⟩ := by
      rw [e, h5]
      have hof : ∀ y : ℤ, y = z → (SInt.of? y : Option (SInt i128)) = some ⟨z, hfit⟩ := by
        rintro y rfl; rw [SInt.of?, dif_pos hfit]
      cases hn : n.neg with
      | false =>
        simp only [Bool.false_eq_true, if_false, List.nil_append]
        rw [parse_digits _ h6, h7]
        exact hof _ (by rw [hn] at hsgn; simpa using hsgn.symm)
      | true =>
        simp only [if_true, List.cons_append, List.nil_append]
        rw [parse_minus _ h6, h7]
        exact hof _ (by rw [hn] at hsgn; simpa using hsgn.symm)
    refine ⟨⟨_, key, rfl⟩, BitVec.ofInt 128 z, ?_, ?_⟩
    · show (SInt.parse i128 _).map _ = _
      rw [key]; rfl
    · rw [BitVec.toInt_ofInt]
      have := hfit
      simp only [Width.Fits, Width.lo, Width.hi, i128] at this
      rw [Int.bmod_def]
      split <;> omega

theorem factor_of {r s u : ℚ} (hs : 0 < s) (h : |r - s| ≤ s * u) : ∃ a, r = s * (1 + a) ∧ -u ≤ a ∧ a ≤ u := by
  refine ⟨(r - s) / s, by field_simp; ring, ?_, ?_⟩
  · rw [le_div_iff₀ hs]; linarith [(abs_le.1 h).1]
  · rw [div_le_iff₀ hs]; linarith [(abs_le.1 h).2]

theorem product_close {u s T r t m : ℚ} (hu : 0 ≤ u) (hu' : u ≤ 1 / 100) (hs : 0 < s) (hT : 0 < T) (h1 : |r - s| ≤ s * u) (h2 : |t - T| ≤ T * u)
    (h3 : |m - r * t| ≤ r * t * u) : |m - s * T| ≤ 4 * u * (s * T) := by
  obtain ⟨a, rfl, a1, a2⟩ := factor_of hs h1
  obtain ⟨b, rfl, b1, b2⟩ := factor_of hT h2
  obtain ⟨c, rfl, c1, c2⟩ := factor_of (by nlinarith [mul_pos hs hT, mul_pos (show 0 < 1 + a by linarith) (show 0 < 1 + b by linarith)]) h3
  have hsT := mul_pos hs hT
  have e : s * (1 + a) * (T * (1 + b)) * (1 + c) - s * T = ((1 + a) * (1 + b) * (1 + c) - 1) * (s * T) := by ring
  rw [e, abs_mul, abs_of_pos hsT]
  refine mul_le_mul_of_nonneg_right ?_ hsT.le
  have hab : |a + b + a * b| ≤ 2 * u + u / 100 := by
    rw [abs_le]; constructor <;> nlinarith
  have hab' := abs_le.1 hab
  rw [show (1 + a) * (1 + b) * (1 + c) - 1 = (a + b + a * b) + c + (a + b + a * b) * c by ring, abs_le]
  constructor <;> nlinarith

theorem quotient_close {u s T r t m : ℚ} (hu : 0 ≤ u) (hu' : u ≤ 1 / 100) (hs : 0 < s) (hT : 0 < T) (h1 : |r - s| ≤ s * u) (h2 : |t - T| ≤ T * u)
    (h3 : |m - r / t| ≤ r / t * u) : |m - s / T| ≤ 4 * u * (s / T) := by
  obtain ⟨a, rfl, a1, a2⟩ := factor_of hs h1
  obtain ⟨b, rfl, b1, b2⟩ := factor_of hT h2
  have hb : 0 < 1 + b := by linarith
  have ha : 0 < 1 + a := by linarith
  obtain ⟨c, rfl, c1, c2⟩ := factor_of (div_pos (mul_pos hs ha) (mul_pos hT hb)) h3
  have hsT := div_pos hs hT
  have e : s * (1 + a) / (T * (1 + b)) * (1 + c) - s / T = ((a + c + a * c - b) / (1 + b)) * (s / T) := by field_simp; ring
  rw [e, abs_mul, abs_of_pos hsT]
  refine mul_le_mul_of_nonneg_right ?_ hsT.le
  rw [abs_div, abs_of_pos hb, div_le_iff₀ hb, abs_le]
  constructor <;> nlinarith

theorem size_bound : (2 : ℚ) ^ 66 * 10 ^ 288 ≤ 2 ^ 52 * 2 ^ 971 ∧ (2 : ℚ) * 10 ^ 300 ≤ 2 ^ 1021 := by
  have h1 : 2 ^ 66 * 10 ^ 288 ≤ 2 ^ 52 * 2 ^ 971 := by decide +kernel
  have h2 : 2 * 10 ^ 300 ≤ 2 ^ 1021 := by decide +kernel
  exact ⟨by exact_mod_cast h1, by exact_mod_cast h2⟩

theorem not_large {q : ℚ} (h0 : 0 ≤ q) (h : q ≤ 2 ^ 66 * 10 ^ 288) : ¬ TooLarge q := by
  refine small_between (hi := ((2 ^ 52 : ℤ) : ℚ) * 2 ^ (971 : ℤ)) ⟨2 ^ 52, 971, by norm_num, by norm_num, by norm_num, rfl⟩ ?_
  rw [abs_of_nonneg h0, abs_of_nonneg (mul_nonneg (by norm_num) (zpow_nonneg (by norm_num) _))]
  have h5 : (2 : ℚ) ^ (971 : ℤ) = 2 ^ 971 := zpow_natCast _ 971
  rw [h5]
  push_cast
  exact h.trans size_bound.1

/-- C148 for more digits: a JSON number whose digits fit in 64 bits, from 1e-300 to about 1e307, is read as a double that differs from it by at most four
parts in 2^53. -/
theorem C148_close {n : Number} (h : n.WF) (hs : n.significand < 2 ^ 64) (hp : -300 ≤ n.power ∧ n.power ≤ 288) :
    ∃ f, float n.text = some f ∧ f.isFin ∧ |f.val - n.value| ≤ 4 / 2 ^ 53 * |n.value| := by
  rw [float_number h hs]
  suffices key : ∃ f, scaled (n.power.natAbs + 1) (lit n.significand) n.power = some f ∧ f.isFin ∧
      |f.val - n.significand * 10 ^ n.power| ≤ 4 / 2 ^ 53 * ((n.significand : ℚ) * 10 ^ n.power) by
    obtain ⟨f, h1, h2, h3⟩ := key
    rw [h1, n.abs_value, n.value_eq]
    cases n.neg with
    | false => exact ⟨f, rfl, h2, by simpa using h3⟩
    | true =>
      refine ⟨f.neg, rfl, (neg_fin h2).1, ?_⟩
      rw [(neg_fin h2).2.1]
      simp only [if_true]
      rw [show -f.val - -((n.significand : ℚ) * 10 ^ n.power) = -(f.val - n.significand * 10 ^ n.power) by ring, abs_neg]
      exact h3
  have hu : (1 : ℚ) / 2 ^ 53 ≤ 1 / 100 := by norm_num
  have hone : (1 : ℚ) / 2 ^ 1022 ≤ 1 := by
    rw [div_le_one (by positivity)]; exact one_le_pow₀ (by norm_num)
  have bigT : (10 : ℚ) ^ n.power.natAbs ≤ 10 ^ 300 := pow_le_pow_right₀ (by norm_num) (by omega)
  have hk : ∀ {k : ℕ}, k ≤ 300 → ¬ TooLarge ((10 : ℚ) ^ k) := by
    intro k hk
    refine not_large (by positivity) ?_
    calc (10 : ℚ) ^ k ≤ 10 ^ 300 := pow_le_pow_right₀ (by norm_num) hk
      _ = 10 ^ 12 * 10 ^ 288 := by rw [← pow_add]
      _ ≤ _ := mul_le_mul_of_nonneg_right (by norm_num) (by positivity)
  have hT : ¬ TooLarge ((10 : ℚ) ^ n.power.natAbs) := hk (by omega)
  have hS : ¬ TooLarge (n.significand : ℚ) := by
    refine not_large (by positivity) ?_
    have h1 : (n.significand : ℚ) ≤ 2 ^ 64 := by exact_mod_cast hs.le
    have h2 : (1 : ℚ) ≤ 10 ^ 288 := one_le_pow₀ (by norm_num)
    calc (n.significand : ℚ) ≤ 2 ^ 66 * 1 := by linarith [show (2 : ℚ) ^ 64 ≤ 2 ^ 66 * 1 by norm_num]
      _ ≤ _ := mul_le_mul_of_nonneg_left h2 (by positivity)
  have l1 : (lit (n.significand : ℚ)).isFin := (of_fin false hS).1
  have l2 : (lit (n.significand : ℚ)).val = rnd n.significand := (of_fin false hS).2
  have t1 : (lit ((10 : ℚ) ^ n.power.natAbs)).isFin := (of_fin false hT).1
  have t2 : (lit ((10 : ℚ) ^ n.power.natAbs)).val = rnd (10 ^ n.power.natAbs) := (of_fin false hT).2
  have T1 : (1 : ℚ) ≤ 10 ^ n.power.natAbs := one_le_pow₀ (by norm_num)
  have T0 : (0 : ℚ) < 10 ^ n.power.natAbs := by positivity
  have tclose : |rnd ((10 : ℚ) ^ n.power.natAbs) - 10 ^ n.power.natAbs| ≤ 10 ^ n.power.natAbs * (1 / 2 ^ 53) := by
    have := rnd_relative (hone.trans T1)
    rwa [← mul_one_div] at this
  have tpos : 0 < rnd ((10 : ℚ) ^ n.power.natAbs) := by
    have := (abs_le.1 tclose).1
    nlinarith
  unfold scaled
  rw [if_pos (by omega)]
  rcases Nat.eq_zero_or_pos n.significand with hz | hpos
  · have hl : lit (n.significand : ℚ) = zero false := by rw [hz]; simp [lit, of]
    have hzf : (zero false).isFin ∧ (zero false).val = 0 := by
      rw [← hl]
      refine ⟨l1, ?_⟩
      rw [l2, hz]; simp [rnd_zero]
    have hT' : (lit ((10 : ℚ) ^ n.power.natAbs)).val ≠ 0 := by
      rw [t2]; exact tpos.ne'
    rw [hl, hz]
    simp only [Nat.cast_zero, zero_mul, mul_zero, sub_zero]
    have key : ∀ a, (of a (0 : ℚ)).isFin ∧ |(of a (0 : ℚ)).val| ≤ 0 := by
      intro a
      have := of_double a (q := 0) ⟨0, 0, by norm_num, by norm_num, by norm_num, by norm_num⟩
      exact ⟨this.1, by rw [this.2]; simp⟩
    by_cases h0 : 0 ≤ n.power
    · rw [if_pos h0, mul_fin hzf.1 t1, hzf.2, zero_mul]
      rw [if_neg (by rw [(key _).1.2]; simp)]
      exact ⟨_, rfl, key _⟩
    · rw [if_neg h0, div_fin hzf.1 t1 hT', hzf.2, zero_div]
      exact ⟨_, rfl, key _⟩
  · have S1 : (1 : ℚ) ≤ n.significand := by exact_mod_cast hpos
    have S0 : (0 : ℚ) < n.significand := by linarith
    have sclose : |rnd (n.significand : ℚ) - n.significand| ≤ n.significand * (1 / 2 ^ 53) := by
      have := rnd_relative (hone.trans S1)
      rwa [← mul_one_div] at this
    obtain ⟨a, ha, a1, a2⟩ := factor_of S0 sclose
    obtain ⟨b, hb, b1, b2⟩ := factor_of T0 tclose
    have spos : 0 < rnd (n.significand : ℚ) := by rw [ha]; exact mul_pos S0 (by linarith)
    have S64 : (n.significand : ℚ) ≤ 2 ^ 64 := by exact_mod_cast hs.le
    have sle : rnd (n.significand : ℚ) ≤ 2 ^ 65 := by rw [ha]; nlinarith
    have sge : 1 / 2 ≤ rnd (n.significand : ℚ) := by rw [ha]; nlinarith
    have tle : rnd ((10 : ℚ) ^ n.power.natAbs) ≤ 2 * 10 ^ n.power.natAbs := by rw [hb]; nlinarith
    by_cases h0 : 0 ≤ n.power
    · have e : (10 : ℚ) ^ n.power = 10 ^ n.power.natAbs := by rw [← zpow_natCast, Int.natAbs_of_nonneg h0]
      have hle : rnd (n.significand : ℚ) * rnd ((10 : ℚ) ^ n.power.natAbs) ≤ 2 ^ 66 * 10 ^ 288 := by
        have h288 : (10 : ℚ) ^ n.power.natAbs ≤ 10 ^ 288 := pow_le_pow_right₀ (by norm_num) (by omega)
        calc _ ≤ (2 : ℚ) ^ 65 * (2 * 10 ^ n.power.natAbs) := mul_le_mul sle tle tpos.le (by positivity)
          _ = 2 ^ 66 * 10 ^ n.power.natAbs := by ring
          _ ≤ _ := mul_le_mul_of_nonneg_left h288 (by positivity)
      have hnl := not_large (mul_pos spos tpos).le hle
      have hm : mul (lit (n.significand : ℚ)) (lit ((10 : ℚ) ^ n.power.natAbs)) =
          of ((lit (n.significand : ℚ)).sign ^^ (lit ((10 : ℚ) ^ n.power.natAbs)).sign) (rnd (n.significand : ℚ) * rnd ((10 : ℚ) ^ n.power.natAbs)) := by
        rw [mul_fin l1 t1, l2, t2]
      rw [if_pos h0, hm, if_neg (by rw [(of_fin _ hnl).1.2]; simp)]
      refine ⟨_, rfl, (of_fin _ hnl).1, ?_⟩
      rw [(of_fin _ hnl).2, e]
      have hr := rnd_relative (q := rnd (n.significand : ℚ) * rnd ((10 : ℚ) ^ n.power.natAbs)) (by
        have tge : 1 / 2 ≤ rnd ((10 : ℚ) ^ n.power.natAbs) := by rw [hb]; nlinarith
        have : (1 : ℚ) / 2 ^ 1022 ≤ 1 / 4 := one_div_le_one_div_of_le (by norm_num) (by
          calc (4 : ℚ) = 2 ^ 2 := by norm_num
            _ ≤ 2 ^ 1022 := pow_le_pow_right₀ (by norm_num) (by norm_num))
        exact this.trans (by
          generalize rnd (n.significand : ℚ) = r at sge ⊢
          generalize rnd ((10 : ℚ) ^ n.power.natAbs) = t at tge ⊢
          nlinarith))
      rw [← mul_one_div] at hr
      have := product_close (by norm_num) hu S0 T0 sclose tclose hr
      rwa [mul_one_div] at this
    · have e : (10 : ℚ) ^ n.power = (10 ^ n.power.natAbs)⁻¹ := by
        rw [← zpow_natCast, ← zpow_neg]; congr 1; omega
      have hnl : ¬ TooLarge (rnd (n.significand : ℚ) / rnd ((10 : ℚ) ^ n.power.natAbs)) := by
        refine not_large (div_pos spos tpos).le ?_
        rw [div_le_iff₀ tpos]
        have tge : 1 / 2 ≤ rnd ((10 : ℚ) ^ n.power.natAbs) := by rw [hb]; nlinarith
        have h288 : (1 : ℚ) ≤ 10 ^ 288 := one_le_pow₀ (by norm_num)
        calc rnd (n.significand : ℚ) ≤ 2 ^ 66 * 1 * (1 / 2) := by linarith [show (2 : ℚ) ^ 65 = 2 ^ 66 * 1 * (1 / 2) by norm_num]
          _ ≤ 2 ^ 66 * 10 ^ 288 * rnd ((10 : ℚ) ^ n.power.natAbs) :=
            mul_le_mul (mul_le_mul_of_nonneg_left h288 (by positivity)) tge (by norm_num) (by positivity)
      have hm : div (lit (n.significand : ℚ)) (lit ((10 : ℚ) ^ n.power.natAbs)) =
          of ((lit (n.significand : ℚ)).sign ^^ (lit ((10 : ℚ) ^ n.power.natAbs)).sign) (rnd (n.significand : ℚ) / rnd ((10 : ℚ) ^ n.power.natAbs)) := by
        rw [div_fin l1 t1 (by rw [t2]; exact tpos.ne'), l2, t2]
      rw [if_neg h0, hm]
      refine ⟨_, rfl, (of_fin _ hnl).1, ?_⟩
      rw [(of_fin _ hnl).2, e, ← div_eq_mul_inv]
      have hr := rnd_relative (q := rnd (n.significand : ℚ) / rnd ((10 : ℚ) ^ n.power.natAbs)) (by
        rw [div_le_div_iff₀ (by positivity) tpos, one_mul]
        have h1 := size_bound.2
        have h2 : rnd ((10 : ℚ) ^ n.power.natAbs) ≤ 2 * 10 ^ 300 := tle.trans (by linarith)
        have h3 : (2 : ℚ) ^ 1022 = 2 * 2 ^ 1021 := by rw [← pow_succ']
        rw [h3]
        have h4 : (0 : ℚ) < 2 ^ 1021 := by positivity
        exact (h2.trans h1).trans (by
          generalize (2 : ℚ) ^ 1021 = P at h4 ⊢
          generalize rnd (n.significand : ℚ) = r at sge ⊢
          nlinarith))
      have hr' : |rnd (rnd (n.significand : ℚ) / rnd ((10 : ℚ) ^ n.power.natAbs)) - rnd (n.significand : ℚ) / rnd ((10 : ℚ) ^ n.power.natAbs)| ≤
          rnd (n.significand : ℚ) / rnd ((10 : ℚ) ^ n.power.natAbs) * (1 / 2 ^ 53) := by rw [mul_one_div]; exact hr
      have := quotient_close (by norm_num) hu S0 T0 sclose tclose hr'
      rwa [mul_one_div] at this

/-- A number as it may be written: `-12.50e-1`. -/
def Demo.number : Number := ⟨true, Prexel.str "12", Prexel.str "50", Prexel.str "e-", Prexel.str "1"⟩

example : Demo.number.WF ∧ Demo.number.text = Prexel.str "-12.50e-1" ∧ Demo.number.significand = 1250 ∧ Demo.number.power = -3 ∧ Demo.number.value = -5 / 4 := by
  have h : Demo.number.significand = 1250 ∧ Demo.number.power = -3 := by decide
  refine ⟨⟨⟨by decide, by decide⟩, by decide, .inr ⟨by decide, by decide⟩, .inr ⟨by decide, by decide, by decide⟩⟩, by decide, h.1, h.2, ?_⟩
  unfold Number.value
  rw [h.1, h.2]
  norm_num [Demo.number]

example : Demo.ask "{\"expression\":\"x\", \"variables\":{\"x\":-12.50e-1}}" = some (200, Prexel.str "{\"result\":\"-1.25\",\"error\":null}") := by
  decide +kernel

theorem Demo.rounded : Json.float (Prexel.str "9007199254740993") = some (lit 9007199254740992) ∧
    SInt.parse i128 (toStr (lit 9007199254740992)) = some ⟨9007199254740992, by decide⟩ := by
  constructor <;> decide +kernel

/-- C148 fails for numbers with more digits: a whole number that is sent as a number is rounded to a double first, whatever the type. As a string it is
not. -/
theorem C148_counterexample {D T : Type} (W : World D B64 T) (hshow : W.showFloat = toStr) {x : Variable B64}
    (hx : IsVariable (.num (Prexel.str "9007199254740993")) x) :
    (W.integerBackend.readVariable (W.showVariable x)).map (·.1) = some 9007199254740992 ∧
    (W.integerBackend.readVariable (W.showVariable (.text (Prexel.str "9007199254740993")))).map (·.1) = some 9007199254740993 := by
  constructor
  · cases x with
    | text t => obtain ⟨r, hr, -⟩ := hx; cases hr
    | number f =>
      obtain ⟨t, ht, hf⟩ := hx
      cases ht
      rw [Demo.rounded.1] at hf
      cases hf
      show (SInt.parse i128 (W.showFloat _)).map _ = _
      rw [hshow, Demo.rounded.2]
      rfl
  · simp only [World.integerBackend, World.showVariable]
    decide +kernel

end Prexel
