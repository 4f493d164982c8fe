import Verif.Lemmas.JsonNumber
import Verif.Lemmas.DoubleExact
/-!
# The doubles that JSON numbers are read as
-/

namespace Prexel.Json

theorem fill_all {m : ℕ} {s : Str} (h : m * 10 ^ s.length + digitsValue s < 2 ^ 64) :
    fill m s = (m * 10 ^ s.length + digitsValue s, s.length) := by
  induction s generalizing m with
  | nil => simp [fill, digitsValue]
  | cons c s ih =>
    have e : digitsValue (c :: s) = (c.toNat - 48) * 10 ^ s.length + digitsValue s := by
      have := B64.digitsValue_append [c] s
      simpa [digitsValue] using this
    rw [e] at h ⊢
    have hl : (c :: s).length = s.length + 1 := rfl
    rw [hl] at h ⊢
    have e2 : m * 10 ^ (s.length + 1) + ((c.toNat - 48) * 10 ^ s.length + digitsValue s) =
        (m * 10 + (c.toNat - 48)) * 10 ^ s.length + digitsValue s := by ring
    rw [e2] at h ⊢
    have h1 : m * 10 + (c.toNat - 48) < 2 ^ 64 := by
      have : 0 < 10 ^ s.length := by positivity
      nlinarith
    rw [fill, if_pos h1, ih h]

/-- The exponent of a number. -/
def Number.exponent (n : Number) : ℤ :=
  if n.mark = ['e', '-'] ∨ n.mark = ['E', '-'] then -(digitsValue n.exp : ℤ) else digitsValue n.exp

theorem someDigits_digits {x : Str} (h : Digits x) : B64.someDigits x = some (digitsValue x) := by
  unfold B64.someDigits
  rw [if_pos ⟨h.1, by rw [List.all_eq_true]; exact fun c hc => isDigit_iff'.2 (h.2 c hc)⟩]
  rfl

theorem exponentOf_number {n : Number} (h : (n.mark = [] ∧ n.exp = []) ∨
    (n.mark ∈ [['e'], ['E'], ['e', '+'], ['E', '+'], ['e', '-'], ['E', '-']] ∧ Digits n.exp)) :
    B64.exponentOf (n.mark ++ n.exp) = some n.exponent := by
  unfold Number.exponent
  rcases h with ⟨h1, h2⟩ | ⟨hm, hx⟩
  · rw [h1, h2]; rfl
  · have hd := someDigits_digits hx
    obtain ⟨d, x', e⟩ := List.exists_cons_of_ne_nil hx.1
    have hd' := hx.2 d (by rw [e]; simp)
    have hp : d ≠ '+' := by rintro rfl; revert hd'; decide
    have hq : d ≠ '-' := by rintro rfl; revert hd'; decide
    simp only [List.mem_cons, List.not_mem_nil, or_false] at hm
    rcases hm with h | h | h | h | h | h <;> rw [h]
    · rw [e] at hd ⊢
      simp only [List.cons_append, List.nil_append, B64.exponentOf]
      split
      · rename_i heq; simp_all
      · rename_i heq; simp_all
    · rw [e] at hd ⊢
      simp only [List.cons_append, List.nil_append, B64.exponentOf]
      split
      · rename_i heq; simp_all
      · rename_i heq; simp_all
    all_goals simp [B64.exponentOf, hd]

/-- A JSON number is read as its significand times a power of ten. -/
theorem float_number {n : Number} (h : n.WF) (hs : n.significand < 2 ^ 64) :
    float n.text = (scaled (n.power.natAbs + 1) (B64.lit n.significand) n.power).map fun f => if n.neg then f.neg else f := by
  obtain ⟨hw, h0, hf, he⟩ := h
  have hexp := exponentOf_number he
  have halt1 : Halt (n.mark ++ n.exp) ∧ ∀ c ∈ (n.mark ++ n.exp).head?, c ≠ '.' := by
    rcases he with ⟨h1, h2⟩ | ⟨hm, hx⟩
    · rw [h1, h2]; exact ⟨fun c hc => by simp at hc, fun c hc => by simp at hc⟩
    · simp only [List.mem_cons, List.not_mem_nil, or_false] at hm
      rcases hm with h | h | h | h | h | h <;> rw [h] <;> refine ⟨fun c hc => ?_, fun c hc => ?_⟩ <;>
        · simp at hc; subst hc; decide
  have hfr : B64.fractionOf ((if n.frac = [] then [] else '.' :: n.frac) ++ (n.mark ++ n.exp)) = (n.frac, n.mark ++ n.exp) := by
    by_cases hz : n.frac = []
    · rw [if_pos hz, hz, List.nil_append]
      unfold B64.fractionOf
      split
      · rename_i s heq; exact absurd rfl (halt1.2 '.' (by rw [heq]; simp))
      · rfl
    · rcases hf with hf | hf
      · exact absurd hf hz
      · obtain ⟨h1, h2⟩ := takeDigits hf.2 halt1.1
        rw [if_neg hz, List.cons_append, B64.fractionOf, h1, h2]
  have halt2 : Halt ((if n.frac = [] then [] else '.' :: n.frac) ++ (n.mark ++ n.exp)) := by
    by_cases h : n.frac = []
    · rw [if_pos h]; exact halt1.1
    · rw [if_neg h]; intro c hc; simp at hc; subst hc; decide
  obtain ⟨hw1, hw2⟩ := takeDigits hw.2 halt2
  have hneg : (n.text.head? == some '-') = n.neg ∧ (if n.neg then n.text.drop 1 else n.text) =
      n.whole ++ ((if n.frac = [] then [] else '.' :: n.frac) ++ (n.mark ++ n.exp)) := by
    unfold Number.text
    cases n.neg with
    | true => simp
    | false =>
      refine ⟨?_, by simp⟩
      obtain ⟨d, w, hd⟩ := List.exists_cons_of_ne_nil hw.1
      rw [hd]
      simp only [Bool.false_eq_true, if_false, List.nil_append, List.cons_append, List.head?_cons, beq_eq_false_iff_ne, ne_eq, Option.some_inj]
      rintro rfl
      have := hw.2 '-' (by rw [hd]; simp)
      revert this; decide
  have hsig : n.significand = digitsValue n.whole * 10 ^ n.frac.length + digitsValue n.frac := B64.digitsValue_append _ _
  have hlt : digitsValue n.whole < 2 ^ 64 := by
    have : 0 < 10 ^ n.frac.length := by positivity
    nlinarith
  have f1 : fill 0 n.whole = (digitsValue n.whole, n.whole.length) := by rw [fill_all (by simpa using hlt)]; simp
  have f2 : fill (digitsValue n.whole) n.frac = (n.significand, n.frac.length) := by rw [fill_all (by omega), hsig]
  unfold float
  simp only [hneg.1, hneg.2, hw1, hw2, hfr, hexp, f1, f2]
  have e : (((n.whole.length - n.whole.length : ℕ) : ℤ) - (n.frac.length : ℤ) + n.exponent) = n.power := by
    unfold Number.power Number.exponent; simp; ring
  rw [e]

theorem neg_of_zero {q : ℚ} (h : 0 ≤ q) : (B64.of false q).neg = B64.of true (-q) := by
  rcases h.lt_or_eq with h | rfl
  · have h1 : ¬ q < 0 := not_lt.2 h.le
    have h2 : -q < 0 := by linarith
    unfold B64.of
    rw [if_neg h1, if_pos h, if_pos h2, neg_neg]
    unfold B64.round
    split <;> rfl
  · simp [B64.of, B64.zero, B64.neg]

/-- The powers of ten up to 10^22 are doubles. -/
theorem isDouble_ten {k : ℕ} (h : k ≤ 22) : IsDouble ((10 : ℚ) ^ k) := by
  refine ⟨5 ^ k, k, ?_, by omega, by omega, ?_⟩
  · rw [abs_of_nonneg (by positivity)]
    exact lt_of_le_of_lt (pow_le_pow_right₀ (by norm_num) h) (by norm_num)
  · rw [zpow_natCast, show (10 : ℚ) = 5 * 2 by norm_num, mul_pow]; push_cast; ring

theorem isDouble_nat {n : ℕ} (h : n ≤ 2 ^ 53) : IsDouble (n : ℚ) := by
  have := B64.isDouble_int (n := n) (by rw [abs_of_nonneg (by omega)]; exact_mod_cast h)
  simpa using this

open B64 in
/-- A JSON number with a small significand and a small exponent is read as the double nearest to it. -/
theorem float_nearest {n : Number} (h : n.WF) (hs : n.significand ≤ 2 ^ 53) (hp : n.power.natAbs ≤ 22) :
    float n.text = some (of n.neg n.value) := by
  rw [float_number h (lt_of_le_of_lt hs (by norm_num))]
  obtain ⟨l1, l2⟩ := lit_double (isDouble_nat hs)
  obtain ⟨t1, t2⟩ := lit_double (isDouble_ten hp)
  have ls : (lit (n.significand : ℚ)).sign = false := by
    have := of_sign false (n.significand : ℚ)
    rcases (Nat.cast_nonneg (α := ℚ) n.significand).lt_or_eq with h | h
    · exact this.2.1 h
    · exact this.2.2 h.symm
  have ts : (lit ((10 : ℚ) ^ n.power.natAbs)).sign = false := (of_sign false _).2.1 (by positivity)
  have key : scaled (n.power.natAbs + 1) (lit n.significand) n.power = some (of false ((n.significand : ℚ) * 10 ^ n.power)) := by
    unfold scaled
    rw [if_pos (by omega)]
    by_cases h0 : 0 ≤ n.power
    · have e : (10 : ℚ) ^ n.power = 10 ^ n.power.natAbs := by rw [← zpow_natCast, Int.natAbs_of_nonneg h0]
      have hm : mul (lit (n.significand : ℚ)) (lit ((10 : ℚ) ^ n.power.natAbs)) = of false ((n.significand : ℚ) * 10 ^ n.power) := by
        rw [mul_fin l1 t1, l2, t2, ls, ts, e]; rfl
      rw [if_pos h0, hm, if_neg]
      have hsmall : ¬ TooLarge ((n.significand : ℚ) * 10 ^ n.power) := by
        refine small_between (hi := ((2 ^ 52 : ℤ) : ℚ) * 2 ^ (100 : ℤ)) ⟨2 ^ 52, 100, by norm_num, by norm_num, by norm_num, rfl⟩ ?_
        rw [e, abs_of_nonneg (by positivity), abs_of_nonneg (by norm_num)]
        have h1 : (n.significand : ℚ) ≤ 2 ^ 53 := by exact_mod_cast hs
        have h2 : (10 : ℚ) ^ n.power.natAbs ≤ 10 ^ 22 := pow_le_pow_right₀ (by norm_num) hp
        calc (n.significand : ℚ) * 10 ^ n.power.natAbs ≤ 2 ^ 53 * 10 ^ 22 := mul_le_mul h1 h2 (by positivity) (by positivity)
          _ ≤ _ := by norm_num
      have := (of_fin false hsmall).1
      intro hi
      rw [this.2] at hi; cases hi
    · have e : (10 : ℚ) ^ n.power = (10 ^ n.power.natAbs)⁻¹ := by
        rw [← zpow_natCast, ← zpow_neg]; congr 1; omega
      rw [if_neg h0, div_fin l1 t1 (by rw [t2]; positivity), l2, t2, ls, ts, e, ← div_eq_mul_inv]; rfl
  rw [key]
  unfold Number.value
  have h0 : 0 ≤ (n.significand : ℚ) * 10 ^ n.power := mul_nonneg (by positivity) (zpow_nonneg (by norm_num) _)
  cases n.neg with
  | false => rfl
  | true => simp only [Option.map_some, if_true, neg_of_zero h0, neg_mul]

end Prexel.Json
