import Verif.Props.Decimal
import Verif.Lemmas.DecimalLog
/-!
# Logarithms of decimals (C92, C93)

`Real.log` is the natural logarithm of Mathlib and `Real.logb 10` the logarithm to base ten.
-/

set_option linter.unusedVariables false

namespace Prexel
variable {D F : Type} {d : Dec D F}

/-! ## C92: natural logarithms -/

/-- C92 for numbers from 1/10 on: the logarithm is correct to 2·10^-16. -/
theorem C92_ln_partial (K : Keys) (debug : Bool) (L : d.Laws) (hfuel : 100 ≤ d.fuel) (f : F64 F) (config : Config) (c : Context D)
    (hc : d.context K debug f config = .ok c) (os : List (Op D)) (x : D) (hx : 1 / 10 ≤ L.val x) :
    ∃ z, evalTokens ((c.runAll K debug os).view K) (callTokens (str "ln") [x]) = .ok z ∧
      |(L.val z : ℝ) - Real.log (L.val x : ℝ)| ≤ 2 / 10 ^ 16 := by
  rw [decimal_call hc os (g := _) rfl]
  exact L.ln_near hfuel hx

/-- Numbers that are not positive have no logarithm; that of 1 is 0. -/
theorem C92_ln_ends (K : Keys) (debug : Bool) (L : d.Laws) (f : F64 F) (config : Config) (c : Context D)
    (hc : d.context K debug f config = .ok c) (os : List (Op D)) (x : D) :
    (L.val x ≤ 0 → evalTokens ((c.runAll K debug os).view K) (callTokens (str "ln") [x]) = .err .overflow) ∧
    (L.val x = 1 → ∃ z, evalTokens ((c.runAll K debug os).view K) (callTokens (str "ln") [x]) = .ok z ∧ L.val z = 0) := by
  rw [decimal_call hc os (g := _) rfl]
  show (_ → d.ln x = _) ∧ (_ → ∃ z, d.ln x = _ ∧ _)
  unfold Dec.ln Dec.lnDepth
  constructor
  · intro h
    have : d.lt d.zero x = false := by rw [Bool.eq_false_iff]; intro h'; rw [L.lt, L.zero_val] at h'; linarith
    rw [this, if_pos (by simp)]
  · intro h
    have : d.lt d.zero x = true := by rw [L.lt, L.zero_val, h]; norm_num
    rw [this, if_neg (by simp), if_pos ((L.isOne x).mpr h)]
    exact ⟨d.zero, rfl, L.zero_val⟩

/-- C92 is false: for every number up to 10^-4 the result is too large by more than 1. -/
theorem C92_ln_counterexample (K : Keys) (debug : Bool) (L : d.Laws) (f : F64 F) (config : Config) (c : Context D)
    (hc : d.context K debug f config = .ok c) (os : List (Op D)) (x : D) (h0 : 0 < L.val x) (h1 : L.val x ≤ 1 / 10 ^ 4) :
    ∃ z, evalTokens ((c.runAll K debug os).view K) (callTokens (str "ln") [x]) = .ok z ∧
      Real.log (L.val x : ℝ) + 1 ≤ (L.val z : ℝ) := by
  rw [decimal_call hc os (g := _) rfl]
  obtain ⟨z, hz, h⟩ := L.ln_floor h0 (lt_of_le_of_lt h1 (by norm_num))
  refine ⟨z, hz, ?_⟩
  have hR : (L.val x : ℝ) ≤ 1 / 10 ^ 4 := by
    have := (Rat.cast_le (K := ℝ)).mpr h1
    push_cast at this
    exact this
  have := log_lt_of_small (by exact_mod_cast h0) hR
  have hz : (-8 : ℝ) ≤ L.val z := by exact_mod_cast h
  linarith

/-- `ln(2)` is correct, `ln(0.0001)` is not. -/
example : ∃ c, Demo.dec.context Demo.keys true Demo.float Config.new = .ok c ∧
    (∃ z, evalTokens (c.view Demo.keys) (callTokens (str "ln") [Demo.decimal 2]) = .ok z ∧ |(z.1 : ℝ) - Real.log 2| ≤ 2 / 10 ^ 16) ∧
    (∃ z, evalTokens (c.view Demo.keys) (callTokens (str "ln") [Demo.decimal 1 4]) = .ok z ∧ -8.3 ≤ (z.1 : ℝ)) ∧
    evalTokens (c.view Demo.keys) (callTokens (str "ln") [Demo.decimal 0]) = .err .overflow := by
  obtain ⟨c, hc, -⟩ := decimal_build Demo.keys true Demo.dec Demo.float Config.new
  have h2 : (Demo.decimal 2).1 = 2 := by decide +kernel
  have h4 : (Demo.decimal 1 4).1 = 1 / 10 ^ 4 := by decide +kernel
  have h0 : (Demo.decimal 0).1 = 0 := by decide +kernel
  refine ⟨c, hc, ?_, ?_, (C92_ln_ends Demo.keys true Demo.decLaws Demo.float Config.new c hc [] (Demo.decimal 0)).1 (le_of_eq h0)⟩
  · obtain ⟨z, hz, hn⟩ := C92_ln_partial Demo.keys true Demo.decLaws (le_refl 100) Demo.float Config.new c hc [] (Demo.decimal 2)
      (by show _ ≤ (Demo.decimal 2).1; rw [h2]; norm_num)
    refine ⟨z, hz, ?_⟩
    have hn : |(z.1 : ℝ) - Real.log ((Demo.decimal 2).1 : ℝ)| ≤ _ := hn
    rw [h2] at hn
    push_cast at hn
    exact hn
  · obtain ⟨z, hz, hn⟩ := C92_ln_counterexample Demo.keys true Demo.decLaws Demo.float Config.new c hc [] (Demo.decimal 1 4)
      (by show 0 < (Demo.decimal 1 4).1; rw [h4]; norm_num) (le_of_eq h4)
    refine ⟨z, hz, ?_⟩
    have hn : Real.log ((Demo.decimal 1 4).1 : ℝ) + 1 ≤ (z.1 : ℝ) := hn
    rw [h4] at hn
    push_cast at hn
    rw [one_div, Real.log_inv, Real.log_pow] at hn
    have := (abs_le.mp log_ten_near).2
    push_cast at hn
    norm_num at hn this ⊢
    linarith

/-! ## C93: logarithms to a base -/

/-- C93: the logarithm to another base than ten is the quotient of the natural logarithms, as `ln` and `/` evaluate them. -/
theorem C93_log_quotient (K : Keys) (debug : Bool) (L : d.Laws) (f : F64 F) (config : Config) (c : Context D)
    (hc : d.context K debug f config = .ok c) (os : List (Op D)) (x b : D) (hb : L.val b ≠ 10) :
    evalTokens ((c.runAll K debug os).view K) (callTokens (str "log") [x, b]) =
      ((evalTokens ((c.runAll K debug os).view K) (callTokens (str "ln") [x])).bind fun y =>
        (evalTokens ((c.runAll K debug os).view K) (callTokens (str "ln") [b])).bind fun z =>
          evalTokens ((c.runAll K debug os).view K) (infixTokens y ['/'] z)) := by
  have hd : ∀ y z, evalTokens ((c.runAll K debug os).view K) (infixTokens y ['/'] z) = d.cdiv y z := fun y z => by
    rw [decimal_infix hc os (g := _) rfl]; rfl
  simp only [hd]
  rw [decimal_call hc os (g := _) rfl, decimal_call hc os (name := str "ln") (g := _) rfl, decimal_call hc os (name := str "ln") (g := _) rfl]
  show d.log x b = (d.ln x).bind fun y => (d.ln b).bind fun z => d.cdiv y z
  unfold Dec.log
  have he : ¬ d.eq b d.ten = true := by rw [L.eq, L.ten_val]; exact hb
  simp only [he]
  rfl

/-- C93 for base ten and numbers from 1/10 on, with the base written or not: correct to 10^-16. -/
theorem C93_log_ten_partial (K : Keys) (debug : Bool) (L : d.Laws) (hfuel : 100 ≤ d.fuel) (f : F64 F) (config : Config) (c : Context D)
    (hc : d.context K debug f config = .ok c) (os : List (Op D)) (x : D) (hx : 1 / 10 ≤ L.val x) (b : D) (hb : L.val b = 10) :
    ∃ z, evalTokens ((c.runAll K debug os).view K) (callTokens (str "log") [x]) = .ok z ∧
      evalTokens ((c.runAll K debug os).view K) (callTokens (str "log") [x, b]) = .ok z ∧
      |(L.val z : ℝ) - Real.logb 10 (L.val x : ℝ)| ≤ 1 / 10 ^ 16 := by
  rw [decimal_call hc os (g := _) rfl, decimal_call hc os (g := _) rfl]
  obtain ⟨z, hz, h⟩ := L.log_near hfuel hx
  refine ⟨z, hz, ?_, h⟩
  rw [← hz]
  show d.log x b = d.log x d.ten
  unfold Dec.log
  have h1 : d.eq b d.ten = true := by rw [L.eq, L.ten_val]; exact hb
  have h2 : d.eq d.ten d.ten = true := by rw [L.eq]
  simp only [h1, h2, if_true]

/-- The logarithms of powers of ten: exact up to 1000, and correct to 10^-25. -/
theorem C93_log_power_partial (K : Keys) (debug : Bool) (L : d.Laws) (hfuel : 100 ≤ d.fuel) (f : F64 F) (config : Config) (c : Context D)
    (hc : d.context K debug f config = .ok c) (os : List (Op D)) (x : D) (n : Nat) (hn : n ≤ 28) (hx : L.val x = 10 ^ n) :
    ∃ z, evalTokens ((c.runAll K debug os).view K) (callTokens (str "log") [x]) = .ok z ∧
      |L.val z - n| ≤ 1 / 10 ^ 25 ∧ (n ≤ 3 → L.val z = n) := by
  rw [decimal_call hc os (g := _) rfl]
  obtain ⟨b, z, e, k1, n1, k2, n2⟩ := L.log_ten_pow hfuel hn hx
  have u : unit = 2 / 10 ^ 28 := rfl
  refine ⟨z, e, ?_, fun h3 => ?_⟩
  · rw [L.ln10_val, u] at n1 n2
    have h : |L.val b / (23025850929940456840179914546 / 10 ^ 28) - n| ≤ 1 / 10 ^ 26 := by
      have : L.val b / (23025850929940456840179914546 / 10 ^ 28) - n = (L.val b - 23025850929940456840179914546 / 10 ^ 28 * n) / (23025850929940456840179914546 / 10 ^ 28) := by
        field_simp
      rw [this, abs_div, abs_of_pos (show (0 : Rat) < 23025850929940456840179914546 / 10 ^ 28 by norm_num), div_le_iff₀ (by norm_num)]
      exact n1.trans (by norm_num)
    rw [abs_le] at h n2 ⊢
    constructor <;> linarith
  · have hb : L.val b = L.val d.ln10 * n := k1.eq (by
      rw [L.ln10_val]
      interval_cases n <;> decide +kernel)
    rw [hb, L.ln10_val, mul_div_cancel_left₀ _ (by norm_num)] at k2
    exact k2.eq (representable_nat (by omega))

/-- C93 is false: the logarithm of 10000 is never 4, however `rust_decimal` rounds. -/
theorem C93_log_counterexample (K : Keys) (debug : Bool) (L : d.Laws) (hfuel : 100 ≤ d.fuel) (f : F64 F) (config : Config) (c : Context D)
    (hc : d.context K debug f config = .ok c) (os : List (Op D)) (x : D) (hx : L.val x = 10000) :
    ∃ z, evalTokens ((c.runAll K debug os).view K) (callTokens (str "log") [x]) = .ok z ∧ L.val z ≠ 4 := by
  rw [decimal_call hc os (g := _) rfl]
  obtain ⟨b, z, e, k1, -, k2, -⟩ := L.log_ten_pow hfuel (n := 4) (by omega) (by rw [hx]; norm_num)
  refine ⟨z, e, ?_⟩
  rw [L.ln10_val] at k1 k2
  have b1 := (k1 (9210340371976182736071965818 / 10 ^ 27) (by decide +kernel)).1 (by norm_num)
  have b2 := (k1 (9210340371976182736071965819 / 10 ^ 27) (by decide +kernel)).2 (by norm_num)
  obtain ⟨m, hm⟩ : ∃ m : Int, L.val b * 10 ^ 27 = m := by
    obtain ⟨s, hs, c, hc, h⟩ := L.range b
    have hs' : s ≤ 27 := by
      by_contra hgt
      have : s = 28 := by omega
      subst this
      push_cast at h
      have hc' : (c : Rat) ≤ 2 ^ 96 := by exact_mod_cast (by omega : c ≤ 2 ^ 96)
      rw [← h] at hc'
      norm_num at hc' b1
      linarith
    refine ⟨c * 10 ^ (27 - s), ?_⟩
    push_cast at h ⊢
    rw [← h, mul_assoc, ← pow_add, Nat.add_sub_cancel' hs']
  have m1 : (9210340371976182736071965818 : Int) ≤ m := by
    have : ((9210340371976182736071965818 : Int) : Rat) ≤ m := by rw [← hm]; push_cast; linarith
    exact_mod_cast this
  have m2 : m ≤ (9210340371976182736071965819 : Int) := by
    have : (m : Rat) ≤ ((9210340371976182736071965819 : Int) : Rat) := by rw [← hm]; push_cast; linarith
    exact_mod_cast this
  have hcases : m = 9210340371976182736071965818 ∨ m = 9210340371976182736071965819 := by omega
  rcases hcases with h | h
  · have := (k2 (39999999999999999999999999999 / 10 ^ 28) (by decide +kernel)).2 (by
      rw [div_le_iff₀ (by norm_num)]
      rw [h] at hm
      push_cast at hm
      linarith)
    intro h4
    rw [h4] at this
    norm_num at this
  · have := (k2 (40000000000000000000000000001 / 10 ^ 28) (by decide +kernel)).1 (by
      rw [le_div_iff₀ (by norm_num)]
      rw [h] at hm
      push_cast at hm
      linarith)
    intro h4
    rw [h4] at this
    norm_num at this

/-- `log(1000)` is 3, `log(10000)` is not 4, and `log(x, b)` is a quotient. -/
example : ∃ c, Demo.dec.context Demo.keys true Demo.float Config.new = .ok c ∧
    (∃ z, evalTokens (c.view Demo.keys) (callTokens (str "log") [Demo.decimal 1000]) = .ok z ∧ z.1 = 3) ∧
    (∃ z, evalTokens (c.view Demo.keys) (callTokens (str "log") [Demo.decimal 10000]) = .ok z ∧ z.1 ≠ 4 ∧ |z.1 - 4| ≤ 1 / 10 ^ 25) ∧
    (∃ z, evalTokens (c.view Demo.keys) (callTokens (str "log") [Demo.decimal 2, Demo.decimal 10]) = .ok z ∧
      |(z.1 : ℝ) - Real.logb 10 2| ≤ 1 / 10 ^ 16) := by
  obtain ⟨c, hc, -⟩ := decimal_build Demo.keys true Demo.dec Demo.float Config.new
  refine ⟨c, hc, ?_, ?_, ?_⟩
  · obtain ⟨z, hz, -, h⟩ := C93_log_power_partial Demo.keys true Demo.decLaws (le_refl 100) Demo.float Config.new c hc [] (Demo.decimal 1000) 3
      (by omega) (by decide +kernel)
    exact ⟨z, hz, h le_rfl⟩
  · obtain ⟨z, hz, h⟩ := C93_log_counterexample Demo.keys true Demo.decLaws (le_refl 100) Demo.float Config.new c hc [] (Demo.decimal 10000)
      (by decide +kernel)
    obtain ⟨z', hz', h', -⟩ := C93_log_power_partial Demo.keys true Demo.decLaws (le_refl 100) Demo.float Config.new c hc [] (Demo.decimal 10000) 4
      (by omega) (by decide +kernel)
    rw [hz] at hz'
    cases hz'
    exact ⟨z, hz, h, h'⟩
  · have h2 : (Demo.decimal 2).1 = 2 := by decide +kernel
    obtain ⟨z, -, hz, hn⟩ := C93_log_ten_partial Demo.keys true Demo.decLaws (le_refl 100) Demo.float Config.new c hc [] (Demo.decimal 2)
      (by show _ ≤ (Demo.decimal 2).1; rw [h2]; norm_num) (Demo.decimal 10) (by decide +kernel)
    refine ⟨z, hz, ?_⟩
    have hn : |(z.1 : ℝ) - Real.logb 10 ((Demo.decimal 2).1 : ℝ)| ≤ _ := hn
    rw [h2] at hn
    push_cast at hn
    exact hn

end Prexel
