import Mathlib.Tactic.Linarith
import Mathlib.Tactic.NormNum
import Mathlib.Tactic.Positivity
import Mathlib.Tactic.Ring
import Mathlib.Tactic.FieldSimp
import Mathlib.Data.Rat.Floor
import Mathlib.Algebra.Order.Floor.Ring
import Verif.Lemmas.DecimalSafe
/-!
# How far a rounded decimal is from the exact value
-/

set_option linter.unusedVariables false

namespace Prexel
variable {D F : Type} {d : Dec D F}

theorem bounded_abs {b q : Rat} : Bounded b q ↔ |q| ≤ b := by
  unfold Bounded; rw [abs_le]

theorem maxDecimal_eq : maxDecimal = 79228162514264337593543950335 := by unfold maxDecimal; norm_num

/-- With `s` digits behind the point the error is at most one in the last of them. -/
theorem Rounded.near_scale {z q : Rat} (h : Rounded z q) (s : Nat) (hs : s ≤ 28) (hq : |q| * 10 ^ s ≤ 2 ^ 96 - 2) : |z - q| ≤ 1 / 10 ^ s := by
  have hp : (0 : Rat) < 10 ^ s := by positivity
  have hq' : |q * 10 ^ s| ≤ 2 ^ 96 - 2 := by rw [abs_mul, abs_of_pos hp]; exact hq
  rw [abs_le] at hq'
  have rep : ∀ c : Int, c.natAbs < 2 ^ 96 → Representable ((c : Rat) / 10 ^ s) := by
    intro c hc
    refine ⟨s, hs, c, hc, ?_⟩
    push_cast
    field_simp
  have f1 := Int.floor_le (q * 10 ^ s)
  have f2 := Int.lt_floor_add_one (q * 10 ^ s)
  have c1 : (-(2 ^ 96 - 2) : Int) ≤ ⌊q * 10 ^ s⌋ := by
    rw [Int.le_floor]; push_cast; linarith
  have c2 : ⌊q * 10 ^ s⌋ ≤ (2 ^ 96 - 2 : Int) := by
    have : ((⌊q * 10 ^ s⌋ : Int) : Rat) ≤ ((2 ^ 96 - 2 : Int) : Rat) := by push_cast; linarith
    exact_mod_cast this
  have r1 := (h _ (rep ⌊q * 10 ^ s⌋ (by omega))).1 (by rw [div_le_iff₀ hp]; exact f1)
  have r2 := (h _ (rep (⌊q * 10 ^ s⌋ + 1) (by omega))).2 (by rw [le_div_iff₀ hp]; push_cast; exact f2.le)
  rw [div_le_iff₀ hp] at r1
  rw [le_div_iff₀ hp] at r2
  push_cast at r2
  rw [abs_le, neg_le_sub_iff_le_add, sub_le_iff_le_add]
  constructor
  · rw [← mul_le_mul_iff_of_pos_right hp, add_mul, one_div, inv_mul_cancel₀ hp.ne']; linarith
  · rw [← mul_le_mul_iff_of_pos_right hp, add_mul, one_div, inv_mul_cancel₀ hp.ne']; linarith

/-- The relative rounding error. -/
def unit : Rat := 2 / 10 ^ 28

theorem near_from {z q a : Rat} (h : Rounded z q) (h1 : 1 ≤ a) (ha : |q| ≤ a) (k : Nat) : ∀ s, s + k = 28 → |q| * 10 ^ s ≤ 2 ^ 96 - 2 →
    |z - q| ≤ unit * a := by
  induction k with
  | zero =>
    intro s hs hq
    have : s = 28 := by omega
    subst this
    have := h.near_scale 28 (by omega) hq
    unfold unit
    linarith
  | succ k ih =>
    intro s hs hq
    by_cases hq' : |q| * 10 ^ (s + 1) ≤ 2 ^ 96 - 2
    · exact ih (s + 1) (by omega) hq'
    · refine (h.near_scale s (by omega) hq).trans ?_
      have hp : (0 : Rat) < 10 ^ s := by positivity
      rw [div_le_iff₀ hp]
      push Not at hq'
      have e : (10 : Rat) ^ (s + 1) = 10 ^ s * 10 := pow_succ _ _
      rw [e] at hq'
      have : |q| * 10 ^ s ≤ a * 10 ^ s := mul_le_mul_of_nonneg_right ha hp.le
      unfold unit
      nlinarith

/-- The error is at most `unit` times the size. -/
theorem Rounded.near {z q : Rat} (h : Rounded z q) (hq : |q| ≤ maxDecimal) {a : Rat} (h1 : 1 ≤ a) (ha : |q| ≤ a) : |z - q| ≤ unit * a := by
  by_cases hs : |q| * 10 ^ 0 ≤ 2 ^ 96 - 2
  · exact near_from h h1 ha 28 0 rfl hs
  · rw [pow_zero, mul_one] at hs
    push Not at hs
    rw [maxDecimal_eq] at hq
    have key : |z - q| ≤ 1 := by
      have big : Representable (79228162514264337593543950335 : Rat) := by decide +kernel
      have less : Representable (79228162514264337593543950334 : Rat) := by decide +kernel
      have big' : Representable (-79228162514264337593543950335 : Rat) := by decide +kernel
      have less' : Representable (-79228162514264337593543950334 : Rat) := by decide +kernel
      rcases abs_cases q with ⟨e, h0⟩ | ⟨e, h0⟩ <;> rw [e] at hs hq
      · have a1 := (h _ big).2 hq
        have a2 := (h _ less).1 (by linarith)
        rw [abs_le]; constructor <;> linarith
      · have a1 := (h _ big').1 (by linarith)
        have a2 := (h _ less').2 (by linarith)
        rw [abs_le]; constructor <;> linarith
    refine key.trans ?_
    unfold unit
    linarith

namespace Dec.Laws
variable (L : d.Laws)
include L

/-- What a sum of moderate size gives. -/
theorem cadd_near {x y : D} {a : Rat} (h1 : 1 ≤ a) (ha : |L.val x + L.val y| ≤ a) (hm : a ≤ 79 * 10 ^ 27) :
    ∃ z, d.cadd x y = .ok z ∧ |L.val z - (L.val x + L.val y)| ≤ unit * a ∧ Rounded (L.val z) (L.val x + L.val y) := by
  have hb : |L.val x + L.val y| ≤ maxDecimal := by rw [maxDecimal_eq]; linarith
  obtain ⟨z, hz, hr⟩ := L.add x y (bounded_abs.mpr hb)
  exact ⟨z, by simp [Dec.cadd, hz, Ops.orOverflow, Res.ofOption], hr.near hb h1 ha, hr⟩

theorem csub_near {x y : D} {a : Rat} (h1 : 1 ≤ a) (ha : |L.val x - L.val y| ≤ a) (hm : a ≤ 79 * 10 ^ 27) :
    ∃ z, d.csub x y = .ok z ∧ |L.val z - (L.val x - L.val y)| ≤ unit * a ∧ Rounded (L.val z) (L.val x - L.val y) := by
  have hb : |L.val x - L.val y| ≤ maxDecimal := by rw [maxDecimal_eq]; linarith
  obtain ⟨z, hz, hr⟩ := L.sub x y (bounded_abs.mpr hb)
  exact ⟨z, by simp [Dec.csub, hz, Ops.orOverflow, Res.ofOption], hr.near hb h1 ha, hr⟩

theorem cmul_near {x y : D} {a : Rat} (h1 : 1 ≤ a) (ha : |L.val x * L.val y| ≤ a) (hm : a ≤ 79 * 10 ^ 27) :
    ∃ z, d.cmul x y = .ok z ∧ |L.val z - L.val x * L.val y| ≤ unit * a ∧ Rounded (L.val z) (L.val x * L.val y) := by
  have hb : |L.val x * L.val y| ≤ maxDecimal := by rw [maxDecimal_eq]; linarith
  obtain ⟨z, hz, hr⟩ := L.mul x y (bounded_abs.mpr hb)
  exact ⟨z, by simp [Dec.cmul, hz, Ops.orOverflow, Res.ofOption], hr.near hb h1 ha, hr⟩

theorem cdiv_near {x y : D} {a : Rat} (h0 : L.val y ≠ 0) (h1 : 1 ≤ a) (ha : |L.val x / L.val y| ≤ a) (hm : a ≤ 79 * 10 ^ 27) :
    ∃ z, d.cdiv x y = .ok z ∧ |L.val z - L.val x / L.val y| ≤ unit * a ∧ Rounded (L.val z) (L.val x / L.val y) := by
  have hb : |L.val x / L.val y| ≤ maxDecimal := by rw [maxDecimal_eq]; linarith
  obtain ⟨z, hz, hr⟩ := L.div x y h0 (bounded_abs.mpr hb)
  exact ⟨z, by simp [Dec.cdiv, hz, Ops.orOverflow, Res.ofOption], hr.near hb h1 ha, hr⟩

end Dec.Laws
end Prexel
