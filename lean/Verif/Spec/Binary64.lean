import Mathlib.Data.Rat.Defs
import Mathlib.Algebra.Order.Field.Rat
import Mathlib.Algebra.Order.Group.Unbundled.Abs
import Verif.Model.Binary64
import Verif.Spec.Decimal
/-!
# Specification: the numbers of IEEE 754 binary64, and rounding to them
-/

namespace Prexel

/-- A number that IEEE 754 binary64 has: at most 53 binary digits, exponents from -1074 to 971. -/
def IsDouble (q : ℚ) : Prop := ∃ m e : ℤ, |m| < 2 ^ 53 ∧ -1074 ≤ e ∧ e ≤ 971 ∧ q = m * 2 ^ e

/-- Too large to be rounded to a double: not below the middle between the largest double and 2^1024. -/
def TooLarge (q : ℚ) : Prop := 2 ^ 1024 - 2 ^ 970 ≤ |q|

/-- `r` is the double nearest to `q`; if another one is as near, `r` is an even multiple of the distance between the two. -/
def NearestDouble (r q : ℚ) : Prop :=
  IsDouble r ∧ ∀ s, IsDouble s → |q - r| ≤ |q - s| ∧ (|q - r| = |q - s| → s ≠ r → ∃ k : ℤ, r = 2 * k * |s - r|)

/-- Neither infinite nor NaN. -/
def B64.isFin (x : B64) : Prop := x.isNan = false ∧ x.isInf = false

/-- `x` is `q`, rounded as IEEE 754 requires: the nearest double, or, if `q` is too large, the infinity with its sign. A result that is rounded to
zero keeps the sign of `q`. -/
def RoundedTo (q : ℚ) (x : B64) : Prop :=
  (¬ TooLarge q → x.isFin ∧ NearestDouble x.val q) ∧ (TooLarge q → x = .inf (decide (q < 0))) ∧
  (q < 0 → x.sign = true) ∧ (0 < q → x.sign = false)

/-- The whole part of a number: towards zero. -/
def towardsZero (q : ℚ) : ℤ := if q < 0 then ⌈q⌉ else ⌊q⌋

/-- Every number in the tree is finite, and every part of the tree that has a value has one that is a double. -/
def Arith.AllDoubles : Arith B64 → Prop
  | .num n => n.isFin
  | .neg e => e.AllDoubles
  | .fact e => e.AllDoubles
  | .bin o l r => l.AllDoubles ∧ r.AllDoubles ∧ ∀ q, (Arith.bin o l r).ratValue B64.val = some q → IsDouble q

end Prexel
