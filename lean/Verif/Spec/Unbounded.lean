import Verif.Spec.Arith
import Verif.Model.Numeric
import Mathlib.Data.Nat.Factorial.Basic
import Mathlib.Data.Rat.Floor
/-!
# Specification: number types that compute exactly
-/

namespace Prexel
variable {N F : Type}

/-- A number type whose numbers are rationals and whose sums, differences and products are exact, without any bound. -/
structure Num.Unbounded (num : Num N F) (val : N → ℚ) : Prop where
  zero : val num.zero = 0
  one : val num.one = 1
  isZero : ∀ x, num.isZero x = true ↔ val x = 0
  isOne : ∀ x, num.isOne x = true ↔ val x = 1
  lt : ∀ x y, num.lt x y = true ↔ val x < val y
  ge : ∀ x y, num.ge x y = true ↔ val y ≤ val x
  add : ∀ x y, ∃ z, num.add x y = .ok z ∧ num.checkedAdd x y = some z ∧ val z = val x + val y
  sub : ∀ x y, ∃ z, num.sub x y = .ok z ∧ num.checkedSub x y = some z ∧ val z = val x - val y
  mul : ∀ x y, ∃ z, num.mul x y = .ok z ∧ num.checkedMul x y = some z ∧ val z = val x * val y
  neg : ∀ x, ∃ z, num.neg x = .ok z ∧ num.checkedNeg x = some z ∧ val z = -val x
  /-- The loop of factorials is allowed as many rounds as it needs. -/
  fuel : ∀ x, val x ≤ num.fuel x

/-- The value of a tree of sums, differences, products, signs and factorials in school arithmetic; a factorial of a negative number is the error
`NegativeValue`. Nothing is said (`none`) about other operators and about factorials of numbers that are not whole. -/
def Arith.ideal (val : N → ℚ) : Arith N → Option (Res ℚ)
  | .num n => some (.ok (val n))
  | .neg e => (e.ideal val).map fun r => r.bind fun x => .ok (-x)
  | .fact e => (e.ideal val).bind fun
    | .ok x => if x < 0 then some (.err .negativeValue) else if x.den = 1 then some (.ok (x.num.toNat.factorial : ℕ)) else none
    | r => some r
  | .bin o l r => (l.ideal val).bind fun a => (r.ideal val).bind fun b => match o with
    | .add => some (a.bind fun x => b.bind fun y => .ok (x + y))
    | .sub => some (a.bind fun x => b.bind fun y => .ok (x - y))
    | .mul => some (a.bind fun x => b.bind fun y => .ok (x * y))
    | _ => none

end Prexel
