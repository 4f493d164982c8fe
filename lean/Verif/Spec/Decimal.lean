import Verif.Model.Decimal
import Verif.Spec.Arith
/-!
# Specification: decimals as rational numbers

The contract that `rust_decimal` documents for `Decimal`: a whole number below 2^96 divided by a power of ten up to 10^28, with a sign.
Operations are exact if the exact result is such a number; otherwise the result is one of the two such numbers next to the exact one.
-/

namespace Prexel

/-- The numbers that a decimal can have as its value. -/
def Representable (q : Rat) : Prop := ∃ s : Nat, s ≤ 28 ∧ ∃ c : Int, c.natAbs < 2 ^ 96 ∧ q * ((10 : Int) ^ s : Int) = (c : Rat)

/-- `-b ≤ q ≤ b`. -/
def Bounded (b q : Rat) : Prop := -b ≤ q ∧ q ≤ b

/-- `z` is the exact result `q` if that is representable, otherwise one of its neighbours: no representable number lies between. -/
def Rounded (z q : Rat) : Prop := ∀ r, Representable r → (r ≤ q → r ≤ z) ∧ (q ≤ r → z ≤ r)

/-- `Decimal::MAX`. -/
def maxDecimal : Rat := (2 ^ 96 - 1 : Int)

/-- Too large for a decimal. -/
def Beyond (q : Rat) : Prop := q ≤ (- 2 ^ 96 : Int) ∨ (2 ^ 96 : Int) ≤ q

/-- The whole part: towards zero. -/
def wholePart (q : Rat) : Int := if q < 0 then q.ceil else q.floor

/-- The contract of `rust_decimal`. -/
structure Dec.Laws {D F : Type} (d : Dec D F) where
  /-- The value of a decimal. Several decimals have the same value, for example `1` and `1.0`. -/
  val : D → Rat
  range : ∀ x, Representable (val x)
  nat : ∀ n : Nat, n < 2 ^ 96 → val (d.nat n) = (n : Int)
  natSign : ∀ n : Nat, d.isSignNegative (d.nat n) = false
  /-- Results in the range are rounded. -/
  add : ∀ x y, Bounded maxDecimal (val x + val y) → ∃ z, d.checkedAdd x y = some z ∧ Rounded (val z) (val x + val y)
  sub : ∀ x y, Bounded maxDecimal (val x - val y) → ∃ z, d.checkedSub x y = some z ∧ Rounded (val z) (val x - val y)
  mul : ∀ x y, Bounded maxDecimal (val x * val y) → ∃ z, d.checkedMul x y = some z ∧ Rounded (val z) (val x * val y)
  div : ∀ x y, val y ≠ 0 → Bounded maxDecimal (val x / val y) → ∃ z, d.checkedDiv x y = some z ∧ Rounded (val z) (val x / val y)
  /-- Results beyond the range are refused. -/
  addOver : ∀ x y, Beyond (val x + val y) → d.checkedAdd x y = none
  subOver : ∀ x y, Beyond (val x - val y) → d.checkedSub x y = none
  mulOver : ∀ x y, Beyond (val x * val y) → d.checkedMul x y = none
  divZero : ∀ x y, val y = 0 → d.checkedDiv x y = none
  remZero : ∀ x y, val y = 0 → d.checkedRem x y = none
  /-- The remainder of division towards zero is exact: it is no larger than either number, and needs no more digits. -/
  rem : ∀ x y, val y ≠ 0 → ∃ z, d.checkedRem x y = some z ∧ val z = val x - val y * wholePart (val x / val y)
  neg : ∀ x, val (d.neg x) = - val x
  eq : ∀ x y, d.eq x y = true ↔ val x = val y
  lt : ∀ x y, d.lt x y = true ↔ val x < val y
  isZero : ∀ x, d.isZero x = true ↔ val x = 0
  isOne : ∀ x, d.isOne x = true ↔ val x = 1
  /-- Minus zero exists, so nothing is said about zero. -/
  sign : ∀ x, (val x < 0 → d.isSignNegative x = true) ∧ (0 < val x → d.isSignNegative x = false)
  fract : ∀ x, val (d.fract x) = 0 ↔ ∃ n : Int, val x = n
  toI64 : ∀ x (n : Int), val x = n → d.toI64 x = if i64.Fits n then some n else none
  abs : ∀ x, val (d.abs x) = if val x < 0 then - val x else val x
  /-- A nearest whole number. -/
  round : ∀ x, ∃ n : Int, val (d.round x) = n ∧ Bounded (1 / 2) (val x - n)
  floor : ∀ x, ∃ n : Int, val (d.floor x) = n ∧ n ≤ val x ∧ val x < n + 1
  ceil : ∀ x, ∃ n : Int, val (d.ceil x) = n ∧ n - 1 < val x ∧ val x ≤ n
  trunc : ∀ x, val (d.trunc x) = wholePart (val x)
  roundDp : ∀ k x (n : Int), val x = n → val (d.roundDp k x) = n
  /-- The literals of prexel/src/decimal/mod.rs 28-54 and `Decimal::PI`, `TWO_PI`, `HALF_PI`, `E`. -/
  oneMinus : val d.oneMinus = (-1 : Int)
  pi : val d.pi * (10 ^ 28 : Int) = (31415926535897932384626433833 : Int)
  pi2 : val d.pi2 * (10 ^ 28 : Int) = (62831853071795864769252867666 : Int)
  pi2Minus : val d.pi2Minus * (10 ^ 28 : Int) = (-62831853071795864769252867666 : Int)
  piHalf : val d.piHalf * (10 ^ 28 : Int) = (15707963267948966192313216916 : Int)
  piQuarter : val d.piQuarter * (10 ^ 28 : Int) = (7853981633974483096156608458 : Int)
  precision : val d.precision = 1 / 10000000000000000
  half : val d.half = 1 / 2
  third : val d.third * (10 ^ 28 : Int) = (3333333333333333333333333333 : Int)
  ln10 : val d.ln10 * (10 ^ 28 : Int) = (23025850929940456840179914546 : Int)
  e : val d.e * (10 ^ 28 : Int) = (27182818284590452353602874714 : Int)
  pi3Half : val d.pi3Half * (10 ^ 28 : Int) = (47123889803846898576939650750 : Int)

/-- The contract of the conversions to and from `f64` and of `f64::sqrt` that the square root starts with: the square root of the float is
within a factor of two. -/
structure Dec.Laws.SqrtStart {D F : Type} {d : Dec D F} (L : d.Laws) (f : F64 F) : Prop where
  pos : ∀ x, 0 < L.val x → ∃ v s, d.toF64 x = some v ∧ d.fromF64 (f.sqrt v) = some s ∧ 0 < L.val s ∧
    L.val x ≤ 4 * L.val s ^ 2 ∧ L.val s ^ 2 ≤ 4 * L.val x
  zero : ∀ x, L.val x = 0 → ∃ v s, d.toF64 x = some v ∧ d.fromF64 (f.sqrt v) = some s ∧ L.val s = 0

/-- Only sums, differences, products, quotients and signs. -/
def Arith.Rational {N : Type} : Arith N → Prop
  | .num _ => True
  | .neg e => e.Rational
  | .fact _ => False
  | .bin o l r => (o = .add ∨ o = .sub ∨ o = .mul ∨ o = .div) ∧ l.Rational ∧ r.Rational

/-- The value of such a tree as a rational number, where `val` gives the value of the literals; none if a divisor is zero. -/
def Arith.ratValue {N : Type} (val : N → Rat) : Arith N → Option Rat
  | .num n => some (val n)
  | .neg e => (e.ratValue val).map fun x => -x
  | .fact _ => none
  | .bin o l r => (l.ratValue val).bind fun x => (r.ratValue val).bind fun y =>
    match o with
    | .add => some (x + y)
    | .sub => some (x - y)
    | .mul => some (x * y)
    | .div => if y = 0 then none else some (x / y)
    | _ => none

/-- Every part of the tree that has a value has a representable one. -/
def Arith.AllRepresentable {N : Type} (val : N → Rat) : Arith N → Prop
  | .num _ => True
  | .neg e => e.AllRepresentable val
  | .fact e => e.AllRepresentable val
  | .bin o l r => l.AllRepresentable val ∧ r.AllRepresentable val ∧ ∀ q, (Arith.bin o l r).ratValue val = some q → Representable q

end Prexel
