import Verif.Examples.Numbers
import Verif.Model.Wrapped
/-!
# A floating point type with NaN for the examples
-/

namespace Prexel.Demo

/-- Exact rational numbers and NaN. -/
abbrev Flt := Option Rat

/-- An operation that gives NaN for NaN. -/
def lift1 (g : Rat → Rat) (x : Flt) : Flt := x.map g
/-- See `lift1`. -/
def lift2 (g : Rat → Rat → Rat) (x y : Flt) : Flt := x.bind fun a => y.map (g a)

/-- Rational numbers as floating point numbers, with pi = 3; the transcendental functions are replaced by simple ones. -/
def flt : F64 Flt where
  isNan x := x.isNone
  isInfinite _ := false
  isZero x := x == some 0
  isSignNegative x := match x with | some q => decide (q < 0) | none => false
  lt x y := match x, y with | some a, some b => decide (a < b) | _, _ => false
  add := lift2 (· + ·)
  sub := lift2 (· - ·)
  mul := lift2 (· * ·)
  inv x := x.bind fun q => if q = 0 then none else some (1 / q)
  abs := lift1 fun q => if q < 0 then -q else q
  one := some 1
  pi := some 3
  e := some 2
  error := some (1 / 10000000000)
  gamma _ := some 1
  powf x y := x.bind fun a => y.map fun b => a ^ b.num.toNat
  log10 x := x.bind fun q => if q ≤ 0 then none else some (q - 1)
  log x y := x.bind fun q => y.bind fun b => if q ≤ 0 ∨ b ≤ 0 then none else some (q - b)
  atan2 := lift2 fun y x => y - x
  toDegrees := lift1 (· * 60)
  toRadians := lift1 (· / 60)
  floor := lift1 fun q => q.floor
  ceil := lift1 fun q => q.ceil
  trunc := lift1 fun q => if q < 0 then q.ceil else q.floor
  round := lift1 fun q => (q + 1 / 2).floor
  signum := lift1 fun q => if q < 0 then -1 else 1
  sqrt x := x.bind fun q => if q < 0 then none else some q
  exp := lift1 (· + 1)
  ln x := x.bind fun q => if q ≤ 0 then none else some (q - 1)
  sin := id
  cos := lift1 (1 - ·)
  tan := lift1 (2 * ·)
  asin x := x.bind fun q => if q < -1 ∨ 1 < q then none else some q
  acos x := x.bind fun q => if q < -1 ∨ 1 < q then none else some (1 - q)
  atan := lift1 (· / 2)
  sinh := lift1 (2 * ·)
  cosh := lift1 fun q => q * q + 1
  tanh := lift1 (3 * ·)
  asinh := lift1 (· / 2)
  acosh x := x.bind fun q => if q < 1 then none else some (q - 1)
  atanh := lift1 (· / 3)
  random := some (1 / 4)

/-- What else the operators use. -/
def fltNum : FloatNum Flt where
  zero := some 0
  isOne x := x == some 1
  ge x y := match x, y with | some a, some b => decide (b ≤ a) | _, _ => false
  div := lift2 (· / ·)
  rem := lift2 fun a b => a - b * (a / b).floor
  neg := lift1 (- ·)
  ofNat n := some n
  fuel x := match x with | some q => q.floor.toNat | none => 0

end Prexel.Demo
