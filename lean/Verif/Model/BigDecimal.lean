import Verif.Model.Numeric
/-!
# Numbers of arbitrary precision

Models the number type of `prexel/examples/big_decimal.rs`: `BigDecimal` of the crate bigdecimal 0.1 as documented, an unbounded integer and a
scale (`i64` in the crate, unbounded here). Sums, differences and products are exact; comparison and `is_one` compare values. Quotients,
remainders and the conversions to and from `f64` are parameters, and nothing is claimed about them.
-/
namespace Prexel
variable {F : Type}

/-- `BigDecimal { int_val, scale }`, crate bigdecimal, used in prexel/examples/big_decimal.rs 1-11: the number `int * 10 ^ -scale`. -/
structure BigDec where
  int : Int
  scale : Int
  deriving DecidableEq

namespace BigDec

/-- The integer at the larger scale `s`, as in `with_scale` of the crate. -/
def at_ (x : BigDec) (s : Int) : Int := x.int * 10 ^ (s - x.scale).toNat

/-- `Add`: at the larger scale. -/
def add (x y : BigDec) : BigDec := ⟨x.at_ (max x.scale y.scale) + y.at_ (max x.scale y.scale), max x.scale y.scale⟩
/-- `Sub`: at the larger scale. -/
def sub (x y : BigDec) : BigDec := ⟨x.at_ (max x.scale y.scale) - y.at_ (max x.scale y.scale), max x.scale y.scale⟩
/-- `Mul`: the scales add up. -/
def mul (x y : BigDec) : BigDec := ⟨x.int * y.int, x.scale + y.scale⟩
/-- `Neg`. -/
def neg (x : BigDec) : BigDec := ⟨-x.int, x.scale⟩
/-- `PartialOrd::lt`, by value. -/
def lt (x y : BigDec) : Bool := decide (x.at_ (max x.scale y.scale) < y.at_ (max x.scale y.scale))

/-- What the crate does otherwise: parameters. -/
structure Lib (F : Type) where
  div : BigDec → BigDec → BigDec
  rem : BigDec → BigDec → BigDec
  toF64 : BigDec → Option F
  fromF64 : F → Option BigDec

/-- The number type of prexel/examples/big_decimal.rs 13-19 with its traits (`UncheckedNum`, prexel/src/num.rs). The crate has no checked
operations; they are given here as the same operations so that the type also fits the checked context. -/
def num (lib : Lib F) : Num BigDec F where
  zero := ⟨0, 0⟩
  one := ⟨1, 0⟩
  isZero x := decide (x.int = 0)
  isOne x := !lt x ⟨1, 0⟩ && !lt ⟨1, 0⟩ x
  lt := lt
  ge x y := !lt x y
  checkedAdd x y := some (add x y)
  checkedSub x y := some (sub x y)
  checkedMul x y := some (mul x y)
  checkedDiv x y := some (lib.div x y)
  checkedRem x y := some (lib.rem x y)
  checkedNeg x := some (neg x)
  add x y := .ok (add x y)
  sub x y := .ok (sub x y)
  mul x y := .ok (mul x y)
  div x y := .ok (lib.div x y)
  rem x y := .ok (lib.rem x y)
  neg x := .ok (neg x)
  fromUsize n := some ⟨n, 0⟩
  toF64 := lib.toF64
  fromF64 := lib.fromF64
  fuel x := x.int.toNat * 10 ^ (-x.scale).toNat

end BigDec
end Prexel
