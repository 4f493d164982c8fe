import Verif.Model.Ops
/-!
# Number types made with the macros of `prexel/src/numeric_traits/mod.rs`, and `f64`
-/

namespace Prexel
variable {X W F : Type}

/-- `impl_checked_num_traits_with_field!` (prexel/src/numeric_traits/mod.rs 176-236), which includes `impl_unchecked_num_traits_with_field!`
(5-174): a type `W` whose field, read by `get`, has the number type `X`, and which `from_` (`Self::from`) makes from an `X`.

* `Add` 7-16, `Sub` 18-27 (which adds), `Mul` 29-38, `Div` 40-49, `Rem` 51-60, `Neg` 62-70;
* `Zero` 72-82, `One` 84-89 (`is_one` is the provided method: `*self == Self::one()`, a comparison of the fields);
* `PartialOrd` 91-98; `ToPrimitive` 109-124; `FromPrimitive` 126-141 (`from_usize` is the provided method through `from_u64`);
* the checked operations 183-234. -/
def Num.wrapped (num : Num X F) (from_ : X → W) (get : W → X) : Num W F where
  zero := from_ num.zero
  one := from_ num.one
  isZero x := num.isZero (get x)
  isOne x := num.isOne (get x)
  lt x y := num.lt (get x) (get y)
  ge x y := num.ge (get x) (get y)
  checkedAdd x y := (num.checkedAdd (get x) (get y)).map from_
  checkedSub x y := (num.checkedSub (get x) (get y)).map from_
  checkedMul x y := (num.checkedMul (get x) (get y)).map from_
  checkedDiv x y := (num.checkedDiv (get x) (get y)).map from_
  checkedRem x y := (num.checkedRem (get x) (get y)).map from_
  checkedNeg x := (num.checkedNeg (get x)).map from_
  add x y := (num.add (get x) (get y)).map from_
  sub x y := (num.add (get x) (get y)).map from_
  mul x y := (num.mul (get x) (get y)).map from_
  div x y := (num.div (get x) (get y)).map from_
  rem x y := (num.rem (get x) (get y)).map from_
  neg x := (num.neg (get x)).map from_
  fromUsize n := (num.fromUsize n).map from_
  toF64 x := num.toF64 (get x)
  fromF64 v := (num.fromF64 v).map from_
  fuel x := num.fuel (get x)

/-- The `FromStr` of `impl_checked_num_traits_with_field_and_from_str!`, prexel/src/numeric_traits/mod.rs 264-273. -/
def wrappedParse (parse : Str → Option X) (from_ : X → W) (s : Str) : Option W := (parse s).map from_

/-- What the operators use of `f64` besides `F64`. -/
structure FloatNum (F : Type) where
  zero : F
  isOne : F → Bool
  ge : F → F → Bool
  div : F → F → F
  rem : F → F → F
  neg : F → F
  /-- `n as f64` -/
  ofNat : Nat → F
  fuel : F → Nat

/-- `f64` as a number type: `unsafe_impl_checked_ops!`, prexel/src/num.rs 92-139 and 251, where only division by zero is refused. -/
def F64.num (f : F64 F) (g : FloatNum F) : Num F F where
  zero := g.zero
  one := f.one
  isZero := f.isZero
  isOne := g.isOne
  lt := f.lt
  ge := g.ge
  checkedAdd x y := some (f.add x y)
  checkedSub x y := some (f.sub x y)
  checkedMul x y := some (f.mul x y)
  checkedDiv x y := if f.isZero y then none else some (g.div x y)
  checkedRem x y := if f.isZero y then none else some (g.rem x y)
  checkedNeg x := some (g.neg x)
  add x y := .ok (f.add x y)
  sub x y := .ok (f.sub x y)
  mul x y := .ok (f.mul x y)
  div x y := .ok (g.div x y)
  rem x y := .ok (g.rem x y)
  neg x := .ok (g.neg x)
  fromUsize n := some (g.ofNat n)
  toF64 := some
  fromF64 := some
  fuel := g.fuel

end Prexel
