import Verif.Lemmas.Builtin
/-!
# Number types used by the examples beside the theorems
-/

namespace Prexel.Demo

/-- A toy float: integers, with pi = 3 and e = 2. Enough to build contexts over integers, which use floats only for functions such as
`sqrt`. -/
def float : F64 Int where
  isNan _ := false
  isInfinite _ := false
  isZero x := x == 0
  isSignNegative x := decide (x < 0)
  lt x y := decide (x < y)
  add := (· + ·)
  sub := (· - ·)
  mul := (· * ·)
  inv x := (1 : Int).tdiv x
  abs x := x.natAbs
  one := 1
  pi := 3
  e := 2
  error := 1
  gamma _ := 1
  powf x y := x ^ y.toNat
  log10 _ := 1
  log _ _ := 1
  atan2 _ _ := 0
  toDegrees := id
  toRadians := id
  floor := id
  ceil := id
  trunc := id
  round := id
  signum := Int.sign
  sqrt := id
  exp := id
  ln := id
  sin := id
  cos := id
  tan := id
  asin := id
  acos := id
  atan := id
  sinh := id
  cosh := id
  tanh := id
  asinh := id
  acosh := id
  atanh := id
  random := 0

/-- A signed integer type with the toy float. -/
def int (w : Width) (debug : Bool) : Num (SInt w) Int := SInt.num w debug (·.1) SInt.of?

/-- A number of type `i32`. -/
def i32 (x : Int) (h : Prexel.i32.Fits x := by decide) : SInt Prexel.i32 := ⟨x, h⟩

/-- A key equivalence. -/
def keys : Keys := Keys.byHash demoLowercase

example : (int Prexel.i32 true).fromF64 float.pi = some (i32 3) ∧ (int Prexel.i32 true).fromF64 float.e = some (i32 2) := by decide

end Prexel.Demo
