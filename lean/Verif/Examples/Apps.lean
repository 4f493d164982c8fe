import Verif.Model.Apps
import Verif.Examples.Numbers
import Verif.Examples.Decimals
import Verif.Examples.Complex
/-!
# A world for the examples about the server
-/

namespace Prexel.Demo

/-- What `f64` has besides, for the toy float. -/
def floatNum : FloatNum Int where
  zero := 0
  isOne x := x == 1
  ge x y := decide (y ≤ x)
  div := Int.tdiv
  rem := Int.tmod
  neg x := -x
  ofNat n := n
  fuel x := x.toNat

/-- A whole number. -/
def readInt (s : Str) : Option Int := (SInt.parse i128 s).map (·.1)

/-- The toy number types. -/
noncomputable def world (debug : Bool) : World Decimal Int Rat where
  K := keys
  debug := debug
  f := float
  floatNum := floatNum
  dec := dec
  cx := cx
  toF64 x := x.1
  fromF64 := SInt.of?
  readDecimal s := (readInt s).bind fun x => ofRat? x
  readFloat := readInt
  readComplex := cxParse
  showDecimal x := (toString x.1.num).toList
  showFloat x := (toString x).toList
  showComplex z := (toString z.re.num).toList

end Prexel.Demo
