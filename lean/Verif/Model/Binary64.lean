import Mathlib.Data.Rat.Floor
import Mathlib.Data.Nat.Log
import Mathlib.Analysis.Real.Sqrt
import Verif.Model.Wrapped
/-!
# `f64`

IEEE 754 binary64, as Rust's `f64`: the operations that the standard fixes bit by bit (sums, differences, products, quotients, remainders, square
roots, comparisons, rounding to whole numbers, conversions) are defined here; the elementary functions, whose results Rust leaves to the platform,
are a parameter (`Libm`). All NaNs are one.

Used by `impl CheckedNum for f64` (prexel/src/num.rs 92-139, 251), by the functions of prexel/src/ops/mod.rs that compute with `f64`, and by
prexel/src/utils/gamma.rs.
-/

namespace Prexel

/-- The whole number nearest to `x`, of two the even one. -/
def toNearestEven {α : Type} [Field α] [LinearOrder α] [FloorRing α] (x : α) : ℤ :=
  let n := ⌊x⌋
  if x - n < 1 / 2 then n else if 1 / 2 < x - n then n + 1 else if n % 2 = 0 then n else n + 1

/-- Numbers are counted in units of 2^-1074, the smallest positive double. The spacing of doubles at `k` units is two to this power: it is such
that 53 binary digits remain. -/
def B64.spacing (k : ℕ) : ℕ := Nat.log2 k - 52

/-- So many units are 1. -/
@[irreducible] def B64.perOne : ℕ := 2 ^ 1074

/-- So many units are 2^1024: too many. -/
@[irreducible] def B64.limit : ℕ := 2 ^ 2098

/-- A number of units that a double has: below 2^1024, and at most 53 binary digits before trailing zeros. -/
def B64.Fits (k : ℕ) : Prop := k < B64.limit ∧ 2 ^ B64.spacing k ∣ k

instance (k : ℕ) : Decidable (B64.Fits k) := inferInstanceAs (Decidable (_ ∧ _))

/-- A double: NaN, an infinity, or a sign and a number of units. There are two zeros. -/
inductive B64 where
  | nan
  | inf (neg : Bool)
  | fin (neg : Bool) (k : ℕ) (h : B64.Fits k)
deriving DecidableEq

namespace B64
variable {α : Type} [Field α] [LinearOrder α] [FloorRing α]

/-- The number of units nearest to `t` with 53 binary digits, whatever its size. -/
def units (t : α) : ℕ := (toNearestEven (t / 2 ^ spacing ⌊t⌋.toNat)).toNat * 2 ^ spacing ⌊t⌋.toNat

/-- `t` units, rounded; too large numbers become infinite. -/
def round (neg : Bool) (t : α) : B64 := if h : Fits (units t) then .fin neg (units t) h else .inf neg

/-- The double with this sign that is zero. -/
def zero (neg : Bool) : B64 := .fin neg 0 ⟨by decide +kernel, Nat.dvd_zero _⟩

/-- The double nearest to a number; `neg` is the sign if the number is zero. -/
def of (neg : Bool) (x : α) : B64 :=
  if x < 0 then round true (-x * (perOne : α)) else if 0 < x then round false (x * (perOne : α)) else zero neg

/-- The value of a finite double. -/
def val : B64 → ℚ
  | .fin neg k _ => (if neg then -(k : ℚ) else k) / perOne
  | _ => 0

/-- `is_sign_negative` -/
def sign : B64 → Bool
  | .nan => false
  | .inf neg => neg
  | .fin neg _ _ => neg

def isNan : B64 → Bool
  | .nan => true
  | _ => false

def isInf : B64 → Bool
  | .inf _ => true
  | _ => false

/-- `== 0.0`, and `is_zero` of num-traits -/
def isZero : B64 → Bool
  | .fin _ k _ => k == 0
  | _ => false

/-- `<` -/
def lt : B64 → B64 → Bool
  | .nan, _ => false
  | _, .nan => false
  | .inf a, .inf b => a && !b
  | .inf a, .fin _ _ _ => a
  | .fin _ _ _, .inf b => !b
  | x@(.fin _ _ _), y@(.fin _ _ _) => decide (x.val < y.val)

/-- `>=` -/
def ge : B64 → B64 → Bool
  | .nan, _ => false
  | _, .nan => false
  | x, y => !lt x y

/-- `-` before a number -/
def neg : B64 → B64
  | .nan => .nan
  | .inf a => .inf (!a)
  | .fin a k h => .fin (!a) k h

def abs : B64 → B64
  | .nan => .nan
  | .inf _ => .inf false
  | .fin _ k h => .fin false k h

/-- `+` -/
def add : B64 → B64 → B64
  | .nan, _ => .nan
  | _, .nan => .nan
  | .inf a, .inf b => if a = b then .inf a else .nan
  | .inf a, .fin _ _ _ => .inf a
  | .fin _ _ _, .inf b => .inf b
  | x@(.fin a _ _), y@(.fin b _ _) => of (a && b) (x.val + y.val)

/-- `-` between numbers -/
def sub (x y : B64) : B64 := add x (neg y)

/-- `*` -/
def mul : B64 → B64 → B64
  | .nan, _ => .nan
  | _, .nan => .nan
  | .inf a, .inf b => .inf (a ^^ b)
  | .inf a, .fin b k _ => if k = 0 then .nan else .inf (a ^^ b)
  | .fin a k _, .inf b => if k = 0 then .nan else .inf (a ^^ b)
  | x@(.fin a _ _), y@(.fin b _ _) => of (a ^^ b) (x.val * y.val)

/-- `/` -/
def div : B64 → B64 → B64
  | .nan, _ => .nan
  | _, .nan => .nan
  | .inf _, .inf _ => .nan
  | .inf a, .fin b _ _ => .inf (a ^^ b)
  | .fin a _ _, .inf b => zero (a ^^ b)
  | x@(.fin a k _), y@(.fin b j _) => if j = 0 then (if k = 0 then .nan else .inf (a ^^ b)) else of (a ^^ b) (x.val / y.val)

/-- The whole part of a rational number: towards zero. -/
def cut (q : ℚ) : ℤ := if q < 0 then ⌈q⌉ else ⌊q⌋

/-- `%`, the C function `fmod` -/
def rem : B64 → B64 → B64
  | .nan, _ => .nan
  | _, .nan => .nan
  | .inf _, _ => .nan
  | x@(.fin _ _ _), .inf _ => x
  | x@(.fin a _ _), y@(.fin _ j _) => if j = 0 then .nan else of a (x.val - y.val * cut (x.val / y.val))

/-- A function that gives whole numbers; the sign of the argument stays if the result is zero. -/
def whole (g : ℚ → ℤ) : B64 → B64
  | .nan => .nan
  | .inf a => .inf a
  | x@(.fin a _ _) => of a (g x.val : ℚ)

/-- `f64::round`: to the nearest whole number, halves away from zero. -/
def awayFromZero (q : ℚ) : ℤ := if q < 0 then ⌈q - 1 / 2⌉ else ⌊q + 1 / 2⌋

/-- `f64::signum` -/
def signum : B64 → B64
  | .nan => .nan
  | x => of false (if x.sign then -1 else 1 : ℚ)

/-- `f64::sqrt`: the double nearest to the square root. -/
noncomputable def sqrt : B64 → B64
  | .nan => .nan
  | .inf a => if a then .nan else .inf false
  | x@(.fin a k _) => if k = 0 then x else if a then .nan else of false (Real.sqrt x.val)

/-- `n as f64` for an integer, and a literal in the source. -/
def lit (q : ℚ) : B64 := of false q

/-- `std::f64::consts::PI` -/
def pi : B64 := lit (884279719003555 / 281474976710656)
/-- `std::f64::consts::E` -/
def e : B64 := lit (6121026514868073 / 2251799813685248)

/-- `ToPrimitive::to_i64` etc. of num-traits 0.2 for `f64`: the whole part, if it is in the range. -/
def toInt : B64 → Option ℤ
  | x@(.fin _ _ _) => some (cut x.val)
  | _ => none

end B64

/-- The functions of `f64` whose results the platform's mathematical library decides. -/
structure Libm where
  powf : B64 → B64 → B64
  ln : B64 → B64
  log10 : B64 → B64
  exp : B64 → B64
  sin : B64 → B64
  cos : B64 → B64
  tan : B64 → B64
  asin : B64 → B64
  acos : B64 → B64
  atan : B64 → B64
  atan2 : B64 → B64 → B64
  sinh : B64 → B64
  cosh : B64 → B64
  tanh : B64 → B64
  asinh : B64 → B64
  acosh : B64 → B64
  atanh : B64 → B64

namespace B64

/-- The constants of `gamma`, prexel/src/utils/gamma.rs 8-26. -/
def gammaG : B64 := lit (47421875 / 10000000)
/-- See `gammaG`. -/
def gammaFirst : B64 := lit (9999999999999971 / 10 ^ 16)
/-- See `gammaG`. -/
def gammaRest : List B64 :=
  [lit (5715623566586292 / 10 ^ 14), lit (-5959796035547549 / 10 ^ 14), lit (14136097974741746 / 10 ^ 15), lit (-4919138160976202 / 10 ^ 16),
   lit (3399464998481189 / 10 ^ 20), lit (4652362892704858 / 10 ^ 20), lit (-9837447530487956 / 10 ^ 20), lit (1580887032249125 / 10 ^ 19),
   lit (-21026444172410488 / 10 ^ 20), lit (21743961811521265 / 10 ^ 20), lit (-1643181065367639 / 10 ^ 19), lit (8441822398385275 / 10 ^ 20),
   lit (-26190838401581408 / 10 ^ 21), lit (36899182659531625 / 10 ^ 22)]

/-- The loop of `gamma`, prexel/src/utils/gamma.rs 38-40; the denominators begin at `x + n`. -/
def gammaSum (x : B64) : ℕ → List B64 → B64 → B64
  | _, [], factor => factor
  | n, c :: cs, factor => gammaSum x (n + 1) cs (add factor (div c (add x (lit n))))

/-- The second branch of `gamma`, prexel/src/utils/gamma.rs 33-46. -/
noncomputable def gammaRight (lib : Libm) (x : B64) : B64 :=
  let x := sub x (lit 1)
  let factor := gammaSum x 1 gammaRest gammaFirst
  let t := add (add x gammaG) (lit (1 / 2))
  mul (mul (mul (sqrt (mul (lit 2) pi)) (lib.powf t (add x (lit (1 / 2))))) (lib.exp (neg t))) factor

/-- `gamma`, prexel/src/utils/gamma.rs 6-47. The call in the first branch is for `1 - x`, which is more than 1/2 (or NaN), so that it takes the
second branch. -/
noncomputable def gamma (lib : Libm) (x : B64) : B64 :=
  if lt x (lit (1 / 2)) then div pi (mul (lib.sin (mul pi x)) (gammaRight lib (sub (lit 1) x))) else gammaRight lib x

/-- `f64` as prexel/src/ops/mod.rs uses it. `to_degrees`, `to_radians` and `log` are in the Rust library as here. `draw` is the number that
`rand::random::<f64>()` draws. -/
noncomputable def f64 (lib : Libm) (draw : B64) : F64 B64 where
  isNan := isNan
  isInfinite := isInf
  isZero := isZero
  isSignNegative := sign
  lt := lt
  add := add
  sub := sub
  mul := mul
  inv x := div (lit 1) x
  abs := abs
  one := lit 1
  pi := pi
  e := e
  error := lit (1 / 10000000000)
  gamma := gamma lib
  powf := lib.powf
  log10 := lib.log10
  log x b := div (lib.ln x) (lib.ln b)
  atan2 := lib.atan2
  toDegrees x := mul x (div (lit 180) pi)
  toRadians x := mul x (div pi (lit 180))
  floor := whole fun q => ⌊q⌋
  ceil := whole fun q => ⌈q⌉
  trunc := whole cut
  round := whole awayFromZero
  signum := signum
  sqrt := sqrt
  exp := lib.exp
  ln := lib.ln
  sin := lib.sin
  cos := lib.cos
  tan := lib.tan
  asin := lib.asin
  acos := lib.acos
  atan := lib.atan
  sinh := lib.sinh
  cosh := lib.cosh
  tanh := lib.tanh
  asinh := lib.asinh
  acosh := lib.acosh
  atanh := lib.atanh
  random := draw

/-- What else the operators use of `f64` (prexel/src/num.rs 92-139, 251). The loop of a factorial that ends makes at most as many rounds as the
number says. -/
def num : FloatNum B64 where
  zero := zero false
  isOne x := x == lit 1
  ge := ge
  div := div
  rem := rem
  neg := neg
  ofNat n := lit n
  fuel x := (⌊x.val⌋).toNat + 1

end B64

end Prexel
