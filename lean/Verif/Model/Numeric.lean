import Verif.Model.Context
/-!
# Number types

Models what the built-in operators and functions use of a number type: the traits `CheckedNum` and `UncheckedNum` of `prexel/src/num.rs`
(with `Zero`, `One`, `FromPrimitive`, `ToPrimitive` of num-traits), and of `f64`.
-/

namespace Prexel

/-- The operations of `f64` that `prexel/src/ops/mod.rs` uses. `f64` itself is not modelled: theorems hold for any such operations. -/
structure F64 (F : Type) where
  isNan : F → Bool
  isInfinite : F → Bool
  isZero : F → Bool
  isSignNegative : F → Bool
  lt : F → F → Bool
  add : F → F → F
  sub : F → F → F
  mul : F → F → F
  /-- `num_traits::Inv::inv`. -/
  inv : F → F
  abs : F → F
  one : F
  pi : F
  e : F
  /-- The constant of `Approx::approx`, prexel/src/ops/mod.rs 300. -/
  error : F
  gamma : F → F
  powf : F → F → F
  log10 : F → F
  log : F → F → F
  atan2 : F → F → F
  toDegrees : F → F
  toRadians : F → F
  floor : F → F
  ceil : F → F
  trunc : F → F
  round : F → F
  signum : F → F
  sqrt : F → F
  exp : F → F
  ln : F → F
  sin : F → F
  cos : F → F
  tan : F → F
  asin : F → F
  acos : F → F
  atan : F → F
  sinh : F → F
  cosh : F → F
  tanh : F → F
  asinh : F → F
  acosh : F → F
  atanh : F → F
  /-- The number drawn by `rand::random::<f64>()`. A call of `random` in Rust draws a new one; in the model it is a parameter. -/
  random : F

/-- `Approx::approx`, prexel/src/ops/mod.rs 296-314. -/
def F64.approx {F : Type} (f : F64 F) (x : F) : F :=
  let r := f.round x
  if f.lt (f.abs (f.sub x r)) f.error then r else x

/-- `n.is_nan() || n.is_infinite()`. -/
def F64.notFinite {F : Type} (f : F64 F) (x : F) : Bool := f.isNan x || f.isInfinite x

/-- A number type: `CheckedNum` (prexel/src/num.rs 12-51), and the unchecked operations of `UncheckedNum` (265-313), which may panic. -/
structure Num (N F : Type) where
  zero : N
  one : N
  /-- `Zero::is_zero` -/
  isZero : N → Bool
  /-- `One::is_one` -/
  isOne : N → Bool
  /-- `PartialOrd::lt` -/
  lt : N → N → Bool
  /-- `PartialOrd::ge`; not the negation of `lt` for a partial order. -/
  ge : N → N → Bool
  checkedAdd : N → N → Option N
  checkedSub : N → N → Option N
  checkedMul : N → N → Option N
  checkedDiv : N → N → Option N
  checkedRem : N → N → Option N
  checkedNeg : N → Option N
  add : N → N → Res N
  sub : N → N → Res N
  mul : N → N → Res N
  div : N → N → Res N
  rem : N → N → Res N
  neg : N → Res N
  /-- `FromPrimitive::from_usize` -/
  fromUsize : Nat → Option N
  /-- `ToPrimitive::to_f64` -/
  toF64 : N → Option F
  /-- `FromPrimitive::from_f64` -/
  fromF64 : F → Option N
  /-- A bound on the iterations of the loop of `Factorial`; the model panics if the loop is longer. Only for this model. -/
  fuel : N → Nat

/-! ## Integers -/

/-- The width of a signed integer type: `i8`, `i16`, ..., `i128`, `isize`; `bits` is the number of bits without the sign. -/
structure Width where
  bits : Nat
  pos : 0 < bits

namespace Width
/-- `MIN` -/
def lo (w : Width) : Int := -(2 ^ w.bits : Nat)
/-- `MAX` -/
def hi (w : Width) : Int := (2 ^ w.bits : Nat) - 1
/-- The number fits the type. -/
def Fits (w : Width) (x : Int) : Prop := w.lo ≤ x ∧ x ≤ w.hi
instance (w : Width) (x : Int) : Decidable (w.Fits x) := inferInstanceAs (Decidable (_ ∧ _))
end Width

/-- `i32` -/
def i32 : Width := ⟨31, by decide⟩
/-- `i64` -/
def i64 : Width := ⟨63, by decide⟩
/-- `i128` -/
def i128 : Width := ⟨127, by decide⟩

/-- A value of a signed integer type. -/
def SInt (w : Width) : Type := { x : Int // w.Fits x }

instance (w : Width) : DecidableEq (SInt w) := inferInstanceAs (DecidableEq { x : Int // w.Fits x })

namespace SInt
variable {w : Width}

/-- The value if it fits. -/
def of? (x : Int) : Option (SInt w) := if h : w.Fits x then some ⟨x, h⟩ else none

theorem two_le (w : Width) : 2 ≤ 2 ^ w.bits := by
  have : 2 ^ 1 ≤ 2 ^ w.bits := Nat.pow_le_pow_right (by decide) w.pos
  simpa using this

/-- A literal 0 or 1. -/
def ofNat1 (n : Nat) (h : n ≤ 1) : SInt w := ⟨n, by
  have := two_le w
  constructor
  · simp only [Width.lo]; omega
  · simp only [Width.hi]; omega⟩

/-- The value of a character as a digit in the radix (at most 10), `char::to_digit`. -/
def digit (radix : Nat) (c : Char) : Option Nat :=
  if 48 ≤ c.toNat ∧ c.toNat < 48 + radix then some (c.toNat - 48) else none

/-- The digits from left to right, appended to `acc`. -/
def digits (radix : Nat) : Nat → Str → Option Nat
  | acc, [] => some acc
  | acc, c :: s => match digit radix c with
    | some d => digits radix (acc * radix + d) s
    | none => none

/-- One or more digits with a sign. -/
def signed (w : Width) (radix : Nat) (neg : Bool) (s : Str) : Option (SInt w) :=
  if s = [] then none
  else match digits radix 0 s with
    | some n => of? (if neg then -n else n)
    | none => none

/-- `from_str_radix` of the Rust standard library (`FromStr::from_str` is radix 10): an optional sign, then one or more digits, and the number
must fit. The library accumulates with overflow checks; since the accumulated numbers grow, it is enough to check the last one. -/
def fromStrRadix (w : Width) (radix : Nat) (s : Str) : Option (SInt w) :=
  match s with
  | '+' :: s => signed w radix false s
  | '-' :: s => signed w radix true s
  | s => signed w radix false s

/-- `FromStr::from_str` -/
def parse (w : Width) (s : Str) : Option (SInt w) := fromStrRadix w 10 s

/-- Two's complement: what an operation that overflows gives in a release build. -/
def wrap (x : Int) : SInt w := ⟨x.bmod (2 ^ (w.bits + 1)), by
  have hp : (0 : Int) < ((2 ^ (w.bits + 1) : Nat) : Int) := by
    have : 0 < 2 ^ (w.bits + 1) := Nat.pow_pos (by decide)
    omega
  have h1 := @Int.le_bmod x _ (Nat.pow_pos (by decide) : 0 < 2 ^ (w.bits + 1))
  have h2 := @Int.bmod_lt x _ (Nat.pow_pos (by decide) : 0 < 2 ^ (w.bits + 1))
  have h3 : (2 ^ (w.bits + 1) : Nat) = 2 * 2 ^ w.bits := by rw [Nat.pow_succ]; omega
  rw [h3] at h1 h2 ⊢
  constructor
  · simp only [Width.lo]; omega
  · simp only [Width.hi]; omega⟩

/-- The arithmetic operators of Rust on integers: overflow panics in debug builds and wraps in release builds. -/
def arith (debug : Bool) (x : Int) : Res (SInt w) :=
  match of? x with
  | some y => .ok y
  | none => if debug then .panic else .ok (wrap x)

/-- `checked_div` and `checked_rem` of the Rust standard library: `None` if the divisor is zero or the division overflows, that is, for
`MIN / -1`. The remainder is also `None` for `MIN % -1`. -/
def checkedDivision (f : Int → Int → Int) (x y : SInt w) : Option (SInt w) :=
  if y.1 = 0 then none else if x.1 = w.lo ∧ y.1 = -1 then none else of? (f x.1 y.1)

/-- `/` and `%` of Rust on integers: these panic in every build if the divisor is zero or the division overflows. -/
def division (f : Int → Int → Int) (x y : SInt w) : Res (SInt w) :=
  match checkedDivision f x y with
  | some z => .ok z
  | none => .panic

/-- A signed integer type as a number type; `impl_checked_ops!`, prexel/src/num.rs 141-185 and 246, delegates to the standard library, whose
contract this is. Conversions from and to `f64` are parameters. -/
def num (w : Width) {F : Type} (debug : Bool) (toF64 : SInt w → F) (fromF64 : F → Option (SInt w)) : Num (SInt w) F where
  zero := ofNat1 0 (by decide)
  one := ofNat1 1 (by decide)
  isZero x := x.1 == 0
  isOne x := x.1 == 1
  lt x y := decide (x.1 < y.1)
  ge x y := decide (y.1 ≤ x.1)
  checkedAdd x y := of? (x.1 + y.1)
  checkedSub x y := of? (x.1 - y.1)
  checkedMul x y := of? (x.1 * y.1)
  checkedDiv := checkedDivision Int.tdiv
  checkedRem := checkedDivision Int.tmod
  checkedNeg x := of? (-x.1)
  add x y := arith debug (x.1 + y.1)
  sub x y := arith debug (x.1 - y.1)
  mul x y := arith debug (x.1 * y.1)
  div := division Int.tdiv
  rem := division Int.tmod
  neg x := arith debug (-x.1)
  fromUsize n := of? n
  toF64 x := some (toF64 x)
  fromF64 := fromF64
  fuel x := x.1.toNat

end SInt
end Prexel
