import Verif.Model.Ops
/-!
# Decimal numbers

Models `prexel/src/decimal/mod.rs` and `prexel/src/decimal/decimal_ext.rs` over the operations of the crate `rust_decimal`, which is not part
of the repository: theorems hold for any such operations, or for those that satisfy a stated contract (`Verif.Spec.Decimal`).

A Rust `Option<Decimal>` is a `Res D` here: `None` is `err overflow`, the error into which every caller in `decimal/mod.rs` turns it.
-/

namespace Prexel

/-- What the code uses of `rust_decimal::Decimal`, with the constants of prexel/src/decimal/mod.rs 7-66. -/
structure Dec (D F : Type) where
  checkedAdd : D → D → Option D
  checkedSub : D → D → Option D
  checkedMul : D → D → Option D
  checkedDiv : D → D → Option D
  checkedRem : D → D → Option D
  neg : D → D
  abs : D → D
  fract : D → D
  round : D → D
  roundDp : Nat → D → D
  trunc : D → D
  floor : D → D
  ceil : D → D
  isZero : D → Bool
  isOne : D → Bool
  isSignNegative : D → Bool
  /-- `==`; `Decimal` compares by value, so `1.0 == 1`. -/
  eq : D → D → Bool
  /-- `<`; the order is total, so `a <= b` is `!(b < a)`. -/
  lt : D → D → Bool
  /-- `ToPrimitive::to_i64` -/
  toI64 : D → Option Int
  /-- `ToPrimitive::to_f64` -/
  toF64 : D → Option F
  /-- `FromPrimitive::from_f64` -/
  fromF64 : F → Option D
  /-- A whole number: the literals `dec!(0)`, `dec!(1)`, `dec!(2)`, ... and the conversions from `u32` and `usize`, which always succeed. -/
  nat : Nat → D
  oneMinus : D
  half : D
  third : D
  pi : D
  pi2 : D
  pi2Minus : D
  piHalf : D
  piQuarter : D
  pi3Half : D
  ln10 : D
  e : D
  precision : D
  /-- `G` of the Lanczos approximation, prexel/src/decimal/decimal_ext.rs 549. -/
  gammaG : D
  /-- `P[0]`, prexel/src/decimal/decimal_ext.rs 551. -/
  gammaP0 : D
  /-- `P[1..]`, prexel/src/decimal/decimal_ext.rs 552-566. -/
  gammaP : List D
  /-- A bound on the iterations of the `while` loops and on the recursion depth; the model panics beyond it. Only for this model. -/
  fuel : Nat

/-- `Option::unwrap` on an `Option<Decimal>`. -/
def Res.unwrapNone {α : Type} : Res α → Res α
  | .ok x => .ok x
  | _ => .panic

namespace Dec
variable {D F : Type} (d : Dec D F)

/-- `.checked_add(..)?` as a `Res`. -/
def cadd (x y : D) : Res D := Ops.orOverflow (d.checkedAdd x y)
/-- `.checked_sub(..)?` as a `Res`. -/
def csub (x y : D) : Res D := Ops.orOverflow (d.checkedSub x y)
/-- `.checked_mul(..)?` as a `Res`. -/
def cmul (x y : D) : Res D := Ops.orOverflow (d.checkedMul x y)
/-- `.checked_div(..)?` as a `Res`. -/
def cdiv (x y : D) : Res D := Ops.orOverflow (d.checkedDiv x y)
/-- `.checked_rem(..)?` as a `Res`. -/
def crem (x y : D) : Res D := Ops.orOverflow (d.checkedRem x y)

/-- `x + y` of `rust_decimal`: panics where `checked_add` is `None`. -/
def add (x y : D) : Res D := (d.cadd x y).unwrapNone
/-- `x - y`: panics where `checked_sub` is `None`. -/
def sub (x y : D) : Res D := (d.csub x y).unwrapNone
/-- `x * y`: panics where `checked_mul` is `None`. -/
def mul (x y : D) : Res D := (d.cmul x y).unwrapNone
/-- `x / y`: panics where `checked_div` is `None`. -/
def div (x y : D) : Res D := (d.cdiv x y).unwrapNone
/-- `x % y`: panics where `checked_rem` is `None`. -/
def rem (x y : D) : Res D := (d.crem x y).unwrapNone

/-- `consts::ZERO`, `Decimal::zero()`. -/
def zero : D := d.nat 0
/-- `consts::ONE`, `Decimal::one()`. -/
def one : D := d.nat 1
/-- `consts::TWO`. -/
def two : D := d.nat 2
/-- `consts::THREE`. -/
def three : D := d.nat 3
/-- `consts::TEN`. -/
def ten : D := d.nat 10

/-- `TAYLOR_SERIES_ITERATIONS`, prexel/src/decimal/mod.rs 11. -/
def iterations : Nat := 100

/-- `ApproxEq::approx_eq`, prexel/src/decimal/decimal_ext.rs 524-529. -/
def approxEq (x y delta : D) : Res Bool := do
  let z ← d.sub x y
  pure (d.lt (d.abs z) delta)

/-- `Approx::approx`, prexel/src/decimal/decimal_ext.rs 531-545. -/
def approx (x : D) : Res D := do
  let r := d.round x
  let b ← d.approxEq x r d.precision
  pure (if b then r else x)

/-- `is_integer`, prexel/src/decimal/decimal_ext.rs 38-41. -/
def isInteger (x : D) : Bool := d.isZero (d.fract x)

/-- `to_radians`, prexel/src/decimal/decimal_ext.rs 43-46. -/
def toRadians (x : D) : Res D := do
  let k ← d.div d.pi (d.nat 180)
  let y ← d.mul x k
  d.approx y

/-- `to_degrees`, prexel/src/decimal/decimal_ext.rs 48-51. -/
def toDegrees (x : D) : Res D := do
  let k ← d.div (d.nat 180) d.pi
  let y ← d.mul x k
  d.approx y

/-- `inv`, prexel/src/decimal/decimal_ext.rs 53-56. -/
def inv (x : D) : Res D := d.div d.one x

/-- `checked_inv`, prexel/src/decimal/decimal_ext.rs 58-65. -/
def checkedInv (x : D) : Res D := if d.isZero x then .err .overflow else d.inv x

/-- The loop of `checked_powi`, prexel/src/decimal/decimal_ext.rs 108-117. -/
def powiLoop : Nat → D → D → Nat → Res D
  | 0, result, _, e => if 0 < e then .panic else .ok result
  | fuel + 1, result, base, e =>
    if 0 < e then do
      let r ← if e % 2 ≠ 0 then do
          let result ← d.cmul result base
          pure (result, e - 1)
        else pure (result, e)
      let base ← d.cmul base base
      powiLoop fuel r.1 base (r.2 / 2)
    else .ok result

/-- `checked_powi` on a non-negative exponent, prexel/src/decimal/decimal_ext.rs 92-120. Its loop has at most 64 iterations. -/
def powiNat (x : D) (exponent : Nat) : Res D :=
  if exponent = 0 then .ok d.one
  else if exponent = 1 then .ok x
  else d.powiLoop 64 d.one x exponent

/-- `checked_powi`, prexel/src/decimal/decimal_ext.rs 92-120. For a negative exponent it calls itself with the inverse of the number and the
negated exponent; `-i64::MIN` overflows: a panic in debug builds, and without end in release builds (the model panics). -/
def powi (x : D) (exponent : Int) : Res D :=
  if exponent < 0 then do
    let y ← d.div d.one x
    if exponent = i64.lo then .panic else d.powiNat y exponent.natAbs
  else d.powiNat x exponent.natAbs

/-- The loop of `checked_sqrt`, prexel/src/decimal/decimal_ext.rs 134-142. -/
def sqrtLoop (value : D) : Nat → D → D → Res D
  | 0, x, result => if d.eq x result then .ok result else .panic
  | fuel + 1, x, result =>
    if d.eq x result then .ok result
    else do
      let xr ← d.cdiv value result
      let xr1 ← d.cadd xr result
      let r ← d.cmul d.half xr1
      sqrtLoop value fuel result r

/-- `checked_sqrt`, prexel/src/decimal/decimal_ext.rs 122-145. `sqrt` of `f64` comes from `f`. -/
def sqrt (f : F64 F) (x : D) : Res D :=
  if d.isSignNegative x then .err .overflow
  else do
    let v ← Ops.orOverflow (d.toF64 x)
    let result ← Ops.orOverflow (d.fromF64 (f.sqrt v))
    d.sqrtLoop x d.fuel d.zero result

/-- The loop of `checked_cbrt`, prexel/src/decimal/decimal_ext.rs 156-162. -/
def cbrtLoop (value : D) : Nat → D → Res D
  | 0, x => .ok x
  | n + 1, x => do
    let xx ← d.cmul x x
    let x2 ← d.cmul d.two x
    let q ← d.cdiv value xx
    let s ← d.cadd q x2
    let x ← d.cmul s d.third
    cbrtLoop value n x

/-- `checked_cbrt`, prexel/src/decimal/decimal_ext.rs 147-166. -/
def cbrt (x : D) : Res D := if d.isOne x then .ok x else d.cbrtLoop x iterations d.one

/-- The division loop of `checked_ln`, prexel/src/decimal/decimal_ext.rs 193-196. -/
def lnScale : Nat → D → Nat → Res (D × Nat)
  | 0, a, n => if d.lt d.one a then .panic else .ok (a, n)
  | fuel + 1, a, n =>
    if d.lt d.one a then do
      let a ← d.cdiv a d.ten
      lnScale fuel a (n + 1)
    else .ok (a, n)

/-- The series of `checked_ln`, prexel/src/decimal/decimal_ext.rs 211-220: the terms `n`, `n + 1`, ... up to 999. -/
def lnSeries (x : D) : Nat → Nat → D → Res D
  | 0, _, result => .ok result
  | k + 1, n, result => do
    let sign ← d.powi d.oneMinus (n + 1 : Nat)
    let y ← d.csub x d.one
    let xn ← d.powi y (n : Nat)
    let q ← d.cdiv xn (d.nat n)
    let t ← d.cmul q sign
    let result ← d.cadd result t
    lnSeries x k (n + 1) result

/-- `checked_ln`, prexel/src/decimal/decimal_ext.rs 179-223; the first argument bounds the depth of the recursion. -/
def lnDepth : Nat → D → Res D
  | 0, _ => .panic
  | depth + 1, x =>
    if !d.lt d.zero x then .err .overflow
    else if d.isOne x then .ok d.zero
    else if !d.lt x d.one then do
      let r ← d.lnScale d.fuel x 0
      let lna ← lnDepth depth r.1
      let b ← d.cmul d.ln10 (d.nat r.2)
      d.cadd lna b
    else do
      let result ← d.lnSeries x (10 * iterations - 1) 1 d.zero
      d.approx result

/-- `checked_ln`, prexel/src/decimal/decimal_ext.rs 179-223. The recursion is at most one deep: it is called on a number that is not more than
one. -/
def ln (x : D) : Res D := d.lnDepth 3 x

/-- `checked_log`, prexel/src/decimal/decimal_ext.rs 168-177. -/
def log (x base : D) : Res D := do
  let a ← d.ln x
  if d.eq base d.ten then d.cdiv a d.ln10
  else do
    let b ← d.ln base
    d.cdiv a b

/-- The loop of `checked_exp`, prexel/src/decimal/decimal_ext.rs 243-247: `b0` is 398, 394, ..., 6. -/
def expLoop (a0 : D) : Nat → Nat → D → Res D
  | 0, _, result => .ok result
  | k + 1, b0, result => do
    let q ← d.cdiv a0 result
    let result ← d.cadd (d.nat b0) q
    expLoop a0 k (b0 - 4) result

/-- `checked_exp`, prexel/src/decimal/decimal_ext.rs 225-260. After the 99 iterations of the loop `b0` is 2. -/
def exp (x : D) : Res D :=
  if d.isZero x then .ok d.one
  else if d.isOne x then .ok d.e
  else do
    let a0 ← d.cmul x x
    let result ← d.expLoop a0 (iterations - 1) (4 * iterations - 2) (d.nat (4 * iterations + 2))
    let sum ← d.csub d.two x
    let q ← d.cdiv a0 result
    let result ← d.cadd sum q
    let xx ← d.cmul d.two x
    let q ← d.cdiv xx result
    let result ← d.cadd d.one q
    d.approx result

/-- `checked_powd`, prexel/src/decimal/decimal_ext.rs 68-90. -/
def powd (x exponent : D) : Res D :=
  if d.isInteger exponent then
    match d.toI64 exponent with
    | some n => d.powi x n
    | none => .panic
  else if d.isZero x then .ok d.one
  else if d.isOne x then .ok x
  else if d.eq x d.e then d.exp exponent
  else do
    let l ← d.ln x
    let b ← d.cmul l exponent
    d.exp b

/-- The loop of `checked_sin` and of `checked_cos`, prexel/src/decimal/decimal_ext.rs 320-323 and 345-348: `k` iterations from `n` on, where
`m n` is the divisor. -/
def taylor (xx : D) (m : Nat → Nat) : Nat → Nat → D → D → Res D
  | 0, _, _, result => .ok result
  | k + 1, n, factor, result => do
    let q ← d.div (d.neg xx) (d.nat (m n))
    let factor ← d.mul factor q
    let result ← d.add result factor
    taylor xx m k (n + 1) factor result

/-- `checked_sin`, prexel/src/decimal/decimal_ext.rs 293-326. -/
def sin (x : D) : Res D := do
  let r ← d.rem x d.pi2
  if d.eq r d.zero then pure d.zero
  else do
    let a ← d.approxEq (d.abs r) d.pi d.precision
    if a then pure d.zero else do
    let a ← d.approxEq (d.abs r) d.pi2 d.precision
    if a then pure d.zero else do
    let a ← d.approxEq r d.piHalf d.precision
    if a then pure d.one else do
    let a ← d.approxEq r d.pi3Half d.precision
    if a then pure d.oneMinus else do
    let a ← d.approxEq (d.abs r) d.piHalf d.precision
    if a then pure d.oneMinus else do
    let xx ← d.mul r r
    let result ← d.taylor xx (fun n => (2 * n + 1) * (2 * n)) (iterations - 1) 1 r r
    d.approx result

/-- `checked_cos`, prexel/src/decimal/decimal_ext.rs 328-351. -/
def cos (x : D) : Res D := do
  let r ← d.rem x d.pi2
  if d.isZero r then pure d.one
  else do
    let a ← d.approxEq r d.piHalf d.precision
    if a then pure d.zero else do
    let xx ← d.mul r r
    let factor ← d.div (d.neg xx) d.two
    let result ← d.add d.one factor
    let result ← d.taylor xx (fun n => 2 * n * (2 * n - 1)) (iterations - 2) 2 factor result
    d.approx result

/-- `checked_tan`, prexel/src/decimal/decimal_ext.rs 353-361. -/
def tan (x : D) : Res D := do
  let c ← d.cos x
  if d.isZero c then .err .overflow
  else do
    let s ← d.sin x
    let q ← d.div s c
    d.approx q

/-- The loop of `atan`, prexel/src/decimal/decimal_ext.rs 437-444, from `i` down to 2. -/
def atanLoop (x : D) : Nat → D → Res D
  | 0, result => .ok result
  | k + 1, result => do
    let z ← d.mul x (d.nat (k + 1))
    let z2 ← d.mul z z
    let q ← d.div z2 result
    let t ← d.mul d.two (d.nat (k + 2))
    let c ← d.sub t d.three
    let result ← d.add q c
    atanLoop x k result

/-- `atan`, prexel/src/decimal/decimal_ext.rs 411-448; the first argument bounds the depth of the recursion. -/
def atanDepth : Nat → D → Res D
  | 0, _ => .panic
  | depth + 1, x =>
    if d.isZero x then .ok d.zero
    else if d.isOne x then .ok d.piQuarter
    else if d.eq x d.oneMinus then .ok (d.neg d.piQuarter)
    else if d.lt x d.oneMinus then do
      let y ← d.div d.one x
      let a ← atanDepth depth y
      d.sub (d.neg d.piHalf) a
    else if d.lt d.one x then do
      let y ← d.div d.one x
      let a ← atanDepth depth y
      d.sub d.piHalf a
    else do
      let t ← d.mul d.two (d.nat iterations)
      let result ← d.sub t d.one
      let result ← d.atanLoop x (iterations - 1) result
      let q ← d.div x result
      d.approx q

/-- `atan`, prexel/src/decimal/decimal_ext.rs 411-448. The recursion is one deep: the inverse of a number beyond one is not. -/
def atan (x : D) : Res D := d.atanDepth 3 x

/-- `asin`, prexel/src/decimal/decimal_ext.rs 363-385. -/
def asin (f : F64 F) (x : D) : Res D :=
  if d.lt x d.oneMinus || d.lt d.one x then .err .overflow
  else if d.isZero x then .ok d.zero
  else if d.isOne x then .ok d.piHalf
  else if d.eq x d.oneMinus then .ok (d.neg d.piHalf)
  else do
    let xx ← d.mul x x
    let t ← d.sub d.one xx
    let a0 ← d.sqrt f t
    let b0 ← d.add a0 d.one
    let q ← d.div x b0
    let a ← d.atan q
    let result ← d.mul d.two a
    d.approx result

/-- `acos`, prexel/src/decimal/decimal_ext.rs 387-409. -/
def acos (f : F64 F) (x : D) : Res D :=
  if d.lt x d.oneMinus || d.lt d.one x then .err .overflow
  else if d.isZero x then .ok d.piHalf
  else if d.isOne x then .ok d.zero
  else if d.eq x d.oneMinus then .ok d.pi
  else do
    let xx ← d.mul x x
    let t ← d.sub d.one xx
    let a0 ← d.sqrt f t
    let b0 ← d.add d.one x
    let q ← d.div a0 b0
    let a ← d.atan q
    let result ← d.mul d.two a
    d.approx result

/-- `atan2`, prexel/src/decimal/decimal_ext.rs 450-473; `y` is `self`. -/
def atan2 (y x : D) : Res D :=
  if d.isZero y && d.isZero x then .ok d.zero
  else if d.isZero x then .ok (if d.lt d.zero y then d.pi2 else d.pi2Minus)
  else do
    let q ← d.div y x
    let a ← d.atan q
    if d.lt d.zero x then pure a
    else if !d.lt y d.zero then d.add a d.pi
    else d.sub a d.pi

/-- `sinh`, prexel/src/decimal/decimal_ext.rs 475-481. -/
def sinh (x : D) : Res D := do
  let e0 ← d.exp x
  let e1 ← d.exp (d.neg x)
  let s ← d.sub e0 e1
  d.div s d.two

/-- `cosh`, prexel/src/decimal/decimal_ext.rs 483-489. -/
def cosh (x : D) : Res D := do
  let e0 ← d.exp x
  let e1 ← d.exp (d.neg x)
  let s ← d.add e0 e1
  d.div s d.two

/-- `tanh`, prexel/src/decimal/decimal_ext.rs 491-494. -/
def tanh (x : D) : Res D := do
  let s ← d.sinh x
  let c ← d.cosh x
  d.div s c

/-- `asinh`, prexel/src/decimal/decimal_ext.rs 496-500. -/
def asinh (f : F64 F) (x : D) : Res D := do
  let x2 ← d.mul x x
  let t ← d.add x2 d.one
  let s ← (d.sqrt f t).unwrapNone
  let u ← d.add x s
  (d.ln u).unwrapNone

/-- `acosh`, prexel/src/decimal/decimal_ext.rs 502-510. -/
def acosh (f : F64 F) (x : D) : Res D :=
  if d.lt x d.one then .err .overflow
  else do
    let x2 ← d.mul x x
    let t ← d.sub x2 d.one
    let s ← d.sqrt f t
    let u ← d.add x s
    d.ln u

/-- `atanh`, prexel/src/decimal/decimal_ext.rs 512-521. -/
def atanh (x : D) : Res D :=
  if d.lt x d.oneMinus || d.lt d.one x then .err .overflow
  else do
    let x0 ← d.add d.one x
    let x1 ← d.sub d.one x
    let q ← d.div x0 x1
    let l ← d.ln q
    d.cmul l d.half

/-- The loop of `gamma` over the coefficients, prexel/src/decimal/decimal_ext.rs 578-580. -/
def gammaSum (x : D) : Nat → List D → D → Res D
  | _, [], factor => .ok factor
  | n, c :: cs, factor => do
    let y ← d.add x (d.nat n)
    let q ← d.div c y
    let factor ← d.add factor q
    gammaSum x (n + 1) cs factor

/-- `gamma`, prexel/src/decimal/decimal_ext.rs 547-590; the first argument bounds the depth of the recursion. -/
def gammaDepth (f : F64 F) : Nat → D → Res D
  | 0, _ => .panic
  | depth + 1, x =>
    if d.lt x d.half then do
      let t ← d.mul d.pi x
      let s ← d.sin t
      let q ← d.div d.pi s
      let y ← d.sub d.one x
      let g ← gammaDepth f depth y
      d.mul q g
    else do
      let x ← d.sub x d.one
      let factor ← d.gammaSum x 1 d.gammaP d.gammaP0
      let t ← d.add x d.gammaG
      let t ← d.add t d.half
      let p2 ← d.mul d.two d.pi
      let a ← d.sqrt f p2
      let h ← d.add x d.half
      let b ← d.powd t h
      let ab ← d.mul a b
      let c ← d.exp (d.neg t)
      let abc ← d.mul ab c
      d.mul abc factor

/-- `gamma`, prexel/src/decimal/decimal_ext.rs 547-590. The recursion is one deep: `1 - x` is more than a half. -/
def gamma (f : F64 F) (x : D) : Res D := d.gammaDepth f 3 x

/-- The loop of `checked_factorial`, prexel/src/decimal/decimal_ext.rs 281-284. -/
def factorialLoop : Nat → D → D → Res (D × D)
  | 0, result, n => if d.lt d.zero n then .panic else .ok (result, n)
  | fuel + 1, result, n =>
    if d.lt d.zero n then do
      let result ← d.cmul result n
      let n ← d.sub n d.one
      factorialLoop fuel result n
    else .ok (result, n)

/-- `checked_factorial`, prexel/src/decimal/decimal_ext.rs 262-291. -/
def factorial (f : F64 F) (x : D) : Res D :=
  if d.isSignNegative x then .err .overflow
  else if d.eq x d.two || d.eq x d.one || d.eq x d.zero then .ok d.one
  else if d.lt x d.one then do
    let y ← d.add x d.one
    let g ← d.gamma f y
    pure (d.roundDp 15 g)
  else do
    let n ← d.sub x d.one
    let r ← d.factorialLoop d.fuel x n
    let result ← if !d.isZero r.2 then do
        let y ← d.add r.2 d.one
        let g ← d.gamma f y
        d.mul r.1 g
      else pure r.1
    pure (d.roundDp 15 result)

/-! ## Operators and functions, prexel/src/decimal/mod.rs -/

/-- `AddOperator`, prexel/src/decimal/mod.rs 307-334. -/
def addOp : Named (BinFn D) := ⟨str "+", [], ⟨Ops.low, .left, d.cadd⟩⟩
/-- `SubOperator`, prexel/src/decimal/mod.rs 336-363. -/
def subOp : Named (BinFn D) := ⟨str "-", [], ⟨Ops.low, .left, d.csub⟩⟩
/-- `MulOperator`, prexel/src/decimal/mod.rs 365-392. -/
def mulOp : Named (BinFn D) := ⟨str "*", [], ⟨Ops.medium, .left, d.cmul⟩⟩
/-- `DivOperator`, prexel/src/decimal/mod.rs 394-421. -/
def divOp : Named (BinFn D) := ⟨str "/", [], ⟨Ops.medium, .left, d.cdiv⟩⟩
/-- `ModOperator`, prexel/src/decimal/mod.rs 423-450. -/
def modOp : Named (BinFn D) := ⟨str "mod", [], ⟨Ops.medium, .left, d.crem⟩⟩
/-- `PowOperator`, prexel/src/decimal/mod.rs 452-479. -/
def powOp : Named (BinFn D) := ⟨str "^", [], ⟨Ops.high, .right, d.powd⟩⟩
/-- `UnaryMinus`, prexel/src/decimal/mod.rs 481-502. -/
def negOp : Named (UnFn D) := ⟨str "-", [], ⟨.pre, fun x => .ok (d.neg x)⟩⟩
/-- `Factorial`, prexel/src/decimal/mod.rs 504-527. -/
def factorialOp (f : F64 F) : Named (UnFn D) := ⟨str "!", [], ⟨.post, d.factorial f⟩⟩

/-- `SumFunction`, prexel/src/decimal/mod.rs 529-554. -/
def sumFn : Named (Fn D) := ⟨str "sum", [], fun args => Ops.orArgumentCount (Ops.foldArgs d.add none args)⟩
/-- `ProdFunction`, prexel/src/decimal/mod.rs 556-581. -/
def prodFn : Named (Fn D) := ⟨str "product", [], fun args => Ops.orArgumentCount (Ops.foldArgs d.mul none args)⟩
/-- `AvgFunction`, prexel/src/decimal/mod.rs 583-611. -/
def avgFn : Named (Fn D) :=
  ⟨str "avg", [], fun args => (Ops.foldArgs d.add none args).bind fun
    | some n => d.div n (d.nat args.length)
    | none => .err .invalidArgumentCount⟩

/-- A function of one argument: `forward_checked_func_impl!`, `forward_func_impl!` and their variants, prexel/src/decimal/mod.rs 68-280, and
the macros of prexel/src/decimal/mod.rs 709-870 and 912-1018. -/
def fn1 (name : Str) (method : D → Res D) : Named (Fn D) :=
  ⟨name, [], fun
    | [x] => method x
    | _ => .err .invalidArgumentCount⟩

/-- `LogFunction`, prexel/src/decimal/mod.rs 661-683. -/
def logFn : Named (Fn D) :=
  ⟨str "log", [], fun
    | [x] => d.log x d.ten
    | [x, b] => d.log x b
    | _ => .err .invalidArgumentCount⟩

/-- `ATanFunction`, prexel/src/decimal/mod.rs 1033-1053. -/
def atanFn : Named (Fn D) :=
  ⟨str "atan", [], fun
    | [x] => d.atan x
    | [y, x] => d.atan2 y x
    | _ => .err .invalidArgumentCount⟩

/-- `impl_checked_trig!` and `impl_checked_trig_rec!`, prexel/src/decimal/mod.rs 709-763: both convert to radians and call the method, the
call of `checked_inv` in the second is commented out. -/
def trigFn (name : Str) (method : D → Res D) : Named (Fn D) := fn1 name fun x => (d.toRadians x).bind method

/-- `impl_checked_arc_trig_rec!`, prexel/src/decimal/mod.rs 936-960. -/
def arcRecFn (name : Str) (method : D → Res D) : Named (Fn D) := fn1 name fun x => (d.inv x).bind method

/-- `forward_checked_func_inv_impl!`, prexel/src/decimal/mod.rs 94-120. -/
def checkedInvFn (name : Str) (method : D → Res D) : Named (Fn D) := fn1 name fun x => (method x).bind d.checkedInv

/-- The operations of `Decimal` through the traits of `prexel/src/num.rs` (`impl_checked_ops!`): only `lt`, `toF64` and `fromF64` are used. -/
def num : Num D F where
  zero := d.zero
  one := d.one
  isZero := d.isZero
  isOne := d.isOne
  lt := d.lt
  ge x y := !d.lt x y
  checkedAdd := d.checkedAdd
  checkedSub := d.checkedSub
  checkedMul := d.checkedMul
  checkedDiv := d.checkedDiv
  checkedRem := d.checkedRem
  checkedNeg x := some (d.neg x)
  add := d.add
  sub := d.sub
  mul := d.mul
  div := d.div
  rem := d.rem
  neg x := .ok (d.neg x)
  fromUsize n := some (d.nat n)
  toF64 := d.toF64
  fromF64 := d.fromF64
  fuel _ := d.fuel

/-- The binary operators, prexel/src/decimal/mod.rs 1165-1170. -/
def binaryOps : List (Named (BinFn D)) := [d.addOp, d.subOp, d.mulOp, d.divOp, d.powOp, d.modOp]
/-- The unary operators, prexel/src/decimal/mod.rs 1171-1173. -/
def unaryOps (f : F64 F) : List (Named (UnFn D)) := [Ops.unaryPlus, d.negOp, d.factorialOp f]
/-- The functions, prexel/src/decimal/mod.rs 1174-1214. -/
def functions (f : F64 F) : List (Named (Fn D)) :=
  [d.sumFn, d.avgFn, d.prodFn, Ops.max d.num, Ops.min d.num, fn1 (str "cbrt") d.cbrt, fn1 (str "sqrt") (d.sqrt f),
   fn1 (str "ln") d.ln, d.logFn, Ops.random f d.num, fn1 (str "ceil") (fun x => .ok (d.ceil x)), fn1 (str "floor") (fun x => .ok (d.floor x)),
   fn1 (str "truncate") (fun x => .ok (d.trunc x)), fn1 (str "round") (fun x => .ok (d.round x)), fn1 (str "exp") d.exp,
   fn1 (str "to_radians") d.toRadians, fn1 (str "to_degrees") d.toDegrees,
   d.trigFn (str "sin") d.sin, d.trigFn (str "cos") d.cos, d.trigFn (str "tan") d.tan,
   d.trigFn (str "csc") d.sin, d.trigFn (str "sec") d.cos, d.trigFn (str "cot") d.tan,
   d.trigFn (str "asin") (d.asin f), d.trigFn (str "acos") (d.acos f), d.atanFn,
   d.arcRecFn (str "acsc") (d.asin f), d.arcRecFn (str "asec") (d.acos f), fn1 (str "acot") d.atan,
   fn1 (str "sinh") d.sinh, fn1 (str "cosh") d.cosh, fn1 (str "tanh") d.tanh,
   d.checkedInvFn (str "csch") d.sinh, d.checkedInvFn (str "sech") d.cosh, d.checkedInvFn (str "coth") d.tanh,
   fn1 (str "asinh") (d.asinh f), fn1 (str "acosh") (d.acosh f), fn1 (str "atanh") d.atanh,
   fn1 (str "acsch") (fun x => (d.asinh f x).bind d.inv), d.checkedInvFn (str "asech") (d.acosh f), d.checkedInvFn (str "acoth") d.atanh]

/-- `DefaultContext::with_config_decimal`, prexel/src/decimal/mod.rs 1160-1217. -/
def context (K : Keys) (debug : Bool) (f : F64 F) (config : Config) : Res (Context D) :=
  (Context.withConfig config).runUnwrap K debug (buildOps [(str "PI", d.pi), (str "E", d.e)] d.binaryOps (d.unaryOps f) (d.functions f))

end Dec
end Prexel
