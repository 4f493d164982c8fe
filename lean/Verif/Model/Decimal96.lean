import Verif.Model.Decimal
import Verif.Model.DoubleText
/-!
# `rust_decimal::Decimal`

The decimals that `prexel/src/decimal` computes with are those of the crate `rust_decimal` (prexel/Cargo.toml), which is not part of the
repository. `Verif.Spec.Decimal` states its contract; this file models the type itself as it is documented: a sign, a whole number of 96 bits
and a scale up to 28, every operation rounded once, half to even, to the most places behind the point that fit.
-/

namespace Prexel

/-- `Decimal`: `c / 10 ^ s` with a sign. -/
structure D96 where
  /-- The sign; there is a minus zero. -/
  neg : Bool
  /-- `Decimal::mantissa` without its sign. -/
  c : ℕ
  /-- `Decimal::scale`. -/
  s : ℕ
  small : c < 2 ^ 96
  scale : s ≤ 28
deriving DecidableEq

namespace D96

/-- The mantissa with its sign. -/
def int (x : D96) : ℤ := if x.neg then -(x.c : ℤ) else x.c

/-- The value. -/
def val (x : D96) : ℚ := x.int / 10 ^ x.s

/-- A decimal of these parts, or zero if there is none. -/
def mk' (neg : Bool) (c s : ℕ) : D96 := if h : c < 2 ^ 96 ∧ s ≤ 28 then ⟨neg, c, s, h.1, h.2⟩ else ⟨false, 0, 0, by norm_num, by omega⟩

/-- `n / d` rounded to a whole number, half to even. -/
def even (n d : ℕ) : ℕ := if d < 2 * (n % d) ∨ (2 * (n % d) = d ∧ n / d % 2 = 1) then n / d + 1 else n / d

/-- `n / d` with as many places behind the point as fit, but at most `s`. -/
def fit (neg : Bool) (n d : ℕ) : ℕ → Option D96
  | 0 => if h : even n d < 2 ^ 96 then some ⟨neg, even n d, 0, h, by omega⟩ else none
  | s + 1 => if h : even (n * 10 ^ (s + 1)) d < 2 ^ 96 ∧ s + 1 ≤ 28 then some ⟨neg, even (n * 10 ^ (s + 1)) d, s + 1, h.1, h.2⟩ else fit neg n d s

/-- The mantissa with its sign when the scale is raised to `m`. -/
def at_ (x : D96) (m : ℕ) : ℤ := x.int * 10 ^ (m - x.s)

/-- `checked_add`: the other number if one is zero, otherwise the sum with the larger of the two scales, if it fits. A sum of zero keeps the sign of
the first number. -/
def add (x y : D96) : Option D96 :=
  if x.c = 0 then some y else if y.c = 0 then some x else
    let m := max x.s y.s
    let t := x.at_ m + y.at_ m
    fit (if t = 0 then x.neg else decide (t < 0)) t.natAbs (10 ^ m) m

/-- `Neg`. -/
def opp (x : D96) : D96 := { x with neg := !x.neg }

/-- `checked_sub`: nothing is taken from minus zero. -/
def sub (x y : D96) : Option D96 := if y.c = 0 then (if x.c = 0 then some y else some x) else add x y.opp

/-- `checked_mul`: zero if one is zero, otherwise the product with the sum of the scales, if it fits. -/
def mul (x y : D96) : Option D96 :=
  if x.c = 0 ∨ y.c = 0 then some (mk' false 0 0) else
    fit (x.neg != y.neg) (x.c * y.c) (10 ^ (x.s + y.s)) (min (x.s + y.s) 28)

/-- Zeros at the end are dropped. -/
def strip (neg : Bool) (c : ℕ) : ℕ → D96
  | 0 => mk' neg c 0
  | s + 1 => if c % 10 = 0 then strip neg (c / 10) s else mk' neg c (s + 1)

/-- `checked_div`: 28 places, if they fit, without the zeros at the end. (`rust_decimal` keeps some of the zeros of the dividend; nothing is claimed
about the scale of a quotient.) -/
def div (x y : D96) : Option D96 :=
  if y.c = 0 then none else if x.c = 0 then some (mk' false 0 0) else
    (fit (x.neg != y.neg) (x.c * 10 ^ y.s) (y.c * 10 ^ x.s) 28).map fun z => strip z.neg z.c z.s

/-- `checked_rem`: exact, with the sign of the dividend. -/
def rem (x y : D96) : Option D96 :=
  if y.c = 0 then none else
    let m := max x.s y.s
    some (mk' x.neg (x.c * 10 ^ (m - x.s) % (y.c * 10 ^ (m - y.s))) m)

/-- `abs`. -/
def abs (x : D96) : D96 := { x with neg := false }

/-- `trunc`. -/
def trunc (x : D96) : D96 := mk' x.neg (x.c / 10 ^ x.s) 0

/-- `fract`. -/
def fract (x : D96) : D96 := mk' x.neg (x.c % 10 ^ x.s) x.s

/-- `floor`. -/
def floor (x : D96) : D96 := if x.neg = true ∧ x.c % 10 ^ x.s ≠ 0 then mk' true (x.c / 10 ^ x.s + 1) 0 else x.trunc

/-- `ceil`. -/
def ceil (x : D96) : D96 := if x.neg = false ∧ x.c % 10 ^ x.s ≠ 0 then mk' false (x.c / 10 ^ x.s + 1) 0 else x.trunc

/-- `round_dp`: half to even. -/
def roundDp (k : ℕ) (x : D96) : D96 := if x.s ≤ k then x else mk' x.neg (even x.c (10 ^ (x.s - k))) k

/-- `==`, by value. -/
def eq (x y : D96) : Bool := decide (x.int * 10 ^ y.s = y.int * 10 ^ x.s)

/-- `<`, by value. -/
def lt (x y : D96) : Bool := decide (x.int * 10 ^ y.s < y.int * 10 ^ x.s)

/-- `to_i64`: the whole part, if it is in the range. -/
def toI64 (x : D96) : Option ℤ := if i64.Fits x.trunc.int then some x.trunc.int else none

/-- What this model leaves open: the conversions, other texts than plain numerals of at most 29 digits, and the bound on loops of `Dec`. -/
structure Lib (F : Type) where
  toF64 : D96 → Option F
  fromF64 : F → Option D96
  /-- `Decimal::from_str` of a text that is not an ordinary numeral: without digits before the point, with `_`, with an exponent, with more digits
  than fit. -/
  other : Str → Option D96
  fuel : ℕ

/-- The literals `dec!(..)` are read at compile time. -/
def lit (neg : Bool) (c s : ℕ) : D96 := mk' neg c s

/-- The operations of `rust_decimal` and the constants of prexel/src/decimal/mod.rs 7-66 and prexel/src/decimal/decimal_ext.rs 549-566. -/
def dec {F : Type} (lib : Lib F) : Dec D96 F where
  checkedAdd := add
  checkedSub := sub
  checkedMul := mul
  checkedDiv := div
  checkedRem := rem
  neg := opp
  abs := abs
  fract := fract
  round := roundDp 0
  roundDp := roundDp
  trunc := trunc
  floor := floor
  ceil := ceil
  isZero x := decide (x.c = 0)
  isOne x := eq x (lit false 1 0)
  isSignNegative x := x.neg
  eq := eq
  lt := lt
  toI64 := toI64
  toF64 := lib.toF64
  fromF64 := lib.fromF64
  nat n := lit false n 0
  oneMinus := lit true 1 0
  half := lit false 5 1
  third := lit false 3333333333333333333333333333 28
  pi := lit false 31415926535897932384626433833 28
  pi2 := lit false 62831853071795864769252867666 28
  pi2Minus := lit true 62831853071795864769252867666 28
  piHalf := lit false 15707963267948966192313216916 28
  piQuarter := lit false 7853981633974483096156608458 28
  pi3Half := lit false 47123889803846898576939650750 28
  ln10 := lit false 23025850929940456840179914546 28
  e := lit false 27182818284590452353602874714 28
  precision := lit false 1 16
  gammaG := lit false 47421875 7
  gammaP0 := lit false 99999999999999709182 20
  gammaP := [lit false 57156235665862923517 18, lit true 59597960355475491248 18, lit false 14136097974741747174 18, lit true 49191381609762019978 20,
    lit false 33994649984811888699 24, lit false 46523628927048575665 24, lit true 98374475304879564677 24, lit false 15808870322491248884 23,
    lit true 21026444172410488319 23, lit false 2174396181152126432 22, lit true 16431810653676389022 23, lit false 84418223983852743293 24,
    lit true 2619083840158140867 23, lit false 36899182659531622704 25]
  fuel := lib.fuel

/-- Without its sign. -/
def digitsOf (c s : ℕ) : Str := if s = 0 then Nat.toDigits 10 c else B64.pointed (Nat.toDigits 10 c) s

/-- `Display for Decimal`: all places of the scale, none if it is 0. -/
def toStr (x : D96) : Str := if x.neg then '-' :: digitsOf x.c x.s else digitsOf x.c x.s

/-- A decimal of these parts, if there is one. -/
def exactly (neg : Bool) (c s : ℕ) : Option D96 := if h : c < 2 ^ 96 ∧ s ≤ 28 then some ⟨neg, c, s, h.1, h.2⟩ else none

/-- A numeral that can be read exactly: digits, or digits, a point and digits. -/
def plain (neg : Bool) (s : Str) : Option D96 :=
  let a := s.takeWhile isDigit
  let r := s.dropWhile isDigit
  let b := r.drop 1
  if a ≠ [] ∧ (r = [] ∨ (r.head? = some '.' ∧ b ≠ [] ∧ b.all isDigit = true)) then
    exactly neg (B64.natOf (a ++ b)) b.length
  else none

/-- `Decimal::from_str`. A sign may come first (the sign of a zero is left open). Without a digit, or with a letter at the beginning, there is no
number. -/
def fromStr {F : Type} (lib : Lib F) (s : Str) : Option D96 :=
  if s.any isDigit = false ∨ s.head?.any isLetter = true then none else
    match s with
    | '-' :: t => match plain true t with
      | some x => if x.c = 0 then lib.other s else some x
      | none => lib.other s
    | '+' :: t => match plain false t with
      | some x => some x
      | none => lib.other s
    | s => match plain false s with
      | some x => some x
      | none => lib.other s

end D96

end Prexel
