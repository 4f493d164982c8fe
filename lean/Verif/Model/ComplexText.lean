import Verif.Model.Complex
import Verif.Model.DoubleText
/-!
# `num_complex::Complex<f64>`

The complex numbers that the programs use (prexel-server/src/services/evaluator.rs 86-111, eval/src/eval_expr.rs 54-60, `Complex<f64>` of the crate
num-complex 0.2.4): components are IEEE 754 doubles. The crate is not part of the repository; its `FromStr` and `Display` are written out here from
its source, its functions (powers, logarithms, trigonometry) are parameters.
-/

namespace Prexel.C64
open B64

/-- The functions of `Complex<f64>` that are not modelled. -/
structure Lib where
  powc : Cplx B64 → Cplx B64 → Cplx B64
  log : Cplx B64 → B64 → Cplx B64
  sqrt : Cplx B64 → Cplx B64
  ln : Cplx B64 → Cplx B64
  exp : Cplx B64 → Cplx B64
  sin : Cplx B64 → Cplx B64
  cos : Cplx B64 → Cplx B64
  tan : Cplx B64 → Cplx B64
  asin : Cplx B64 → Cplx B64
  acos : Cplx B64 → Cplx B64
  atan : Cplx B64 → Cplx B64
  sinh : Cplx B64 → Cplx B64
  cosh : Cplx B64 → Cplx B64
  tanh : Cplx B64 → Cplx B64
  asinh : Cplx B64 → Cplx B64
  acosh : Cplx B64 → Cplx B64
  atanh : Cplx B64 → Cplx B64
  /-- The numbers drawn by `rand::random::<f64>()`. -/
  random1 : B64
  random2 : B64

/-- `Complex<f64>` as the complex context (prexel/src/complex/mod.rs 413-466) uses it. -/
def cx (lib : Lib) : Cx B64 where
  zero := B64.zero false
  one := lit 1
  add := B64.add
  sub := B64.sub
  mul := B64.mul
  div := B64.div
  rem := B64.rem
  neg := B64.neg
  isZero := B64.isZero
  isSignNegative := B64.sign
  ten := some (lit 10)
  pi := some B64.pi
  e := some B64.e
  fromUsize n := some (lit (n : ℚ))
  random1 := some lib.random1
  random2 := some lib.random2
  powc := lib.powc
  log := lib.log
  sqrt := lib.sqrt
  ln := lib.ln
  exp := lib.exp
  sin := lib.sin
  cos := lib.cos
  tan := lib.tan
  asin := lib.asin
  acos := lib.acos
  atan := lib.atan
  sinh := lib.sinh
  cosh := lib.cosh
  tanh := lib.tanh
  asinh := lib.asinh
  acosh := lib.acosh
  atanh := lib.atanh

/-- The text up to the first sign that is not the first character and not behind an `e` or `E`; the sign; the text behind it.
num-complex 0.2.4, `from_str_generic`: the loop over `s.as_bytes().windows(2)`. -/
def cutAt : Str → Option (Str × Char × Str)
  | p :: c :: r =>
    if (c = '+' ∨ c = '-') ∧ ¬(p = 'e' ∨ p = 'E') then some ([p], c, r)
    else (cutAt (c :: r)).map fun x => (p :: x.1, x.2)
  | _ => none

/-- `trim_start_matches(char::is_whitespace)` -/
def trimStart (s : Str) : Str := s.dropWhile isWhitespace
/-- `trim_end_matches(char::is_whitespace)` -/
def trimEnd (s : Str) : Str := (s.reverse.dropWhile isWhitespace).reverse

/-- num-complex 0.2.4, `from_str_generic`: the two parts, and whether a minus sign stands between them. -/
def halves (s : Str) : Option (Str × Str × Bool) :=
  match cutAt s with
  | none => some (s, [], false)
  | some (a, c, b) =>
    let b := trimStart b
    if b = [] ∨ (c = '-' ∧ b.head? = some '-') then none else some (trimEnd a, b, c == '-')

/-- `T::zero() - x` behind a minus sign -/
def minus (neg : Bool) (x : B64) : B64 := if neg then B64.sub (B64.zero false) x else x

/-- The factor of the imaginary unit, without the unit: nothing and `+` are 1, `-` is -1. -/
def factor (im : Str) : Str := if im = [] ∨ im = ['+'] then ['1'] else if im = ['-'] then ['-', '1'] else im

/-- num-complex 0.2.4, `from_str_generic`: real and imaginary part. -/
def parts (re : Str) (negRe : Bool) (im : Str) (negIm : Bool) : Option (Cplx B64) :=
  match fromStr re, fromStr (factor im.dropLast) with
  | some x, some y => some ⟨minus negRe x, minus negIm y⟩
  | _, _ => none

/-- num-complex 0.2.4, `FromStr for Complex<f64>` -/
def read (s : Str) : Option (Cplx B64) :=
  let imag := if 'j' ∈ s then 'j' else 'i'
  match halves s with
  | none => none
  | some (a, b, neg) =>
    let b := if b = [] then (if a.getLast? = some imag then ['0'] else ['0', 'i']) else b
    if a.getLast? = some imag then parts b neg a false
    else if b.getLast? = some imag then parts a false b neg
    else none

/-- num-complex 0.2.4, `Display for Complex<f64>` (`write_complex!`). -/
def shown (z : Cplx B64) : Str :=
  let zero := B64.zero false
  let size := fun x : B64 => if x.lt zero then B64.sub zero x else x
  (if z.re.lt zero then ['-'] else []) ++ toStr (size z.re) ++ (if z.im.lt zero then ['-'] else ['+']) ++ toStr (size z.im) ++ ['i']

end Prexel.C64
