import Verif.Model.Binary64
import Verif.Model.Splitter
/-!
# Reading and printing `f64`

`f64::from_str` and `Display for f64` of the Rust standard library, which `Tokenizer::tokenize` (prexel/src/tokenizer.rs 85),
`eval_float_expression` (prexel-server/src/services/evaluator.rs) and the command line program (eval/src/eval_expr.rs) use.
-/

namespace Prexel.B64

/-- The number that digits stand for. -/
def natOf (s : Str) : ℕ := s.foldl (fun a c => 10 * a + (c.toNat - 48)) 0

/-- One or more digits. -/
def someDigits (s : Str) : Option ℕ := if s ≠ [] ∧ s.all isDigit = true then some (natOf s) else none

/-- What follows the digits: nothing, or `e` and an exponent. -/
def exponentOf : Str → Option ℤ
  | [] => some 0
  | c :: s =>
    if c = 'e' ∨ c = 'E' then
      match s with
      | '-' :: t => (someDigits t).map fun n => -(n : ℤ)
      | '+' :: t => (someDigits t).map fun n => (n : ℤ)
      | t => (someDigits t).map fun n => (n : ℤ)
    else none

/-- The digits behind a point, and the rest. -/
def fractionOf : Str → Str × Str
  | '.' :: s => (s.takeWhile isDigit, s.dropWhile isDigit)
  | s => ([], s)

/-- Digits, a point with digits, an exponent; there must be a digit before or behind the point. -/
def numberOf (s : Str) : Option ℚ :=
  let a := s.takeWhile isDigit
  let (b, rest) := fractionOf (s.dropWhile isDigit)
  if a = [] ∧ b = [] then none else (exponentOf rest).map fun e : ℤ => (natOf (a ++ b) : ℚ) * 10 ^ (e - (b.length : ℤ))

/-- Without a sign. -/
def unsigned (neg : Bool) (s : Str) : Option B64 :=
  let w := s.map Char.toLower
  if w = str "nan" then some .nan
  else if w = str "inf" ∨ w = str "infinity" then some (.inf neg)
  else (numberOf s).map fun q => of neg (if neg then -q else q)

/-- `f64::from_str`, as documented: an optional sign; `inf`, `infinity` or `nan` in any case, or a number, which is rounded to the nearest double.
(Before Rust 1.55 only `inf` and `NaN` were accepted, and no number without digits before the point.) -/
def fromStr : Str → Option B64
  | '-' :: s => unsigned true s
  | '+' :: s => unsigned false s
  | s => unsigned false s

/-- The multiple of 10^j next to `v` that is read as the number of units `k`, of two the nearer one. -/
@[irreducible] def candidate (k : ℕ) (v : ℚ) (j : ℤ) : Option ℕ :=
  let lo := ⌊v / 10 ^ j⌋.toNat
  let reads := fun n : ℕ => units ((n : ℚ) * 10 ^ j * perOne) = k
  if reads lo then (if reads (lo + 1) ∧ 1 / 2 ≤ v / 10 ^ j - lo then some (lo + 1) else some lo)
  else if reads (lo + 1) then some (lo + 1) else none

/-- The shortest digits that are read as the number: the first position of the last digit, from 10^309 downwards, at which there are some. -/
def shortest (k : ℕ) (v : ℚ) : ℕ → ℤ → ℕ × ℤ
  | 0, j => (⌊v / 10 ^ j⌋.toNat, j)
  | n + 1, j => match candidate k v j with
    | some d => (d, j)
    | none => shortest k v n (j - 1)

/-- Digits with a point `n` places from the right. -/
def pointed (s : Str) (n : ℕ) : Str :=
  let s := List.replicate (n + 1 - s.length) '0' ++ s
  s.take (s.length - n) ++ '.' :: s.drop (s.length - n)

/-- `d * 10^j` without an exponent. -/
def plain (d : ℕ) (j : ℤ) : Str :=
  if 0 ≤ j then Nat.toDigits 10 d ++ List.replicate j.toNat '0' else pointed (Nat.toDigits 10 d) (-j).toNat

/-- The text of a finite double without its sign. Every double is a multiple of 10^-1074, so that the search ends there at the latest. -/
def digitsOf (k : ℕ) : Str :=
  if k = 0 then ['0'] else
    let (d, j) := shortest k (k / perOne) 1383 309
    plain d j

/-- `Display for f64`, `{}`: the shortest digits that are read as the number, without exponent. -/
def toStr : B64 → Str
  | .nan => str "NaN"
  | .inf neg => if neg then str "-inf" else str "inf"
  | .fin neg k _ => if neg then '-' :: digitsOf k else digitsOf k

end Prexel.B64
