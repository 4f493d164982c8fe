import Verif.Spec.Complex
import Verif.Model.Splitter
/-!
# A complex number type used by the examples beside the theorems
-/

namespace Prexel.Demo

/-- Exact complex numbers; the functions are the identity and `log z b` is `(b, 0)`. -/
def cx : Cx Rat where
  zero := 0
  one := 1
  add := (· + ·)
  sub := (· - ·)
  mul := (· * ·)
  div := (· / ·)
  rem x y := x - y * (x / y).floor
  neg x := -x
  isZero x := decide (x = 0)
  isSignNegative x := decide (x < 0)
  ten := some 10
  pi := some 3
  e := some 2
  fromUsize n := some n
  random1 := some (1 / 2)
  random2 := some (1 / 4)
  powc z _ := z
  log _ b := ⟨b, 0⟩
  sqrt := id
  ln := id
  exp := id
  sin := id
  cos := id
  tan := id
  asin := id
  acos := id
  atan := id
  sinh := id
  cosh := id
  tanh := id
  asinh := id
  acosh := id
  atanh := id

def cxExact : cx.Exact where
  val := id
  zero := rfl
  one := rfl
  add _ _ := rfl
  sub _ _ := rfl
  mul _ _ := rfl
  div _ _ _ := rfl
  neg _ := rfl
  isZero x := by simp [cx]

def cxDraws : cx.Draws where
  toExact := cxExact
  random1 := 1 / 2
  random2 := 1 / 4
  drawn1 := rfl
  drawn2 := rfl
  range1 := by decide +kernel
  range2 := by decide +kernel
  negative x h := by simpa [cx, cxExact] using h
  nonneg x h := by
    have : ¬ x < 0 := by simp only [cxExact, id] at h; grind
    simp [cx, this]

/-- A whole number. -/
def digitsVal (s : Str) : Option Rat :=
  if s ≠ [] ∧ s.all isDigit then some ((s.foldl (fun n c => n * 10 + (c.toNat - 48)) 0 : Nat) : Rat) else none

/-- Literals `12`, `12i` and `i`. -/
def cxParse (s : Str) : Option (Cplx Rat) :=
  if s = ['i'] then some ⟨0, 1⟩
  else if s.getLast? = some 'i' then (digitsVal s.dropLast).map fun x => ⟨0, x⟩
  else (digitsVal s).map fun x => ⟨x, 0⟩

end Prexel.Demo
