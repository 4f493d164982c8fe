import Verif.Model.Complex
/-!
# Specification: complex numbers
-/

namespace Prexel

/-- The components are exact: a contract for the component type under which complex arithmetic can be compared with mathematics. Floating
point numbers meet it only where nothing is rounded. -/
structure Cx.Exact {T : Type} (k : Cx T) where
  val : T → Rat
  zero : val k.zero = 0
  one : val k.one = 1
  add : ∀ x y, val (k.add x y) = val x + val y
  sub : ∀ x y, val (k.sub x y) = val x - val y
  mul : ∀ x y, val (k.mul x y) = val x * val y
  div : ∀ x y, val y ≠ 0 → val (k.div x y) = val x / val y
  neg : ∀ x, val (k.neg x) = - val x
  isZero : ∀ x, k.isZero x = true ↔ val x = 0

/-- The real and the imaginary part as rational numbers. -/
def Cx.Exact.parts {T : Type} {k : Cx T} (h : k.Exact) (z : Cplx T) : Rat × Rat := (h.val z.re, h.val z.im)

/-- The numbers drawn are in `[0, 1)`, and the order of the components agrees with the sign test; a contract for `random`. -/
structure Cx.Draws {T : Type} (k : Cx T) extends Cx.Exact k where
  random1 : T
  random2 : T
  drawn1 : k.random1 = some random1
  drawn2 : k.random2 = some random2
  range1 : 0 ≤ val random1 ∧ val random1 < 1
  range2 : 0 ≤ val random2 ∧ val random2 < 1
  /-- Zero can have either sign. -/
  negative : ∀ x, val x < 0 → k.isSignNegative x = true
  nonneg : ∀ x, 0 < val x → k.isSignNegative x = false

end Prexel
