import Verif.Model.Numeric
import Verif.Spec.Arith
/-!
# Specification: exact integer arithmetic
-/

namespace Prexel
variable {w : Width}

/-- The exact result, or `Overflow` if it does not fit. -/
def exactly (x : Int) : Res (SInt w) := if h : w.Fits x then .ok ⟨x, h⟩ else .err .overflow

/-- The factorial. -/
def fact : Nat → Nat
  | 0 => 1
  | n + 1 => (n + 1) * fact n

/-- Only sums, differences, products, quotients, remainders and signs. -/
def Arith.Basic {N : Type} : Arith N → Prop
  | .num _ => True
  | .neg e => e.Basic
  | .fact _ => False
  | .bin o l r => o ≠ .pow ∧ l.Basic ∧ r.Basic

/-- The value of a basic tree over the unbounded integers; none if a divisor is zero. Quotients are rounded towards zero. -/
def Arith.exact : Arith (SInt w) → Option Int
  | .num n => some n.1
  | .neg e => e.exact.map fun x => -x
  | .fact _ => none
  | .bin o l r => l.exact.bind fun x => r.exact.bind fun y =>
    match o with
    | .add => some (x + y)
    | .sub => some (x - y)
    | .mul => some (x * y)
    | .div => if y = 0 then none else some (x.tdiv y)
    | .mod => if y = 0 then none else some (x.tmod y)
    | .pow => none

/-- Every part of the tree has a value that fits the type, and no part is `MIN mod -1`. -/
def Arith.AllFit : Arith (SInt w) → Prop
  | .num n => True
  | .neg e => e.AllFit ∧ ∃ x, (Arith.neg e).exact = some x ∧ w.Fits x
  | .fact e => False
  | .bin o l r => l.AllFit ∧ r.AllFit ∧ (∃ x, (Arith.bin o l r).exact = some x ∧ w.Fits x) ∧
    ¬ (o = .mod ∧ l.exact = some w.lo ∧ r.exact = some (-1))

/-- The sum of a list. -/
def total : List (SInt w) → Int
  | [] => 0
  | x :: xs => x.1 + total xs

/-- The product of a list. -/
def productOf : List (SInt w) → Int
  | [] => 1
  | x :: xs => x.1 * productOf xs

/-- Every beginning of the list, from the first element on, has a sum (`f` is `total`) or product that fits. -/
def PrefixesFit (f : List (SInt w) → Int) (l : List (SInt w)) : Prop := ∀ k, 0 < k → k ≤ l.length → w.Fits (f (l.take k))

end Prexel
