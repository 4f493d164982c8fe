import Verif.Spec.Arith
import Verif.Spec.Binary64
import Verif.Model.Complex
/-!
# Specification: complex arithmetic and doubles
-/

namespace Prexel

/-- The real and the imaginary part of a complex number over doubles, as rational numbers. -/
def Cplx.value (z : Cplx B64) : ℚ × ℚ := (z.re.val, z.im.val)

/-- Both parts are finite. -/
def Cplx.Finite (z : Cplx B64) : Prop := z.re.isFin ∧ z.im.isFin

/-- The exact value of a tree of sums, differences, products, quotients and signs of complex numbers; nothing if a divisor is zero. -/
def Arith.complexValue : Arith (Cplx B64) → Option (ℚ × ℚ)
  | .num z => some z.value
  | .neg e => e.complexValue.map fun x => (-x.1, -x.2)
  | .fact _ => none
  | .bin o l r => l.complexValue.bind fun x => r.complexValue.bind fun y =>
    match o with
    | .add => some (x.1 + y.1, x.2 + y.2)
    | .sub => some (x.1 - y.1, x.2 - y.2)
    | .mul => some (x.1 * y.1 - x.2 * y.2, x.1 * y.2 + x.2 * y.1)
    | .div => if y = (0, 0) then none
      else some ((x.1 * y.1 + x.2 * y.2) / (y.1 * y.1 + y.2 * y.2), (x.2 * y.1 - x.1 * y.2) / (y.1 * y.1 + y.2 * y.2))
    | _ => none

/-- The exact results of the steps that an operator takes are doubles. -/
def ArOp.StepsDouble (o : ArOp) (x y : ℚ × ℚ) : Prop :=
  match o with
  | .add => IsDouble (x.1 + y.1) ∧ IsDouble (x.2 + y.2)
  | .sub => IsDouble (x.1 - y.1) ∧ IsDouble (x.2 - y.2)
  | .mul => (IsDouble (x.1 * y.1) ∧ IsDouble (x.2 * y.2) ∧ IsDouble (x.1 * y.2) ∧ IsDouble (x.2 * y.1)) ∧
      IsDouble (x.1 * y.1 - x.2 * y.2) ∧ IsDouble (x.1 * y.2 + x.2 * y.1)
  | .div => (IsDouble (x.1 * y.1) ∧ IsDouble (x.2 * y.2) ∧ IsDouble (x.1 * y.2) ∧ IsDouble (x.2 * y.1)) ∧
      (IsDouble (y.1 * y.1) ∧ IsDouble (y.2 * y.2) ∧ IsDouble (y.1 * y.1 + y.2 * y.2)) ∧
      (IsDouble (x.1 * y.1 + x.2 * y.2) ∧ IsDouble (x.2 * y.1 - x.1 * y.2)) ∧
      IsDouble ((x.1 * y.1 + x.2 * y.2) / (y.1 * y.1 + y.2 * y.2)) ∧ IsDouble ((x.2 * y.1 - x.1 * y.2) / (y.1 * y.1 + y.2 * y.2))
  | _ => False

/-- Sums, differences, products, quotients and signs of finite numbers, with all steps exact. -/
def Arith.StepsDouble : Arith (Cplx B64) → Prop
  | .num z => z.Finite
  | .neg e => e.StepsDouble
  | .fact _ => False
  | .bin o l r => l.StepsDouble ∧ r.StepsDouble ∧ ∀ x y, l.complexValue = some x → r.complexValue = some y → (o = .div ∧ y = (0, 0)) ∨ o.StepsDouble x y

/-- A tree of sums, differences, products and signs of numbers whose parts are whole. -/
def Arith.WholeComplex : Arith (Cplx B64) → Prop
  | .num z => z.Finite ∧ (∃ n : ℤ, z.re.val = n) ∧ ∃ n : ℤ, z.im.val = n
  | .neg e => e.WholeComplex
  | .fact _ => False
  | .bin o l r => (o = .add ∨ o = .sub ∨ o = .mul) ∧ l.WholeComplex ∧ r.WholeComplex

/-- The tree with every number `a + bi` replaced by `|a| + |b|`, and with plus for minus. -/
def Arith.size : Arith (Cplx B64) → ℚ
  | .num z => |z.re.val| + |z.im.val|
  | .neg e => e.size
  | .fact _ => 0
  | .bin .mul l r => l.size * r.size
  | .bin _ l r => l.size + r.size

/-- The size of every part is at most 2^53. -/
def Arith.AllSmall : Arith (Cplx B64) → Prop
  | .num z => (Arith.num z).size ≤ 2 ^ 53
  | .neg e => e.AllSmall
  | .fact e => e.AllSmall
  | .bin o l r => l.AllSmall ∧ r.AllSmall ∧ (Arith.bin o l r).size ≤ 2 ^ 53

end Prexel
