import Verif.Spec.Integer
/-!
# Specification: integer arithmetic step by step, and how it fails
-/

namespace Prexel
variable {w : Width}

/-- How a calculation ends. -/
inductive Ending where
  /-- With a value. -/
  | value (z : Int)
  /-- At a result that does not fit the type. -/
  | tooLarge
  /-- At a division by zero. -/
  | byZero
  deriving DecidableEq

/-- A result, if it fits. -/
def Ending.fit (w : Width) (z : Int) : Ending := if w.Fits z then .value z else .tooLarge

/-- One step, with operands that fit. A remainder is found by dividing, so the quotient has to fit as well. -/
def Ending.step (w : Width) : ArOp → Int → Int → Ending
  | .add, x, y => .fit w (x + y)
  | .sub, x, y => .fit w (x - y)
  | .mul, x, y => .fit w (x * y)
  | .div, x, y => if y = 0 then .byZero else .fit w (x.tdiv y)
  | .mod, x, y => if y = 0 then .byZero else if w.Fits (x.tdiv y) then .value (x.tmod y) else .tooLarge
  | .pow, _, _ => .tooLarge

/-- The calculation by hand: the left operand, then the right operand, then the operator, until a step fails. Trees of `+`, `-`, `*`, `/`, `mod` and signs
(`Arith.Basic`). -/
def Arith.byHand : Arith (SInt w) → Ending
  | .num n => .value n.1
  | .neg e => match e.byHand with
    | .value x => .fit w (-x)
    | o => o
  | .fact _ => .tooLarge
  | .bin o l r => match l.byHand with
    | .value x => match r.byHand with
      | .value y => .step w o x y
      | o => o
    | o => o

end Prexel
