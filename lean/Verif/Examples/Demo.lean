import Verif.Spec.Syntax
/-!
# A small context over `Int` used by the examples beside the theorems
-/

namespace Prexel.Demo

def add : BinFn Int := ⟨1, .left, fun x y => .ok (x + y)⟩
def sub : BinFn Int := ⟨1, .left, fun x y => .ok (x - y)⟩
def mul : BinFn Int := ⟨2, .left, fun x y => .ok (x * y)⟩
def div : BinFn Int := ⟨2, .left, fun x y => if y = 0 then .err .divisionByZero else .ok (x.tdiv y)⟩
def pow : BinFn Int := ⟨3, .right, fun x y => if y < 0 then .err .negativeValue else .ok (x ^ y.toNat)⟩
def neg : UnFn Int := ⟨.pre, fun x => .ok (-x)⟩
/-- A postfix operator: `x %` is `x * 100`. -/
def pct : UnFn Int := ⟨.post, fun x => .ok (x * 100)⟩
def sum : Fn Int := fun xs => if xs = [] then .err .invalidArgumentCount else .ok (xs.foldl (· + ·) 0)
/-- The arguments as decimal digits: shows which arguments were received, and in which order. -/
def digits : Fn Int := fun xs => .ok (xs.foldl (fun a x => a * 10 + x) 0)

/-- The demo context with the given switches. -/
def ctx (implicitMul customCall : Bool) : Ctx Int where
  config := ⟨implicitMul, false, customCall, [.parenthesis]⟩
  getVariable := fun s => if s = ['x'] then some 3 else none
  getConstant := fun s => if s = ['k'] then some 7 else none
  getFunction := fun s => if s = ['s', 'u', 'm'] then some sum else if s = ['d'] then some digits else none
  getUnary := fun s => if s = ['-'] then some neg else if s = ['%'] then some pct else none
  getBinary := fun s =>
    if s = ['+'] then some add else if s = ['-'] then some sub else if s = ['*'] then some mul
    else if s = ['/'] then some div else if s = ['^'] then some pow else none

/-- Unsigned decimal literals. -/
def parse (s : Str) : Option Int :=
  if s ≠ [] ∧ s.all (fun c => decide ('0' ≤ c) && decide (c ≤ '9')) then some (s.foldl (fun a c => a * 10 + (c.toNat - 48 : Nat)) 0) else none

end Prexel.Demo
