import Verif.Model.Ops
import Verif.Model.Evaluator
import Verif.Spec.Calls
/-!
# Specification: functions computed with floating point numbers

What the manual says of each function of one argument: which function of the mathematical library it is, and whether angles are in degrees.
-/

namespace Prexel
variable {N F : Type}

/-- The nearest whole number if that is less than `error` away, otherwise the number. -/
def snap (f : F64 F) (x : F) : F := if f.lt (f.abs (f.sub x (f.round x))) f.error = true then f.round x else x

/-- Neither infinite nor NaN. -/
def F64.Finite (f : F64 F) (x : F) : Prop := f.isNan x = false ∧ f.isInfinite x = false

/-- Functions of a number, with their names; the argument is snapped first. -/
def plainTable (f : F64 F) : List (Str × (F → F)) :=
  [(str "sqrt", f.sqrt), (str "ln", f.ln), (str "exp", f.exp), (str "to_radians", f.toRadians), (str "to_degrees", f.toDegrees),
   (str "sinh", f.sinh), (str "cosh", f.cosh), (str "tanh", f.tanh), (str "csch", fun x => f.inv (f.sinh x)),
   (str "sech", fun x => f.inv (f.cosh x)), (str "coth", fun x => f.inv (f.tanh x))]

/-- Functions of a number which only the checked context has. -/
def roundingTable (f : F64 F) : List (Str × (F → F)) :=
  [(str "floor", f.floor), (str "ceil", f.ceil), (str "round", f.round)]

/-- The functions whose names depend on the feature `docs`. -/
def docsTable (f : F64 F) : List (Str × Str × (F → F)) :=
  [(str "trunc", str "truncate", f.trunc), (str "signum", str "sign", f.signum)]

/-- Functions of an angle in degrees. -/
def angleTable (f : F64 F) : List (Str × (F → F)) := [(str "sin", f.sin), (str "cos", f.cos), (str "tan", f.tan)]

/-- Their reciprocals. -/
def angleInvTable (f : F64 F) : List (Str × (F → F)) := [(str "csc", f.sin), (str "sec", f.cos), (str "cot", f.tan)]

/-- Functions whose result is an angle in degrees. -/
def arcTable (f : F64 F) : List (Str × (F → F)) := [(str "asin", f.asin), (str "acos", f.acos)]

/-- Functions whose result is the angle in degrees that belongs to the reciprocal of the argument. -/
def arcInvTable (f : F64 F) : List (Str × (F → F)) := [(str "acsc", f.asin), (str "asec", f.acos), (str "acot", f.atan)]

/-- The area functions; these are no angles. -/
def areaTable (f : F64 F) : List (Str × (F → F)) := [(str "asinh", f.asinh), (str "acosh", f.acosh), (str "atanh", f.atanh)]

/-- The area functions of the reciprocal. -/
def areaInvTable (f : F64 F) : List (Str × (F → F)) := [(str "acsch", f.asinh), (str "asech", f.acosh), (str "acoth", f.atanh)]

/-- A number with this floating point value, or the error that there is none. -/
def fromFloatOr (num : Num N F) (r : F) : Res N := Res.ofOption (num.fromF64 r) .overflow

/-- A number with this floating point value if it is finite, otherwise the error `NAN`. -/
def FiniteOr (f : F64 F) (num : Num N F) (r : F) (result : Res N) : Prop :=
  (f.Finite r → result = fromFloatOr num r) ∧ (¬ f.Finite r → result = .err .nan)

/-- What calls with one argument whose floating point value is `v` give. -/
def OneArgument (ctx : Ctx N) (f : F64 F) (num : Num N F) : Prop := ∀ (x : N) (v : F), num.toF64 x = some v →
  let call := fun name => evalTokens ctx (callTokens name [x])
  (∀ e ∈ plainTable f, (f.Finite v → call e.1 = fromFloatOr num (e.2 (snap f v))) ∧ (¬ f.Finite v → call e.1 = .err .nan)) ∧
  (∀ e ∈ angleTable f, FiniteOr f num (snap f (e.2 (f.toRadians v))) (call e.1)) ∧
  (∀ e ∈ angleInvTable f, FiniteOr f num (f.inv (snap f (e.2 (f.toRadians v)))) (call e.1)) ∧
  (∀ e ∈ arcTable f, FiniteOr f num (snap f (f.toDegrees (e.2 v))) (call e.1)) ∧
  (∀ e ∈ arcInvTable f, FiniteOr f num (snap f (f.toDegrees (e.2 (f.inv v)))) (call e.1)) ∧
  FiniteOr f num (f.toDegrees (f.atan v)) (call (str "atan")) ∧
  FiniteOr f num (f.log10 v) (call (str "log"))

/-- What calls with two arguments whose floating point values are `v` and `u` give, and the power. -/
def TwoArguments (ctx : Ctx N) (f : F64 F) (num : Num N F) : Prop := ∀ (x y : N) (v u : F), num.toF64 x = some v → num.toF64 y = some u →
  let call := fun name => evalTokens ctx (callTokens name [x, y])
  FiniteOr f num (f.log v u) (call (str "log")) ∧
  (f.isZero v = true ∧ f.isZero u = true → call (str "atan") = .err .nan) ∧
  (f.isZero v = false ∨ f.isZero u = false → FiniteOr f num (f.toDegrees (f.atan2 v u)) (call (str "atan"))) ∧
  evalTokens ctx (infixTokens x (str "^") y) = fromFloatOr num (f.powf v u)

/-- Finite floating point numbers as rational numbers: comparison, and the functions that give whole numbers, are exact. So is the distance to
the nearest whole number. -/
structure F64.Whole (f : F64 F) where
  val : F → Rat
  lt : ∀ x y, f.Finite x → f.Finite y → (f.lt x y = true ↔ val x < val y)
  round : ∀ x, f.Finite x → f.Finite (f.round x) ∧ ∃ n : Int, val (f.round x) = n ∧ -(1 / 2) ≤ val x - n ∧ val x - n ≤ 1 / 2
  distance : ∀ x, f.Finite x → f.Finite (f.abs (f.sub x (f.round x))) ∧
    val (f.abs (f.sub x (f.round x))) = if val x < val (f.round x) then val (f.round x) - val x else val x - val (f.round x)
  floor : ∀ x, f.Finite x → f.Finite (f.floor x) ∧ ∃ n : Int, val (f.floor x) = n ∧ n ≤ val x ∧ val x < n + 1
  ceil : ∀ x, f.Finite x → f.Finite (f.ceil x) ∧ ∃ n : Int, val (f.ceil x) = n ∧ n - 1 < val x ∧ val x ≤ n
  error : f.Finite f.error ∧ 0 < val f.error ∧ val f.error < 1 / 2

/-- Finite floating point numbers as rational numbers: a result that is not beyond a finite number is the exact one, rounded. Rounding keeps
the order and leaves floating point numbers alone. -/
structure F64.Rounds (f : F64 F) where
  val : F → Rat
  rnd : Rat → Rat
  mono : ∀ a b, a ≤ b → rnd a ≤ rnd b
  keep : ∀ x, f.Finite x → rnd (val x) = val x
  zero : rnd 0 = 0
  lt : ∀ x y, f.Finite x → f.Finite y → (f.lt x y = true ↔ val x < val y)
  /-- Minus zero exists, so nothing is said about zero. -/
  sign : ∀ x, f.Finite x → (val x < 0 → f.isSignNegative x = true) ∧ (0 < val x → f.isSignNegative x = false)
  mul : ∀ x y z, f.Finite x → f.Finite y → f.Finite z → 0 ≤ val x * val y → val x * val y ≤ val z →
    f.Finite (f.mul x y) ∧ val (f.mul x y) = rnd (val x * val y)
  add : ∀ x y lo hi, f.Finite x → f.Finite y → f.Finite lo → f.Finite hi → val lo ≤ val x + val y → val x + val y ≤ val hi →
    f.Finite (f.add x y) ∧ val (f.add x y) = rnd (val x + val y)
  /-- A number drawn by `rand::random`. -/
  draw : f.Finite f.random ∧ 0 ≤ val f.random ∧ val f.random < 1

end Prexel
