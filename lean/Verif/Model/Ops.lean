import Verif.Model.Numeric
/-!
# Built-in operators and functions

Models `prexel/src/ops/checked.rs`, `prexel/src/ops/unchecked.rs` and `prexel/src/ops/mod.rs` for any number type.
-/

namespace Prexel.Ops
variable {N F : Type}

/-! ## Checked operators, prexel/src/ops/checked.rs -/

/-- `.ok_or_else(|| Error::from(ErrorKind::Overflow))`. -/
def orOverflow (o : Option N) : Res N := Res.ofOption o .overflow

/-- `Precedence::LOW`, prexel/src/function.rs 103. -/
def low : Nat := 1
/-- `Precedence::MEDIUM`, prexel/src/function.rs 106. -/
def medium : Nat := 2
/-- `Precedence::HIGH`, prexel/src/function.rs 109. -/
def high : Nat := 3

/-- `checked::AddOperator`, prexel/src/ops/checked.rs 13-36. -/
def checkedAdd (num : Num N F) : Named (BinFn N) := ⟨str "+", [], ⟨low, .left, fun x y => orOverflow (num.checkedAdd x y)⟩⟩
/-- `checked::SubOperator`, prexel/src/ops/checked.rs 38-61. -/
def checkedSub (num : Num N F) : Named (BinFn N) := ⟨str "-", [], ⟨low, .left, fun x y => orOverflow (num.checkedSub x y)⟩⟩
/-- `checked::MulOperator`, prexel/src/ops/checked.rs 63-86. -/
def checkedMul (num : Num N F) : Named (BinFn N) := ⟨str "*", [], ⟨medium, .left, fun x y => orOverflow (num.checkedMul x y)⟩⟩
/-- `checked::DivOperator`, prexel/src/ops/checked.rs 88-115. -/
def checkedDiv (num : Num N F) : Named (BinFn N) :=
  ⟨str "/", [], ⟨medium, .left, fun x y => if num.isZero y then .err .divisionByZero else orOverflow (num.checkedDiv x y)⟩⟩
/-- `checked::ModOperator`, prexel/src/ops/checked.rs 117-144. -/
def checkedMod (num : Num N F) : Named (BinFn N) :=
  ⟨str "mod", [], ⟨medium, .left, fun x y => if num.isZero y then .err .divisionByZero else orOverflow (num.checkedRem x y)⟩⟩
/-- `checked::UnaryMinus`, prexel/src/ops/checked.rs 146-164. -/
def checkedNeg (num : Num N F) : Named (UnFn N) := ⟨str "-", [], ⟨.pre, fun x => orOverflow (num.checkedNeg x)⟩⟩

/-- `checked::AbsFunction`, prexel/src/ops/checked.rs 166-188. -/
def checkedAbs (num : Num N F) : Named (Fn N) :=
  ⟨str "abs", [], fun
    | [x] => if num.ge x num.zero then .ok x else orOverflow (num.checkedNeg x)
    | _ => .err .invalidArgumentCount⟩

/-- The loop of `SumFunction` and `ProdFunction`, prexel/src/ops/checked.rs 197-210: `result` is `None` before the first argument. -/
def foldArgs (f : N → N → Res N) : Option N → List N → Res (Option N)
  | r, [] => .ok r
  | none, x :: xs => foldArgs f (some x) xs
  | some r, x :: xs => (f r x).bind fun r => foldArgs f (some r) xs

/-- `result.ok_or_else(|| Error::from(ErrorKind::InvalidArgumentCount))`. -/
def orArgumentCount (r : Res (Option N)) : Res N := r.bind fun o => Res.ofOption o .invalidArgumentCount

/-- `checked::SumFunction`, prexel/src/ops/checked.rs 190-218. -/
def checkedSum (num : Num N F) : Named (Fn N) :=
  ⟨str "sum", [], fun args => orArgumentCount (foldArgs (fun x y => orOverflow (num.checkedAdd x y)) none args)⟩
/-- `checked::ProdFunction`, prexel/src/ops/checked.rs 220-248. -/
def checkedProd (num : Num N F) : Named (Fn N) :=
  ⟨str "product", [], fun args => orArgumentCount (foldArgs (fun x y => orOverflow (num.checkedMul x y)) none args)⟩
/-- `checked::AvgFunction`, prexel/src/ops/checked.rs 250-287. `from_usize(..).unwrap()` may panic. -/
def checkedAvg (num : Num N F) : Named (Fn N) :=
  ⟨str "avg", [], fun args =>
    (foldArgs (fun x y => orOverflow (num.checkedAdd x y)) none args).bind fun
      | some n =>
        match num.fromUsize args.length with
        | some k => orOverflow (num.checkedDiv n k)
        | none => .panic
      | none => .err .invalidArgumentCount⟩

/-! ## Unchecked operators, prexel/src/ops/unchecked.rs -/

/-- `unchecked::AddOperator`, prexel/src/ops/unchecked.rs 14-36. -/
def uncheckedAdd (num : Num N F) : Named (BinFn N) := ⟨str "+", [], ⟨low, .left, num.add⟩⟩
/-- `unchecked::SubOperator`, prexel/src/ops/unchecked.rs 38-60. -/
def uncheckedSub (num : Num N F) : Named (BinFn N) := ⟨str "-", [], ⟨low, .left, num.sub⟩⟩
/-- `unchecked::MulOperator`, prexel/src/ops/unchecked.rs 62-84. -/
def uncheckedMul (num : Num N F) : Named (BinFn N) := ⟨str "*", [], ⟨medium, .left, num.mul⟩⟩
/-- `unchecked::DivOperator`, prexel/src/ops/unchecked.rs 86-112. -/
def uncheckedDiv (num : Num N F) : Named (BinFn N) :=
  ⟨str "/", [], ⟨medium, .left, fun x y => if num.isZero y then .err .divisionByZero else num.div x y⟩⟩
/-- `unchecked::ModOperator`, prexel/src/ops/unchecked.rs 114-140. -/
def uncheckedMod (num : Num N F) : Named (BinFn N) :=
  ⟨str "mod", [], ⟨medium, .left, fun x y => if num.isZero y then .err .divisionByZero else num.rem x y⟩⟩
/-- `unchecked::UnaryMinus`, prexel/src/ops/unchecked.rs 142-160. -/
def uncheckedNeg (num : Num N F) : Named (UnFn N) := ⟨str "-", [], ⟨.pre, num.neg⟩⟩
/-- `unchecked::SumFunction`, prexel/src/ops/unchecked.rs 184-210. -/
def uncheckedSum (num : Num N F) : Named (Fn N) := ⟨str "sum", [], fun args => orArgumentCount (foldArgs num.add none args)⟩
/-- `unchecked::ProdFunction`, prexel/src/ops/unchecked.rs 212-238. -/
def uncheckedProd (num : Num N F) : Named (Fn N) := ⟨str "product", [], fun args => orArgumentCount (foldArgs num.mul none args)⟩
/-- `unchecked::AvgFunction`, prexel/src/ops/unchecked.rs 240-271. -/
def uncheckedAvg (num : Num N F) : Named (Fn N) :=
  ⟨str "avg", [], fun args =>
    (foldArgs num.add none args).bind fun
      | some n =>
        match num.fromUsize args.length with
        | some k => num.div n k
        | none => .panic
      | none => .err .invalidArgumentCount⟩

/-! ## Common operators and functions, prexel/src/ops/mod.rs -/

/-- `UnaryPlus`, prexel/src/ops/mod.rs 337-356. -/
def unaryPlus : Named (UnFn N) := ⟨str "+", [], ⟨.pre, fun x => .ok x⟩⟩

/-- `N::from_f64(x).ok_or_else(|| Error::from(ErrorKind::Overflow))`. -/
def fromFloat (num : Num N F) (x : F) : Res N := orOverflow (num.fromF64 x)

/-- The `while` loop of `Factorial`, prexel/src/ops/mod.rs 399-402. Returns the final `total` and `next`. -/
def factorialLoop (num : Num N F) : Nat → N → N → Res (N × N)
  | 0, total, next => if num.ge next num.one then .panic else .ok (total, next)
  | fuel + 1, total, next =>
    if num.ge next num.one then
      (num.mul total next).bind fun total => (num.sub next num.one).bind fun next => factorialLoop num fuel total next
    else .ok (total, next)

/-- `Factorial`, prexel/src/ops/mod.rs 358-422. -/
def factorial (f : F64 F) (num : Num N F) : Named (UnFn N) :=
  ⟨str "!", [], ⟨.post, fun value =>
    if num.lt value num.zero then .err .negativeValue
    else if num.isZero value || num.isOne value then .ok num.one
    else if num.lt value num.one then
      match num.toF64 value with
      | some n => fromFloat num (f.gamma (f.add n f.one))
      | none => .err .overflow
    else
      (num.sub value num.one).bind fun next =>
        (factorialLoop num (num.fuel value) value next).bind fun r =>
          if num.isZero r.2 then .ok r.1
          else match num.toF64 r.1, num.toF64 r.2 with
            | some t, some n => fromFloat num (f.mul t (f.gamma (f.add n f.one)))
            | _, _ => .err .overflow⟩⟩

/-- `PowOperator`, prexel/src/ops/mod.rs 424-451. -/
def pow (f : F64 F) (num : Num N F) : Named (BinFn N) :=
  ⟨str "^", [], ⟨high, .right, fun x y =>
    match num.toF64 x, num.toF64 y with
    | some b, some e => fromFloat num (f.powf b e)
    | _, _ => .err .overflow⟩⟩

/-- The loops of `MaxFunction` and `MinFunction`, prexel/src/ops/mod.rs 464-475 and 497-508; `better n current` is `n > current` or
`n < current`. -/
def best (better : N → N → Bool) : Option N → List N → Option N
  | r, [] => r
  | none, x :: xs => best better (some x) xs
  | some r, x :: xs => best better (some (if better x r then x else r)) xs

/-- `MaxFunction` and `MinFunction`, prexel/src/ops/mod.rs 453-484 and 486-517. -/
def extremum (better : N → N → Bool) : Fn N := fun args =>
  if args.length ≤ 1 then .err .invalidArgumentCount else Res.ofOption (best better none args) .invalidArgumentCount

/-- `MaxFunction`, prexel/src/ops/mod.rs 453-484. `n > m` is `m < n`. -/
def max (num : Num N F) : Named (Fn N) := ⟨str "max", [], extremum fun n m => num.lt m n⟩
/-- `MinFunction`, prexel/src/ops/mod.rs 486-517. -/
def min (num : Num N F) : Named (Fn N) := ⟨str "min", [], extremum num.lt⟩

/-- `try_to_float`, prexel/src/ops/mod.rs 280-293. -/
def tryToFloat (f : F64 F) (num : Num N F) (x : N) : Res F :=
  match num.toF64 x with
  | some n => if f.notFinite n then .err .nan else .ok n
  | none => .err .overflow

/-- `forward_func_impl!`, prexel/src/ops/mod.rs 9-35 (66-98 with the feature `docs`); `forward_func_inv_impl!` (37-64) is this with `.inv()`
behind the method. -/
def forward (f : F64 F) (num : Num N F) (name : Str) (method : F → F) : Named (Fn N) :=
  ⟨name, [], fun
    | [x] => (tryToFloat f num x).bind fun n => fromFloat num (method (f.approx n))
    | _ => .err .invalidArgumentCount⟩

/-- `match ... { Some(n) => if n.is_nan() || n.is_infinite() { Err(NAN) } else { from_f64(n) }, None => Err(Overflow) }`. -/
def finite (f : F64 F) (num : Num N F) : Option F → Res N
  | some n => if f.notFinite n then .err .nan else fromFloat num n
  | none => .err .overflow

/-- A function of one argument through `f64` that checks the result: `impl_trig!`, `impl_trig_rec!` (prexel/src/ops/mod.rs 687-751),
`impl_arc_trig!`, `impl_arc_trig_rec!` (131-200). -/
def viaFloat (f : F64 F) (num : Num N F) (name : Str) (method : F → F) : Named (Fn N) :=
  ⟨name, [], fun
    | [x] => finite f num ((num.toF64 x).map method)
    | _ => .err .invalidArgumentCount⟩

/-- `impl_trig!`, prexel/src/ops/mod.rs 687-716. -/
def trig (f : F64 F) (num : Num N F) (name : Str) (method : F → F) : Named (Fn N) :=
  viaFloat f num name fun x => f.approx (method (f.toRadians x))
/-- `impl_trig_rec!`, prexel/src/ops/mod.rs 718-750. -/
def trigRec (f : F64 F) (num : Num N F) (name : Str) (method : F → F) : Named (Fn N) :=
  viaFloat f num name fun x => f.inv (f.approx (method (f.toRadians x)))
/-- `impl_arc_trig!`, prexel/src/ops/mod.rs 131-164. -/
def arcTrig (f : F64 F) (num : Num N F) (name : Str) (method : F → F) : Named (Fn N) :=
  viaFloat f num name fun x => f.approx (f.toDegrees (method x))
/-- `impl_arc_trig_rec!`, prexel/src/ops/mod.rs 166-200. -/
def arcTrigRec (f : F64 F) (num : Num N F) (name : Str) (method : F → F) : Named (Fn N) :=
  viaFloat f num name fun x => f.approx (f.toDegrees (method (f.inv x)))

/-- `LogFunction`, prexel/src/ops/mod.rs 575-617. -/
def log (f : F64 F) (num : Num N F) : Named (Fn N) :=
  ⟨str "log", [], fun
    | [x] => finite f num ((num.toF64 x).map f.log10)
    | [x, b] => finite f num ((num.toF64 x).bind fun v => (num.toF64 b).map fun b => f.log v b)
    | _ => .err .invalidArgumentCount⟩

/-- `RandFunction`, prexel/src/ops/mod.rs 619-660. -/
def random (f : F64 F) (num : Num N F) : Named (Fn N) :=
  ⟨str "random", [], fun
    | [] => fromFloat num f.random
    | [m] => (tryToFloat f num m).bind fun m =>
        if f.isSignNegative m then .err .negativeValue else fromFloat num (f.mul f.random m)
    | [lo, hi] => (tryToFloat f num lo).bind fun lo => (tryToFloat f num hi).bind fun hi =>
        if f.lt hi lo then .err .invalidInput else fromFloat num (f.add lo (f.mul (f.sub hi lo) f.random))
    | _ => .err .invalidArgumentCount⟩

/-- `ATanFunction`, prexel/src/ops/mod.rs 925-967. -/
def atan (f : F64 F) (num : Num N F) : Named (Fn N) :=
  ⟨str "atan", [], fun
    | [x] => finite f num ((num.toF64 x).map fun x => f.toDegrees (f.atan x))
    | [y, x] =>
      match num.toF64 y, num.toF64 x with
      | some y, some x =>
        if f.isZero y && f.isZero x then .err .nan else finite f num (some (f.toDegrees (f.atan2 y x)))
      | _, _ => .err .overflow
    | _ => .err .invalidArgumentCount⟩

/-- The functions from `to_radians` on, in the order of prexel/src/context.rs 408-435; both constructors end with these. -/
def trigFunctions (f : F64 F) (num : Num N F) : List (Named (Fn N)) :=
  [trig f num (str "sin") f.sin, trig f num (str "cos") f.cos, trig f num (str "tan") f.tan,
   trigRec f num (str "csc") f.sin, trigRec f num (str "sec") f.cos, trigRec f num (str "cot") f.tan,
   arcTrig f num (str "asin") f.asin, arcTrig f num (str "acos") f.acos, atan f num,
   arcTrigRec f num (str "acsc") f.asin, arcTrigRec f num (str "asec") f.acos, arcTrigRec f num (str "acot") f.atan,
   forward f num (str "sinh") f.sinh, forward f num (str "cosh") f.cosh, forward f num (str "tanh") f.tanh,
   forward f num (str "csch") (fun x => f.inv (f.sinh x)), forward f num (str "sech") (fun x => f.inv (f.cosh x)),
   forward f num (str "coth") (fun x => f.inv (f.tanh x)),
   arcTrig f num (str "asinh") f.asinh, arcTrig f num (str "acosh") f.acosh, arcTrig f num (str "atanh") f.atanh,
   arcTrigRec f num (str "acsch") f.asinh, arcTrigRec f num (str "asech") f.acosh, arcTrigRec f num (str "acoth") f.atanh]

/-- The names of `TruncateFunction` and `SignFunction` depend on the feature `docs`, prexel/src/ops/mod.rs 534-553. -/
def truncName (docs : Bool) : Str := if docs then str "trunc" else str "truncate"
/-- See `truncName`. -/
def signName (docs : Bool) : Str := if docs then str "signum" else str "sign"

/-- The functions of the checked context, prexel/src/context.rs 392-435. -/
def checkedFunctions (docs : Bool) (f : F64 F) (num : Num N F) : List (Named (Fn N)) :=
  [checkedSum num, checkedProd num, checkedAvg num, max num, min num, checkedAbs num, forward f num (str "sqrt") f.sqrt,
   forward f num (str "ln") f.ln, log f num, forward f num (str "exp") f.exp, forward f num (str "floor") f.floor,
   forward f num (str "ceil") f.ceil, forward f num (truncName docs) f.trunc, forward f num (str "round") f.round,
   forward f num (signName docs) f.signum, random f num, forward f num (str "to_radians") f.toRadians,
   forward f num (str "to_degrees") f.toDegrees] ++ trigFunctions f num

/-- The functions of the unchecked context, prexel/src/context.rs 467-503. -/
def uncheckedFunctions (f : F64 F) (num : Num N F) : List (Named (Fn N)) :=
  [uncheckedSum num, uncheckedAvg num, uncheckedProd num, max num, min num, forward f num (str "sqrt") f.sqrt,
   forward f num (str "ln") f.ln, log f num, random f num, forward f num (str "to_radians") f.toRadians,
   forward f num (str "to_degrees") f.toDegrees, forward f num (str "exp") f.exp] ++ trigFunctions f num

/-- The binary operators of the checked context, prexel/src/context.rs 383-388. -/
def checkedBinary (f : F64 F) (num : Num N F) : List (Named (BinFn N)) :=
  [checkedAdd num, checkedSub num, checkedMul num, checkedDiv num, pow f num, checkedMod num]
/-- The binary operators of the unchecked context, prexel/src/context.rs 458-463. -/
def uncheckedBinary (f : F64 F) (num : Num N F) : List (Named (BinFn N)) :=
  [uncheckedAdd num, uncheckedSub num, uncheckedMul num, uncheckedDiv num, pow f num, uncheckedMod num]
/-- The unary operators of the checked context, prexel/src/context.rs 389-391. -/
def checkedUnary (f : F64 F) (num : Num N F) : List (Named (UnFn N)) := [unaryPlus, checkedNeg num, factorial f num]
/-- The unary operators of the unchecked context, prexel/src/context.rs 464-466. -/
def uncheckedUnary (f : F64 F) (num : Num N F) : List (Named (UnFn N)) := [unaryPlus, uncheckedNeg num, factorial f num]

end Prexel.Ops

namespace Prexel

/-! ## Contexts with built-in functions -/

variable {N F : Type}

/-- A sequence of `context.add_...(...).unwrap();`. -/
def Context.runUnwrap (K : Keys) (debug : Bool) : Context N → List (Op N) → Res (Context N)
  | c, [] => .ok c
  | c, o :: os => match Context.run K debug c o with
    | (.ok _, c') => Context.runUnwrap K debug c' os
    | _ => .panic

/-- The operations of a constructor: constants, binary operators, unary operators, functions. -/
def buildOps (constants : List (Str × N)) (binary : List (Named (BinFn N))) (unary : List (Named (UnFn N)))
    (functions : List (Named (Fn N))) : List (Op N) :=
  constants.map (fun e => .addConstant e.1 e.2) ++ (binary.map Op.addBinaryFunction ++
    (unary.map Op.addUnaryFunction ++ functions.map Op.addFunction))

/-- `DefaultContext::with_config_checked`, prexel/src/context.rs 378-436. `N::from_f64(PI).unwrap()` is evaluated before the first
operation. -/
def Context.checked (K : Keys) (debug docs : Bool) (f : F64 F) (num : Num N F) (config : Config) : Res (Context N) :=
  match num.fromF64 f.pi, num.fromF64 f.e with
  | some pi, some e => (Context.withConfig config).runUnwrap K debug
      (buildOps [(str "PI", pi), (str "E", e)] (Ops.checkedBinary f num) (Ops.checkedUnary f num) (Ops.checkedFunctions docs f num))
  | _, _ => .panic

/-- `DefaultContext::with_config_unchecked`, prexel/src/context.rs 453-505. -/
def Context.unchecked (K : Keys) (debug : Bool) (f : F64 F) (num : Num N F) (config : Config) : Res (Context N) :=
  match num.fromF64 f.pi, num.fromF64 f.e with
  | some pi, some e => (Context.withConfig config).runUnwrap K debug
      (buildOps [(str "PI", pi), (str "E", e)] (Ops.uncheckedBinary f num) (Ops.uncheckedUnary f num) (Ops.uncheckedFunctions f num))
  | _, _ => .panic

end Prexel
