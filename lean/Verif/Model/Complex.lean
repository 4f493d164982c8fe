import Verif.Model.Ops
/-!
# Complex numbers

Models `prexel/src/complex/mod.rs`. The crate `num-complex` is not part of the repository: its arithmetic is written out here from its
documentation over the operations of the component type (`T: Float`), its powers, logarithms and trigonometric functions are parameters.
-/

namespace Prexel

/-- `num_complex::Complex<T>` -/
structure Cplx (T : Type) where
  re : T
  im : T
  deriving DecidableEq, Repr

/-- What the code uses of the component type `T: Float + FromPrimitive`, and of the functions of `num_complex::Complex<T>`. -/
structure Cx (T : Type) where
  zero : T
  one : T
  add : T → T → T
  sub : T → T → T
  mul : T → T → T
  div : T → T → T
  rem : T → T → T
  neg : T → T
  isZero : T → Bool
  isSignNegative : T → Bool
  /-- `T::from_f64(10_f64)` -/
  ten : Option T
  /-- `T::from_f64(std::f64::consts::PI)` -/
  pi : Option T
  /-- `T::from_f64(std::f64::consts::E)` -/
  e : Option T
  /-- `T::from_usize` -/
  fromUsize : Nat → Option T
  /-- `T::from_f64` of the first number drawn by `rand::random::<f64>()`. A call in Rust draws a new number; in the model it is a parameter. -/
  random1 : Option T
  /-- The second number drawn. -/
  random2 : Option T
  /-- `Complex::powc` -/
  powc : Cplx T → Cplx T → Cplx T
  /-- `Complex::log`: the logarithm to a real base. -/
  log : Cplx T → T → Cplx T
  sqrt : Cplx T → Cplx T
  ln : Cplx T → Cplx T
  exp : Cplx T → Cplx T
  sin : Cplx T → Cplx T
  cos : Cplx T → Cplx T
  tan : Cplx T → Cplx T
  asin : Cplx T → Cplx T
  acos : Cplx T → Cplx T
  atan : Cplx T → Cplx T
  sinh : Cplx T → Cplx T
  cosh : Cplx T → Cplx T
  tanh : Cplx T → Cplx T
  asinh : Cplx T → Cplx T
  acosh : Cplx T → Cplx T
  atanh : Cplx T → Cplx T

namespace Cx
variable {T : Type} (k : Cx T)

/-- num-complex: `Complex::norm_sqr`. -/
def normSqr (z : Cplx T) : T := k.add (k.mul z.re z.re) (k.mul z.im z.im)
/-- num-complex: `Zero::is_zero`. -/
def cIsZero (z : Cplx T) : Bool := k.isZero z.re && k.isZero z.im
/-- num-complex: `Add`. -/
def cAdd (z w : Cplx T) : Cplx T := ⟨k.add z.re w.re, k.add z.im w.im⟩
/-- num-complex: `Sub`. -/
def cSub (z w : Cplx T) : Cplx T := ⟨k.sub z.re w.re, k.sub z.im w.im⟩
/-- num-complex: `Mul`. -/
def cMul (z w : Cplx T) : Cplx T :=
  ⟨k.sub (k.mul z.re w.re) (k.mul z.im w.im), k.add (k.mul z.re w.im) (k.mul z.im w.re)⟩
/-- num-complex: `Div`. -/
def cDiv (z w : Cplx T) : Cplx T :=
  ⟨k.div (k.add (k.mul z.re w.re) (k.mul z.im w.im)) (k.normSqr w), k.div (k.sub (k.mul z.im w.re) (k.mul z.re w.im)) (k.normSqr w)⟩
/-- num-complex: `Rem`, the remainder of the division with both components of the quotient truncated. -/
def cRem (z w : Cplx T) : Cplx T :=
  let q := k.cDiv z w
  k.cSub z (k.cMul w ⟨k.sub q.re (k.rem q.re k.one), k.sub q.im (k.rem q.im k.one)⟩)
/-- num-complex: `Neg`. -/
def cNeg (z : Cplx T) : Cplx T := ⟨k.neg z.re, k.neg z.im⟩
/-- num-complex: `Complex::inv`. -/
def cInv (z : Cplx T) : Cplx T := ⟨k.div z.re (k.normSqr z), k.div (k.neg z.im) (k.normSqr z)⟩
/-- num-complex: `Complex::i`. -/
def i : Cplx T := ⟨k.zero, k.one⟩
/-- num-complex: a real number as a complex number (`From<T>`, `FromPrimitive`). -/
def real (x : T) : Cplx T := ⟨x, k.zero⟩

/-- `Complex<T>` as a number of the unchecked operators. Floating point operators do not panic. The checked operations and the order of
`Num` are not defined for complex numbers and not used by the complex context; here they fail. -/
def num : Num (Cplx T) Unit where
  zero := k.real k.zero
  one := k.real k.one
  isZero := k.cIsZero
  isOne _ := false
  lt _ _ := false
  ge _ _ := false
  checkedAdd _ _ := none
  checkedSub _ _ := none
  checkedMul _ _ := none
  checkedDiv _ _ := none
  checkedRem _ _ := none
  checkedNeg _ := none
  add z w := .ok (k.cAdd z w)
  sub z w := .ok (k.cSub z w)
  mul z w := .ok (k.cMul z w)
  div z w := .ok (k.cDiv z w)
  rem z w := .ok (k.cRem z w)
  neg z := .ok (k.cNeg z)
  fromUsize n := (k.fromUsize n).map k.real
  toF64 _ := none
  fromF64 _ := none
  fuel _ := 0

/-- `PowOperator`, prexel/src/complex/mod.rs 15-37. -/
def powOp : Named (BinFn (Cplx T)) := ⟨str "^", [], ⟨Ops.high, .right, fun z w => .ok (k.powc z w)⟩⟩

/-- `LogFunction`, prexel/src/complex/mod.rs 39-66. -/
def logFn : Named (Fn (Cplx T)) := ⟨str "log", [], fun
  | [z] => (Res.ofOption k.ten .overflow).bind fun base => .ok (k.log z base)
  | [z, b] => if !k.isZero b.im then .ok (k.log z b.re) else .err .invalidInput
  | _ => .err .invalidArgumentCount⟩

/-- `try_get_real`, prexel/src/complex/mod.rs 76-86. -/
def tryGetReal (z : Cplx T) : Res T := if !k.isZero z.im then .err .invalidInput else .ok z.re

/-- `RandFunction`, prexel/src/complex/mod.rs 68-133. -/
def randFn : Named (Fn (Cplx T)) := ⟨str "random", [], fun
  | [] =>
    (Res.ofOption k.random1 .overflow).bind fun re =>
      (Res.ofOption k.random2 .overflow).bind fun im => .ok ⟨re, im⟩
  | [z] =>
    (k.tryGetReal z).bind fun max =>
      if k.isSignNegative max then .err .negativeValue
      else (Res.ofOption k.random1 .overflow).bind fun re =>
        (Res.ofOption k.random2 .overflow).bind fun im => .ok ⟨k.mul re max, k.mul im max⟩
  | [z, w] =>
    (k.tryGetReal z).bind fun min =>
      (k.tryGetReal w).bind fun max =>
        if k.isSignNegative min || k.isSignNegative max then .err .invalidInput
        else (Res.ofOption k.random1 .overflow).bind fun re =>
          (Res.ofOption k.random2 .overflow).bind fun im =>
            .ok ⟨k.add min (k.mul (k.sub max min) re), k.add min (k.mul (k.sub max min) im)⟩
  | _ => .err .invalidArgumentCount⟩

/-- `forward_impl_func!`, prexel/src/complex/mod.rs 135-154. -/
def forward (name : Str) (g : Cplx T → Cplx T) : Named (Fn (Cplx T)) := ⟨name, [], fun
  | [z] => .ok (g z)
  | _ => .err .invalidArgumentCount⟩

/-- `forward_impl_func_inv!`, prexel/src/complex/mod.rs 156-176. -/
def forwardInv (name : Str) (g : Cplx T → Cplx T) : Named (Fn (Cplx T)) := ⟨name, [], fun
  | [z] => .ok (k.cInv (g z))
  | _ => .err .invalidArgumentCount⟩

/-- The binary operators, prexel/src/complex/mod.rs 424-429. -/
def binaryOps : List (Named (BinFn (Cplx T))) :=
  [Ops.uncheckedAdd k.num, Ops.uncheckedSub k.num, Ops.uncheckedMul k.num, Ops.uncheckedDiv k.num, Ops.uncheckedMod k.num, k.powOp]

/-- The unary operators, prexel/src/complex/mod.rs 430-431. -/
def unaryOps : List (Named (UnFn (Cplx T))) := [Ops.unaryPlus, Ops.uncheckedNeg k.num]

/-- The functions, prexel/src/complex/mod.rs 432-463 with the impls of 228-400. -/
def functions : List (Named (Fn (Cplx T))) :=
  [Ops.uncheckedSum k.num, Ops.uncheckedAvg k.num, Ops.uncheckedProd k.num, forward (str "sqrt") k.sqrt, forward (str "ln") k.ln,
   k.logFn, k.randFn, forward (str "exp") k.exp,
   forward (str "sin") k.sin, forward (str "cos") k.cos, forward (str "tan") k.tan,
   k.forwardInv (str "csc") k.sin, k.forwardInv (str "sec") k.cos, k.forwardInv (str "cot") k.tan,
   forward (str "asin") k.asin, forward (str "acos") k.acos, forward (str "atan") k.atan,
   k.forwardInv (str "acsc") k.asin, k.forwardInv (str "asec") k.acos, k.forwardInv (str "acot") k.atan,
   forward (str "sinh") k.sinh, forward (str "cosh") k.cosh, forward (str "tanh") k.tanh,
   k.forwardInv (str "csch") k.sinh, k.forwardInv (str "sech") k.cosh, k.forwardInv (str "coth") k.tanh,
   forward (str "asinh") k.asinh, forward (str "acosh") k.acosh, forward (str "atanh") k.atanh,
   k.forwardInv (str "acsch") k.asinh, k.forwardInv (str "asech") k.acosh, k.forwardInv (str "acoth") k.atanh]

/-- `DefaultContext::with_config_complex`, prexel/src/complex/mod.rs 419-466. -/
def context (K : Keys) (debug : Bool) (config : Config) : Res (Context (Cplx T)) :=
  match k.pi, k.e with
  | some pi, some e => (Context.withConfig (config.withComplexNumber true)).runUnwrap K debug
      (buildOps [(str "PI", k.real pi), (str "E", k.real e), (str "i", k.i)] k.binaryOps k.unaryOps k.functions)
  | _, _ => .panic

/-- `DefaultContext::new_complex`, prexel/src/complex/mod.rs 413-417. -/
def newContext (K : Keys) (debug : Bool) : Res (Context (Cplx T)) := k.context K debug (Config.new.withComplexNumber true)

end Cx
end Prexel
