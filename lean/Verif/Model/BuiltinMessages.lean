import Verif.Model.Messages
import Verif.Model.Ops
import Verif.Model.Complex
/-!
# The messages of the built-in functions

Almost every error of a built-in function or operator is an `Error::from(kind)`, which has no message of its own: every `Err(...)` and `ok_or_else(...)` of
`prexel/src/ops/mod.rs` and `prexel/src/complex/mod.rs` except those modelled here. A name is compared as the map of functions does
(`hashInput`, prexel/src/utils/ignore_case_str.rs).
-/

namespace Prexel

/-- The messages of the built-in functions over ordinary numbers: `RandFunction` with two arguments, prexel/src/ops/mod.rs 636-646, is the only one. `display` is
`Display for f64` (Rust standard library). -/
def Ops.inner {N F : Type} (f : F64 F) (num : Num N F) (display : F → Str) : Inner N where
  function := fun name args =>
    if hashInput name == hashInput (str "random") then
      match args with
      | [lo, hi] =>
        match Ops.tryToFloat f num lo, Ops.tryToFloat f num hi with
        | .ok lo, .ok hi =>
          if f.lt hi lo then some (str "Invalid range for `Random`: min > max, " ++ display lo ++ str " > " ++ display hi) else none
        | _, _ => none
      | _ => none
    else none
  unary := fun _ _ => none
  binary := fun _ _ _ => none

/-- The messages of the built-in functions over complex numbers: `LogFunction`, prexel/src/complex/mod.rs 57, and `RandFunction`, 76-86 and 110-118. `display` is
`Display for T`. -/
def Cx.inner {T : Type} (k : Cx T) (display : T → Str) : Inner (Cplx T) where
  function := fun name args =>
    if hashInput name == hashInput (str "log") then
      match args with
      | [_, b] => if !k.isZero b.im then none else some (str "Expected decimal base")
      | _ => none
    else if hashInput name == hashInput (str "random") then
      match args with
      | [z] => if !k.isZero z.im then some (str "Random(...) only accepts real numbers as arguments") else none
      | [z, w] =>
        if !k.isZero z.im || !k.isZero w.im then some (str "Random(...) only accepts real numbers as arguments")
        else if k.isSignNegative z.re || k.isSignNegative w.re then
          some (str "Invalid `Random` arguments: `min > max`, " ++ display z.re ++ str " > " ++ display w.re)
        else none
      | _ => none
    else none
  unary := fun _ _ => none
  binary := fun _ _ _ => none

end Prexel
