import Verif.Model.Ops
/-!
# The example of logical operators

Models `prexel/examples/logical_ops.rs`: a context with operators of one's own.
-/

namespace Prexel.Logical
variable {N : Type}

/-- What the two halves of the example differ in: the operations on `bool` (prexel/examples/logical_ops.rs 54-106) or `u8` (109-161), and the
constants (12-13 and 31-32). -/
structure Bits (N : Type) where
  yes : N
  no : N
  and_ : N → N → N
  xor_ : N → N → N
  or_ : N → N → N

/-- prexel/examples/logical_ops.rs 31-32, 67-69, 85-87 and 103-105. -/
def bool : Bits Bool := ⟨true, false, fun x y => x && y, fun x y => x ^^ y, fun x y => x || y⟩

/-- prexel/examples/logical_ops.rs 12-13, 122-124, 140-142 and 158-160. -/
def u8 : Bits (BitVec 8) := ⟨1, 0, fun x y => x &&& y, fun x y => x ^^^ y, fun x y => x ||| y⟩

/-- `AndOperator`, prexel/examples/logical_ops.rs 54-70 and 109-125; `Precedence::VERY_LOW` is 0 (prexel/src/function.rs 102). -/
def andOp (B : Bits N) : Named (BinFn N) := ⟨str "and", [], ⟨0, .left, fun x y => .ok (B.and_ x y)⟩⟩

/-- `XorOperator`, prexel/examples/logical_ops.rs 72-88 and 127-143. -/
def xorOp (B : Bits N) : Named (BinFn N) := ⟨str "xor", [], ⟨Ops.low, .left, fun x y => .ok (B.xor_ x y)⟩⟩

/-- `OrOperator`, prexel/examples/logical_ops.rs 90-106 and 145-161. -/
def orOp (B : Bits N) : Named (BinFn N) := ⟨str "or", [], ⟨Ops.medium, .left, fun x y => .ok (B.or_ x y)⟩⟩

/-- The context, prexel/examples/logical_ops.rs 11-16 and 30-35. -/
def context (K : Keys) (debug : Bool) (B : Bits N) : Res (Context N) :=
  (Context.withConfig Config.new).runUnwrap K debug
    (buildOps [(str "true", B.yes), (str "false", B.no)] [andOp B, orOp B, xorOp B] [] [])

/-- `bool::from_str` of the Rust standard library. -/
def parseBool (s : Str) : Option Bool :=
  if s = str "true" then some true else if s = str "false" then some false else none

/-- `u8::from_str` of the Rust standard library: an optional plus sign and digits, at most 255. -/
def parseU8 (s : Str) : Option (BitVec 8) :=
  let digits := match s with
    | '+' :: s => s
    | s => s
  if digits = [] then none
  else match SInt.digits 10 0 digits with
    | some n => if n < 256 then some (BitVec.ofNat 8 n) else none
    | none => none

end Prexel.Logical
