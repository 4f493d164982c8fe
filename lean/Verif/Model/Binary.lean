import Verif.Model.Ops
/-!
# Binary numbers

Models `prexel/src/binary/mod.rs`. `Binary(i128)` is a 128-bit vector in two's complement.
-/

namespace Prexel

/-- `Binary`, prexel/src/binary/mod.rs 10-12. -/
abbrev Binary := BitVec 128

namespace Binary

/-- `i128::from_str_radix` as a bit vector. -/
def parseInt (radix : Nat) (s : Str) : Option Binary := (SInt.fromStrRadix i128 radix s).map fun x => BitVec.ofInt 128 x.1

/-- `FromStr for Binary`, prexel/src/binary/mod.rs 32-42. -/
def parse (s : Str) : Option Binary :=
  match s with
  | 'b' :: s => parseInt 2 s
  | s => parseInt 10 s

/-- The binary digits of a number without leading zeros, for `{:b}`. -/
def bits (n : Nat) : Str := Nat.toDigits 2 n

/-- `Display for Binary`, prexel/src/binary/mod.rs 44-48: `{:b}` prints the two's complement. -/
def display (x : Binary) : Str := bits x.toNat

/-- `if condition { 1 } else { 0 }`. -/
def ofBool (b : Bool) : Binary := if b then 1 else 0

/-- The amount of a shift by an `i128`: out of range it panics in debug builds and is masked in release builds. -/
def shiftAmount (debug : Bool) (y : Binary) : Res Nat :=
  if 0 ≤ y.toInt ∧ y.toInt < 128 then .ok y.toNat else if debug then .panic else .ok (y.toNat % 128)

/-- `NotFunction`, prexel/src/binary/mod.rs 107-128. -/
def not : Named (UnFn Binary) := ⟨str "~", [str "not"], ⟨.pre, fun x => .ok (~~~x)⟩⟩
/-- `AndFunction`, prexel/src/binary/mod.rs 130-155. -/
def and : Named (BinFn Binary) := ⟨str "&", [str "and"], ⟨11, .left, fun x y => .ok (x &&& y)⟩⟩
/-- `OrFunction`, prexel/src/binary/mod.rs 157-182. -/
def or : Named (BinFn Binary) := ⟨str "|", [str "or"], ⟨13, .left, fun x y => .ok (x ||| y)⟩⟩
/-- `XorFunction`, prexel/src/binary/mod.rs 184-209. -/
def xor : Named (BinFn Binary) := ⟨str "^", [str "xor"], ⟨12, .left, fun x y => .ok (x ^^^ y)⟩⟩
/-- `EqFunction`, prexel/src/binary/mod.rs 211-237. -/
def eq : Named (BinFn Binary) := ⟨str "==", [str "eq", str "equal"], ⟨10, .left, fun x y => .ok (ofBool (decide (x.toInt = y.toInt)))⟩⟩
/-- `NeFunction`, prexel/src/binary/mod.rs 239-265. -/
def ne : Named (BinFn Binary) := ⟨str "!=", [str "ne", str "no_equal"], ⟨10, .left, fun x y => .ok (ofBool (decide (x.toInt ≠ y.toInt)))⟩⟩
/-- `GtFunction`, prexel/src/binary/mod.rs 267-293. -/
def gt : Named (BinFn Binary) := ⟨str ">", [str "gt"], ⟨9, .left, fun x y => .ok (ofBool (decide (x.toInt > y.toInt)))⟩⟩
/-- `LtFunction`, prexel/src/binary/mod.rs 295-321. -/
def lt : Named (BinFn Binary) := ⟨str "<", [str "lt"], ⟨9, .left, fun x y => .ok (ofBool (decide (x.toInt < y.toInt)))⟩⟩
/-- `GteFunction`, prexel/src/binary/mod.rs 323-349. -/
def gte : Named (BinFn Binary) := ⟨str ">=", [str "gte"], ⟨9, .left, fun x y => .ok (ofBool (decide (x.toInt ≥ y.toInt)))⟩⟩
/-- `LteFunction`, prexel/src/binary/mod.rs 351-377. -/
def lte : Named (BinFn Binary) := ⟨str "<=", [str "lte"], ⟨9, .left, fun x y => .ok (ofBool (decide (x.toInt ≤ y.toInt)))⟩⟩
/-- `ShrFunction`, prexel/src/binary/mod.rs 379-404: `>>` on `i128` keeps the sign. -/
def shr (debug : Bool) : Named (BinFn Binary) :=
  ⟨str ">>", [str "shr"], ⟨7, .left, fun x y => (shiftAmount debug y).bind fun k => .ok (x.sshiftRight k)⟩⟩
/-- `ShlFunction`, prexel/src/binary/mod.rs 406-431. -/
def shl (debug : Bool) : Named (BinFn Binary) :=
  ⟨str "<<", [str "shl"], ⟨7, .left, fun x y => (shiftAmount debug y).bind fun k => .ok (x <<< k)⟩⟩

/-- The operators in the order of prexel/src/binary/mod.rs 62-72. -/
def operators (debug : Bool) : List (Named (BinFn Binary)) :=
  [and, or, xor, eq, ne, gt, lt, gte, lte, shr debug, shl debug]

/-- `DefaultContext::with_config_binary`, prexel/src/binary/mod.rs 57-74. The unary operator is registered first; the order does not matter
because it goes to another map. -/
def context (K : Keys) (debug : Bool) (config : Config) : Res (Context Binary) :=
  (Context.withConfig config).runUnwrap K debug (Op.addUnaryFunction not :: (operators debug).map Op.addBinaryFunction)

end Binary
end Prexel
