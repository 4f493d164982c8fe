import Verif.Model.Decimal
import Verif.Model.Complex
import Verif.Model.Binary
/-!
# Aliases and descriptions

A context keeps the functions themselves, and a function can be asked for its aliases and its description (`prexel/src/function.rs`). The contexts
of `Verif.Model.Context` keep only what evaluation uses. Here is the same registration with the functions kept whole, and what
`prexel-server/src/services/info.rs` and `eval/src/list.rs` read off it.
-/

namespace Prexel
variable {N V D F T : Type}

/-- What is kept of a registered function: its behaviour, `aliases()` and `description()`, prexel/src/function.rs 4-70. -/
structure Entry (V : Type) where
  fn : V
  aliases : List Str
  description : Option Str

/-- A function whose `description()` is `d`. -/
def Named.entry (f : Named V) (d : Option Str) : Named (Entry V) := ⟨f.name, f.aliases, ⟨f.fn, f.aliases, d⟩⟩

/-- `DefaultContext`, prexel/src/context.rs 88-103, with the functions kept whole. -/
structure Documented (N : Type) where
  variables : Map N
  constants : Map N
  functions : Map (Entry (Fn N))
  unary : Map (Entry (UnFn N))
  binary : Map (Entry (BinFn N))
  config : Config

/-- The values of a map of functions without aliases and descriptions. -/
def Map.behaviour (m : Map (Entry V)) : Map V := m.map fun e => (e.1, e.2.fn)

namespace Documented

/-- `DefaultContext::with_config`, prexel/src/context.rs 122-133. -/
def withConfig (config : Config) : Documented N := ⟨[], [], [], [], [], config⟩

/-- The context as evaluation sees it. -/
def plain (c : Documented N) : Context N :=
  ⟨c.variables, c.constants, c.functions.behaviour, c.unary.behaviour, c.binary.behaviour, c.config⟩

/-- `add_function_as`, `add_unary_function_as`, `add_binary_function_as`, `add_constant` and `set_variable`, prexel/src/context.rs 179-335: `Context.run`
with the functions kept whole. `d` is the description that the function gives; constants and variables have none. -/
def run (K : Keys) (debug : Bool) (c : Documented N) (d : Option Str) : Op N → Res (Option N) × Documented N
  | .addFunctionAs f name =>
    let r := addAs K.same debug c.functions (f.entry d) name
    (r.1.map fun _ => none, { c with functions := r.2 })
  | .addUnaryFunctionAs f name =>
    let r := addAs K.same debug c.unary (f.entry d) name
    (r.1.map fun _ => none, { c with unary := r.2 })
  | .addBinaryFunctionAs f name =>
    let r := addAs K.same debug c.binary (f.entry d) name
    (r.1.map fun _ => none, { c with binary := r.2 })
  | .addConstant name value =>
    let r := c.plain.run K debug (.addConstant name value)
    (r.1, { c with constants := r.2.constants })
  | .setVariable name value =>
    let r := c.plain.run K debug (.setVariable name value)
    (r.1, { c with variables := r.2.variables })

/-- A history of operations, each with the description of its function. -/
def runAll (K : Keys) (debug : Bool) : Documented N → List (Op N × Option Str) → Documented N
  | c, [] => c
  | c, o :: os => runAll K debug (c.run K debug o.2 o.1).2 os

/-- A sequence of `context.add_...(...).unwrap();`. -/
def runUnwrap (K : Keys) (debug : Bool) : Documented N → List (Op N × Option Str) → Res (Documented N)
  | c, [] => .ok c
  | c, o :: os => match c.run K debug o.2 o.1 with
    | (.ok _, c') => runUnwrap K debug c' os
    | _ => .panic

end Documented

/-- `FnInfo`, prexel-server/src/services/info.rs 5-10. -/
structure FnInfo where
  name : Str
  aliases : List Str
  description : Option Str
deriving DecidableEq

/-- The closures of `get_operators` and `get_functions`, prexel-server/src/services/info.rs 22-29, 31-39 and 47-54. -/
def Map.infos (m : Map (Entry V)) : List FnInfo := m.map fun e => ⟨e.1, e.2.aliases, e.2.description⟩

/-- `get_operators`, prexel-server/src/services/info.rs 18-41. -/
def Documented.operatorInfos (c : Documented N) : List FnInfo := c.binary.infos ++ c.unary.infos

/-- `get_functions`, prexel-server/src/services/info.rs 43-56. -/
def Documented.functionInfos (c : Documented N) : List FnInfo := c.functions.infos

/-! ## The descriptions of the built-in functions -/

/-- Looks a text up in a table. -/
def descriptionIn (table : List (String × String)) (name : Str) : Option Str :=
  (table.find? fun e => decide (str e.1 = name)).map fun e => str e.2

/-- The descriptions of the operators and functions of a context. -/
structure Descriptions where
  binary : Str → Option Str
  unary : Str → Option Str
  functions : Str → Option Str

/-- `Description::as_str` (prexel/src/descriptions.rs 62-123) of what `description()` returns: prexel/src/ops/checked.rs 31-35, 56-60, 81-85, 110-114 and
139-143, the same in prexel/src/ops/unchecked.rs and prexel/src/decimal/mod.rs 330-479, prexel/src/ops/mod.rs 447-450, prexel/src/complex/mod.rs 34-37. -/
def binaryTexts : List (String × String) :=
  [("+", "Add two values"), ("-", "Subtract two values"), ("*", "Multiply two values"), ("/", "Divide two values"), ("mod", "Modulo two values"),
   ("^", "Gets the power of a value")]

/-- See `binaryTexts`; prexel/src/ops/mod.rs 351-354 and 419-422, prexel/src/ops/checked.rs 159-163, prexel/src/decimal/mod.rs 498-527. -/
def unaryTexts : List (String × String) :=
  [("+", "Applies +n to a value"), ("-", "Negate a value"), ("!", "Gets the factorial of a value")]

/-- See `binaryTexts`; prexel/src/ops/mod.rs 480-1030, prexel/src/ops/checked.rs 183-280, prexel/src/ops/unchecked.rs 178-268, prexel/src/decimal/mod.rs
550-1145, prexel/src/complex/mod.rs 63-398. -/
def functionTexts : List (String × String) :=
  [("abs", "Absolute value of a values"), ("sum", "Gets the sum of all the values"), ("product", "Gets the product of all the values"),
   ("avg", "Gets the average of all the values"), ("max", "Gets the maximum of all the values"), ("min", "Gets the minimum of all the values"),
   ("floor", "Rounds a value down"), ("ceil", "Rounds a value up"), ("trunc", "Gets the integer part of a number"),
   ("truncate", "Gets the integer part of a number"), ("round", "Gets the round of a value"),
   ("signum", "Gets the sign of a value as -1, 0, or 1"), ("sqrt", "Gets the square root of a value"), ("cbrt", "Gets the cubic root of a value"),
   ("exp", "Gets the exponential of a value"), ("ln", "Gets the natural logarithm of a value"), ("log", "Gets the logarithm of a value"),
   ("random", "Gets a random value: between 0 and 1, 0..MAX or a range"), ("to_radians", "Gets the radian value of a degree value"),
   ("to_degrees", "Gets the degree value of a radian value"), ("sin", "Gets the sine of a value"), ("cos", "Gets the cosine of a value"),
   ("tan", "Gets the tangent of a value"), ("csc", "Gets the cosecant of a value"), ("sec", "Gets the secant of a value"),
   ("cot", "Gets the cotangent of a value"), ("sinh", "Gets the hyperbolic sine of a value"), ("cosh", "Gets the hyperbolic cosine of a value"),
   ("tanh", "Gets the hyperbolic tangent of a value"), ("csch", "Gets the hyperbolic cosecant of a value"),
   ("sech", "Gets the hyperbolic secant of a value"), ("coth", "Gets the hyperbolic cotangent of a value"), ("asin", "Gets the arc sine of a value"),
   ("acos", "Gets the arc cosine of a value"), ("atan", "Gets the arc tangent of a value"), ("acsc", "Gets the arc cosecant of a value"),
   ("asec", "Gets the arc secant of a value"), ("acot", "Gets the arc cotangent of a value"), ("asinh", "Gets the hyperbolic arc sine of a value"),
   ("acosh", "Gets the hyperbolic arc cosine of a value"), ("atanh", "Gets the hyperbolic arc tangent of a value"),
   ("acsch", "Gets the hyperbolic arc cosecant of a value"), ("asech", "Gets the hyperbolic arc secant of a value"),
   ("acoth", "Gets the hyperbolic arc cotangent of a value")]

/-- The descriptions of all contexts but the binary one. Without the feature `docs` nothing overrides the default `None`
(prexel/src/function.rs 17-20, 42-45, 65-68). -/
def Descriptions.standard (docs : Bool) : Descriptions :=
  if docs then ⟨descriptionIn binaryTexts, descriptionIn unaryTexts, descriptionIn functionTexts⟩ else ⟨fun _ => none, fun _ => none, fun _ => none⟩

/-- The descriptions of the binary context, prexel/src/binary/mod.rs 125-127, 152-154, 179-181, 206-208, 234-236, 262-264, 290-292, 318-320, 346-348, 374-376,
401-403 and 428-430; they do not depend on the feature `docs`. -/
def Descriptions.bits : Descriptions where
  binary := descriptionIn
    [("&", "Returns the bitwise AND of the given values."), ("|", "Returns the bitwise OR of the given values."),
     ("^", "Returns the bitwise XOR of the given values."), ("==", "Returns 1 if the given values are equal, 0 otherwise."),
     ("!=", "Returns 1 if the given values are not equal, 0 otherwise."),
     (">", "Returns 1 if the left value is greater than the right value, 0 otherwise."),
     ("<", "Returns 1 if the left value is less than the right value, 0 otherwise."),
     (">=", "Returns 1 if the left value is greater than or equal to the right value, 0 otherwise."),
     ("<=", "Returns 1 if the left value is less than or equal to the right value, 0 otherwise."),
     (">>", "Returns the left value bits shifted right by the right value."),
     ("<<", "Returns the left value bits shifted left by the right value.")]
  unary := descriptionIn [("~", "Returns the bitwise NOT of the given value.")]
  functions _ := none

/-- The description of the function that an operation registers. -/
def Descriptions.of (t : Descriptions) : Op N → Option Str
  | .addFunctionAs f _ => t.functions f.name
  | .addUnaryFunctionAs f _ => t.unary f.name
  | .addBinaryFunctionAs f _ => t.binary f.name
  | _ => none

/-- The operations of a constructor with the descriptions of their functions. -/
def Descriptions.on (t : Descriptions) (os : List (Op N)) : List (Op N × Option Str) := os.map fun o => (o, t.of o)

namespace Documented

/-- `Context.checked` with the functions kept whole, prexel/src/context.rs 378-436. -/
def checked (K : Keys) (debug docs : Bool) (f : F64 F) (num : Num N F) (config : Config) : Res (Documented N) :=
  match num.fromF64 f.pi, num.fromF64 f.e with
  | some pi, some e => (withConfig config).runUnwrap K debug ((Descriptions.standard docs).on
      (buildOps [(str "PI", pi), (str "E", e)] (Ops.checkedBinary f num) (Ops.checkedUnary f num) (Ops.checkedFunctions docs f num)))
  | _, _ => .panic

/-- `Context.unchecked` with the functions kept whole, prexel/src/context.rs 453-505. -/
def unchecked (K : Keys) (debug docs : Bool) (f : F64 F) (num : Num N F) (config : Config) : Res (Documented N) :=
  match num.fromF64 f.pi, num.fromF64 f.e with
  | some pi, some e => (withConfig config).runUnwrap K debug ((Descriptions.standard docs).on
      (buildOps [(str "PI", pi), (str "E", e)] (Ops.uncheckedBinary f num) (Ops.uncheckedUnary f num) (Ops.uncheckedFunctions f num)))
  | _, _ => .panic

/-- `Dec.context` with the functions kept whole, prexel/src/decimal/mod.rs 1160-1217. -/
def decimal (d : Dec D F) (K : Keys) (debug docs : Bool) (f : F64 F) (config : Config) : Res (Documented D) :=
  (withConfig config).runUnwrap K debug ((Descriptions.standard docs).on
    (buildOps [(str "PI", d.pi), (str "E", d.e)] d.binaryOps (d.unaryOps f) (d.functions f)))

/-- `Cx.newContext` with the functions kept whole, prexel/src/complex/mod.rs 413-466. -/
def complex (k : Cx T) (K : Keys) (debug docs : Bool) : Res (Documented (Cplx T)) :=
  match k.pi, k.e with
  | some pi, some e => (withConfig ((Config.new.withComplexNumber true).withComplexNumber true)).runUnwrap K debug ((Descriptions.standard docs).on
      (buildOps [(str "PI", k.real pi), (str "E", k.real e), (str "i", k.i)] k.binaryOps k.unaryOps k.functions))
  | _, _ => .panic

/-- `Binary.context` with the functions kept whole, prexel/src/binary/mod.rs 57-74. -/
def binary_ (K : Keys) (debug : Bool) (config : Config) : Res (Documented Binary) :=
  (withConfig config).runUnwrap K debug (Descriptions.bits.on
    (Op.addUnaryFunction Binary.not :: (Binary.operators debug).map Op.addBinaryFunction))

end Documented
end Prexel
