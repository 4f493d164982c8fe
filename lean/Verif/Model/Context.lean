import Verif.Model.IgnoreCase
import Verif.Model.Basic
/-!
# Contexts

Models `DefaultContext` of `prexel/src/context.rs`: the maps, registration, constants, variables and name checks.

Every mutating operation returns its outcome and the context afterwards, also when it panics (a caller can go on after `catch_unwind`).
-/

namespace Prexel
variable {N V : Type}

/-- `Map<K, V>`, prexel/src/context.rs 80-86, as an association list. -/
abbrev Map (V : Type) := List (Str × V)

namespace Map

/-- `HashMap::get`; `same` is the key equivalence. -/
def get (same : Str → Str → Bool) (m : Map V) (k : Str) : Option V := (m.find? (fun e => same e.1 k)).map (·.2)

/-- `HashMap::contains_key`. -/
def containsKey (same : Str → Str → Bool) (m : Map V) (k : Str) : Bool := (get same m k).isSome

/-- `HashMap::insert`: replaces the value under an equal key (keeping that key), or adds the key. With the feature `linked-hashmap`, which is on by
default (prexel/Cargo.toml 16-19, prexel/src/context.rs 82-86), the map is a `ritelinked::LinkedHashMap`, which is iterated in the order in which
the keys were added: new keys go to the end. Whether a key moves when its value is replaced does not matter for what is proved. -/
def insert (same : Str → Str → Bool) (m : Map V) (k : Str) (v : V) : Map V :=
  if containsKey same m k then m.map (fun e => if same e.1 k then (e.1, v) else e) else m ++ [(k, v)]

/-- `HashMap::keys`. -/
def keys (m : Map V) : List Str := m.map (·.1)

end Map

/-- Equality of `String` keys. -/
def sameString (a b : Str) : Bool := a == b

/-- A registered function: what `Function`/`UnaryFunction`/`BinaryFunction` (prexel/src/function.rs) say about names, and its behaviour. `aliases()`
returning `None` is the empty list. -/
structure Named (V : Type) where
  name : Str
  aliases : List Str
  fn : V

/-- `DefaultContext`, prexel/src/context.rs 88-103. -/
structure Context (N : Type) where
  variables : Map N
  constants : Map N
  functions : Map (Fn N)
  unary : Map (UnFn N)
  binary : Map (BinFn N)
  config : Config

/-- `DefaultContext::with_config`, prexel/src/context.rs 122-133; `DefaultContext::new` (109-118) is this with `Config::new()`. -/
def Context.withConfig (config : Config) : Context N := ⟨[], [], [], [], [], config⟩

/-- `char::is_control` of the Rust standard library (general category Cc). -/
def isControl (c : Char) : Bool := decide (c.toNat < 32) || (decide (127 ≤ c.toNat) && decide (c.toNat < 160))

/-- `check_token_name`, prexel/src/context.rs 748-777. -/
def checkTokenName (name : Str) : Res Unit :=
  if name.all isWhitespace then .err .empty
  else if name.any isWhitespace then .err .invalidInput
  else if name.any isControl then .err .invalidInput
  else .ok ()

/-- `#[cfg(debug_assertions)] validate::check_token_name(...)?`: only in debug builds. -/
def debugCheck (debug : Bool) (name : Str) : Res Unit := if debug then checkTokenName name else .ok ()

/-- The loop over the aliases, prexel/src/context.rs 189-197 (and 218-226, 258-266): panics at a name that exists, after the earlier aliases
were inserted. -/
def insertAliases (same : Str → Str → Bool) (v : V) : List Str → Map V → Res Unit × Map V
  | [], m => (.ok (), m)
  | a :: as, m => if Map.containsKey same m a then (.panic, m) else insertAliases same v as (Map.insert same m a v)

/-- `add_function_as`, `add_unary_function_as` and `add_binary_function_as`, prexel/src/context.rs 179-203, 208-233 and 248-273, on the map they
change. -/
def addAs (same : Str → Str → Bool) (debug : Bool) (m : Map V) (f : Named V) (name : Str) : Res Unit × Map V :=
  match debugCheck debug name with
  | .err k => (.err k, m)
  | .panic => (.panic, m)
  | .ok () =>
    if Map.containsKey same m name then (.err .unknown, m)
    else match insertAliases same f.fn f.aliases m with
      | (.ok (), m') => (.ok (), Map.insert same m' name f.fn)
      | (r, m') => (r, m')

/-- The operations that change a context. -/
inductive Op (N : Type) where
  | addFunctionAs (f : Named (Fn N)) (name : Str)
  | addUnaryFunctionAs (f : Named (UnFn N)) (name : Str)
  | addBinaryFunctionAs (f : Named (BinFn N)) (name : Str)
  | addConstant (name : Str) (value : N)
  | setVariable (name : Str) (value : N)

/-- `add_function`, prexel/src/context.rs 288-291. -/
def Op.addFunction (f : Named (Fn N)) : Op N := .addFunctionAs f f.name
/-- `add_unary_function`, prexel/src/context.rs 294-297. -/
def Op.addUnaryFunction (f : Named (UnFn N)) : Op N := .addUnaryFunctionAs f f.name
/-- `add_binary_function`, prexel/src/context.rs 300-303. -/
def Op.addBinaryFunction (f : Named (BinFn N)) : Op N := .addBinaryFunctionAs f f.name

/-- Runs one operation: its outcome (`set_variable` returns the previous value, the others nothing) and the context afterwards.

* `add_constant`, prexel/src/context.rs 306-318;
* `set_variable`, prexel/src/context.rs 321-335. -/
def Context.run (K : Keys) (debug : Bool) (c : Context N) : Op N → Res (Option N) × Context N
  | .addFunctionAs f name =>
    let r := addAs K.same debug c.functions f name
    (r.1.map fun _ => none, { c with functions := r.2 })
  | .addUnaryFunctionAs f name =>
    let r := addAs K.same debug c.unary f name
    (r.1.map fun _ => none, { c with unary := r.2 })
  | .addBinaryFunctionAs f name =>
    let r := addAs K.same debug c.binary f name
    (r.1.map fun _ => none, { c with binary := r.2 })
  | .addConstant name value =>
    match debugCheck debug name with
    | .err k => (.err k, c)
    | .panic => (.panic, c)
    | .ok () =>
      if (Map.keys c.variables).any (fun k => eqIgnoreCase K.L k name) then (.err .unknown, c)
      else (.ok none, { c with constants := Map.insert K.same c.constants name value })
  | .setVariable name value =>
    match debugCheck debug name with
    | .err k => (.err k, c)
    | .panic => (.panic, c)
    | .ok () =>
      if (Map.keys c.constants).any (fun k => eqIgnoreCase K.L k name) then (.err .unknown, c)
      else (.ok (Map.get sameString c.variables name), { c with variables := Map.insert sameString c.variables name value })

/-- A history of operations: the context at the end. -/
def Context.runAll (K : Keys) (debug : Bool) : Context N → List (Op N) → Context N
  | c, [] => c
  | c, o :: os => Context.runAll K debug (Context.run K debug c o).2 os

/-- The look-ups of a `DefaultContext`, prexel/src/context.rs 337-362, as seen by the tokenizer and the evaluator. -/
def Context.view (K : Keys) (c : Context N) : Ctx N where
  config := c.config
  getVariable := Map.get sameString c.variables
  getConstant := Map.get K.same c.constants
  getFunction := Map.get K.same c.functions
  getUnary := Map.get K.same c.unary
  getBinary := Map.get K.same c.binary

end Prexel
