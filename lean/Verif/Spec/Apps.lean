import Verif.Model.Apps
import Verif.Spec.Tables
/-!
# Specification: answers of the server, what a listing promises
-/

namespace Prexel
variable {N : Type}

/-- The value of a variable of a request: that of the first entry with this name, if its text is a number. -/
def boundTo (read : Str → Option N) (vs : List (Str × Str)) (x : Str) : Option N := (vs.find? fun e => e.1 == x).bind fun e => read e.2

/-- A context in which the variables of a request have their values. -/
def Ctx.withVariables (v : Ctx N) (read : Str → Option N) (vs : List (Str × Str)) : Ctx N :=
  { v with getVariable := fun x => (boundTo read vs x).or (v.getVariable x) }

/-- The variables of a request can be set in a context: each has a number as its value, and the library accepts its name. -/
def Settable (K : Keys) (debug : Bool) (c : Context N) (read : Str → Option N) (vs : List (Str × Str)) : Prop :=
  ∀ e ∈ vs, ∃ v, read e.2 = some v ∧ (c.run K debug (.setVariable e.1 v)).1.isOk = true

/-- The library evaluates the expression, with these variables, to a value that prints as `text`. -/
def Backend.Evaluates (b : Backend N) (K : Keys) (debug : Bool) (config : Config) (vs : List (Str × Str)) (expression text : Str) : Prop :=
  ∃ c, b.context config = .ok c ∧ Settable K debug c b.readVariable vs ∧
    ∃ n, eval b.read (split b.rules) ((c.view K).withVariables b.readVariable vs) expression = .ok n ∧ b.shown n = text

/-- The variables of a request come from a JSON object read into a hash map: no name occurs twice. -/
def Request.Distinct {F : Type} (r : Request F) : Prop := ((r.variables.getD []).map (·.1)).Nodup

/-- The number type of a request; decimal if it does not say. -/
def Request.numberType {F : Type} (r : Request F) : NumberType :=
  match r.type with
  | some t => t
  | none => .decimal

/-- The library evaluates a request to a value that prints as `text`. -/
def World.Evaluates {D F T : Type} (W : World D F T) (r : Request F) (text : Str) : Prop :=
  match r.numberType with
  | .decimal => W.decimalBackend.Evaluates W.K W.debug serverConfig (W.texts r) r.expression text
  | .float => W.floatBackend.Evaluates W.K W.debug serverConfig (W.texts r) r.expression text
  | .complex => W.complexBackend.Evaluates W.K W.debug serverConfig (W.texts r) r.expression text
  | .integer => W.integerBackend.Evaluates W.K W.debug serverConfig (W.texts r) r.expression text
  | .binary => W.binaryBackend.Evaluates W.K W.debug serverConfig (W.texts r) r.expression text

/-- Two answers agree: the same result, or both an error (for whatever reason), or both a panic. -/
def Answer.Agrees : Answer → Answer → Prop
  | .result s, a => a = .result s
  | .error _, a => ∃ e, a = .error e
  | .panic, a => a = .panic

/-- An operator can be written: between two operands, in front of one or behind one. -/
def Operates (read : Str → Option N) (rules : List Rule) (v : Ctx N) (n : Str) : Prop :=
  ∃ z, read ['0'] = some z ∧
    (tokenize read (split rules) v (str "0 " ++ (n ++ str " 0")) = .ok [.number z, .binary n, .number z] ∨
     tokenize read (split rules) v (n ++ str " 0") = .ok [.unary n, .number z] ∨
     tokenize read (split rules) v (str "0 " ++ n) = .ok [.number z, .unary n])

/-- A listing shows what can be used in expressions: each listed name can be written and means what it is listed as, and what occurs in an
expression is listed (up to case). -/
structure Faithful (L : Listing) (read : Str → Option N) (rules : List Rule) (shown : N → Str) (v : Ctx N) : Prop where
  functions : ∀ n ∈ L.functions, tokenize read (split rules) v n = .ok [.function n]
  operators : ∀ n ∈ L.operators, Operates read rules v n
  constants : ∀ e ∈ L.constants, ∃ x, eval read (split rules) v e.1 = .ok x ∧ shown x = e.2
  allFunctions : ∀ s ts w, tokenize read (split rules) v s = .ok ts → .function w ∈ ts → ∃ n ∈ L.functions, CaseVariant n w
  allOperators : ∀ s ts w, tokenize read (split rules) v s = .ok ts → .binary w ∈ ts ∨ .unary w ∈ ts → ∃ n ∈ L.operators, CaseVariant n w
  allConstants : ∀ s ts w, tokenize read (split rules) v s = .ok ts → .constant w ∈ ts → ∃ e ∈ L.constants, CaseVariant e.1 w

/-- The literals of a number type do not get in the way of a listing: `0` is a number, no listed function or operator is, and a listed
constant that can be read as a number (such as `i`) is read as its value. -/
def Listing.Readable (L : Listing) (read : Str → Option N) (shown : N → Str) : Prop :=
  (read ['0']).isSome = true ∧ (∀ n ∈ L.functions, read n = none) ∧ (∀ n ∈ L.operators, read n = none) ∧
    ∀ e ∈ L.constants, ∀ x, read e.1 = some x → shown x = e.2

end Prexel
