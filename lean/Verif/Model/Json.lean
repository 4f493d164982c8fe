import Verif.Model.Apps
import Verif.Model.DoubleText
/-!
# JSON

The body of a request to `/eval` (prexel-server/src/endpoints/mod.rs 19-42) is read with `serde_json` 1.0 and the derived `Deserialize` of
prexel-server/src/models/mod.rs; the answer is written with the derived `Serialize`. Both crates are not part of the repository; this file models
what they do with these types. Bodies that are not UTF-8 are refused before (22-28); here a body is a text.
-/

namespace Prexel

/-- A JSON text, taken apart. Numbers and strings are as they are written: `serde_json` does not look further into those that are ignored. -/
inductive Json
  | null
  | bool (b : Bool)
  /-- The numeral. -/
  | num (text : Str)
  /-- What is between the quotes. -/
  | str (raw : Str)
  | arr (items : List Json)
  | obj (members : List (Str × Json))

namespace Json

/-- `parse_whitespace` of `serde_json` -/
def blank (c : Char) : Bool := c == ' ' || c == '\n' || c == '\t' || c == '\r'
/-- See `blank`. -/
def skip (s : Str) : Str := s.dropWhile blank

/-- A hexadecimal digit (`decode_hex_escape`). -/
def hexDigit (c : Char) : Option ℕ :=
  if '0' ≤ c ∧ c ≤ '9' then some (c.toNat - 48)
  else if 'a' ≤ c ∧ c ≤ 'f' then some (c.toNat - 87)
  else if 'A' ≤ c ∧ c ≤ 'F' then some (c.toNat - 55)
  else none

/-- Four hexadecimal digits (`decode_hex_escape`). -/
def hex4 (a b c d : Char) : Option ℕ :=
  match hexDigit a, hexDigit b, hexDigit c, hexDigit d with
  | some a, some b, some c, some d => some (((a * 16 + b) * 16 + c) * 16 + d)
  | _, _, _, _ => none

/-- The letters behind a backslash, except `u` (`parse_escape`). -/
def escaped (c : Char) : Option Char :=
  if c = '"' then some '"' else if c = '\\' then some '\\' else if c = '/' then some '/'
  else if c = 'b' then some (Char.ofNat 8) else if c = 'f' then some (Char.ofNat 12) else if c = 'n' then some '\n'
  else if c = 'r' then some '\r' else if c = 't' then some '\t' else none

/-- What is between the quotes, and what is behind the second one (`ignore_str`): no control characters, and only the known escapes. -/
def rawString : Str → Option (Str × Str)
  | [] => none
  | '"' :: s => some ([], s)
  | '\\' :: 'u' :: a :: b :: c :: d :: s =>
    if (hex4 a b c d).isSome then (rawString s).map fun r => ('\\' :: 'u' :: a :: b :: c :: d :: r.1, r.2) else none
  | '\\' :: c :: s => if (escaped c).isSome then (rawString s).map fun r => ('\\' :: c :: r.1, r.2) else none
  | '\\' :: [] => none
  | c :: s => if c.toNat < 32 then none else (rawString s).map fun r => (c :: r.1, r.2)

/-- The sign of an exponent. -/
def expSign : Str → Str × Str
  | '+' :: s => (['+'], s)
  | '-' :: s => (['-'], s)
  | s => ([], s)

/-- The digits of an exponent. -/
def exponentPart : Str → Option (Str × Str)
  | c :: s =>
    if c = 'e' ∨ c = 'E' then
      let t := (expSign s).2
      if t.takeWhile isDigit = [] then none else some (c :: (expSign s).1 ++ t.takeWhile isDigit, t.dropWhile isDigit)
    else some ([], c :: s)
  | [] => some ([], [])

/-- The digits behind a point. -/
def fractionPart : Str → Option (Str × Str)
  | '.' :: s => if s.takeWhile isDigit = [] then none else some ('.' :: s.takeWhile isDigit, s.dropWhile isDigit)
  | s => some ([], s)

/-- Digits without a zero in front. -/
def wholePart (s : Str) : Option (Str × Str) :=
  let a := s.takeWhile isDigit
  if a = [] ∨ (a.head? = some '0' ∧ a.length ≠ 1) then none else some (a, s.dropWhile isDigit)

/-- A minus sign. -/
def signPart : Str → Str × Str
  | '-' :: s => (['-'], s)
  | s => ([], s)

/-- A numeral (`ignore_number`). -/
def numeral (s : Str) : Option (Str × Str) :=
  let sign := (signPart s).1
  match wholePart (signPart s).2 with
  | none => none
  | some (a, s) => match fractionPart s with
    | none => none
    | some (b, s) => match exponentPart s with
      | none => none
      | some (c, s) => some (sign ++ a ++ b ++ c, s)

mutual

/-- `deserialize_any` and `ignore_value` of `serde_json`: a value at the beginning of the text, and what is behind it. The number bounds the depth of the
recursion; the length of the text is enough. (`serde_json` refuses values nested deeper than 128, but not inside what it ignores; whatever is not ignored
here is refused anyway if it is nested.) -/
def value : ℕ → Str → Option (Json × Str)
  | 0, _ => none
  | n + 1, s => match s with
    | 'n' :: 'u' :: 'l' :: 'l' :: t => some (.null, t)
    | 't' :: 'r' :: 'u' :: 'e' :: t => some (.bool true, t)
    | 'f' :: 'a' :: 'l' :: 's' :: 'e' :: t => some (.bool false, t)
    | '"' :: t => (rawString t).map fun r => (.str r.1, r.2)
    | '[' :: t => match skip t with
      | ']' :: t => some (.arr [], t)
      | t => (items n t).map fun r => (.arr r.1, r.2)
    | '{' :: t => match skip t with
      | '}' :: t => some (.obj [], t)
      | t => (members n t).map fun r => (.obj r.1, r.2)
    | s => (numeral s).map fun r => (.num r.1, r.2)

/-- `SeqAccess` of `serde_json`: the elements up to the closing bracket. -/
def items : ℕ → Str → Option (List Json × Str)
  | 0, _ => none
  | n + 1, s => match value n s with
    | none => none
    | some (v, t) => match skip t with
      | ',' :: t => (items n (skip t)).map fun r => (v :: r.1, r.2)
      | ']' :: t => some ([v], t)
      | _ => none

/-- `MapAccess` of `serde_json`: the members up to the closing brace. -/
def members : ℕ → Str → Option (List (Str × Json) × Str)
  | 0, _ => none
  | n + 1, s => match s with
    | '"' :: s => match rawString s with
      | none => none
      | some (k, t) => match skip t with
        | ':' :: t => match value n (skip t) with
          | none => none
          | some (v, t) => match skip t with
            | ',' :: t => (members n (skip t)).map fun r => ((k, v) :: r.1, r.2)
            | '}' :: t => some ([(k, v)], t)
            | _ => none
        | _ => none
    | _ => none

end

/-- `parse_str`: the text that is meant. A pair of surrogates is one character; a surrogate alone is an error. -/
def decode : Str → Option Str
  | [] => some []
  | '\\' :: 'u' :: a :: b :: c :: d :: s =>
    match hex4 a b c d with
    | none => none
    | some n =>
      if 0xD800 ≤ n ∧ n ≤ 0xDBFF then
        match s with
        | '\\' :: 'u' :: e :: f :: g :: h :: s =>
          match hex4 e f g h with
          | none => none
          | some m =>
            if 0xDC00 ≤ m ∧ m ≤ 0xDFFF then
              (decode s).map fun t => Char.ofNat ((n - 0xD800) * 1024 + (m - 0xDC00) + 0x10000) :: t
            else none
        | _ => none
      else if 0xDC00 ≤ n ∧ n ≤ 0xDFFF then none
      else (decode s).map fun t => Char.ofNat n :: t
  | '\\' :: c :: s => match escaped c with
    | none => none
    | some x => (decode s).map fun t => x :: t
  | '\\' :: [] => none
  | c :: s => if c.toNat < 32 ∨ c = '"' then none else (decode s).map fun t => c :: t

/-- Digits of the significand, as long as they fit in a `u64`: the number, and how many were taken (`parse_integer`, `parse_decimal`). -/
def fill (m : ℕ) : Str → ℕ × ℕ
  | [] => (m, 0)
  | c :: s =>
    if m * 10 + (c.toNat - 48) < 2 ^ 64 then ((fill (m * 10 + (c.toNat - 48)) s).1, (fill (m * 10 + (c.toNat - 48)) s).2 + 1) else (m, 0)

/-- `f64_from_parts`: the powers of ten up to `1e308` are a table. `n` bounds the rounds. -/
def scaled : ℕ → B64 → ℤ → Option B64
  | 0, _, _ => none
  | n + 1, f, e =>
    if e.natAbs ≤ 308 then
      if 0 ≤ e then (if (B64.mul f (B64.lit (10 ^ e.natAbs))).isInf then none else some (B64.mul f (B64.lit (10 ^ e.natAbs))))
      else some (B64.div f (B64.lit (10 ^ e.natAbs)))
    else if f.isZero then some f
    else if 0 ≤ e then none
    else scaled n (B64.div f (B64.lit (10 ^ 308))) (e + 308)

/-- `parse_any_number` of `serde_json` without the feature `float_roundtrip`, and the conversion of an integer to `f64`: digits that do not fit in the
significand count as zeros before the point and are dropped behind it. -/
def float (text : Str) : Option B64 :=
  let neg := text.head? == some '-'
  let s := if neg then text.drop 1 else text
  let a := s.takeWhile isDigit
  let (b, rest) := B64.fractionOf (s.dropWhile isDigit)
  match B64.exponentOf rest with
  | none => none
  | some e =>
    let x := fill 0 a
    let y := fill x.1 b
    let exp : ℤ := (a.length - x.2 : ℕ) - (y.2 : ℤ) + e
    (scaled (exp.natAbs + 1) (B64.lit y.1) exp).map fun f => if neg then f.neg else f

/-- `Variable`, prexel-server/src/models/mod.rs 7-12 (`untagged`): a string, or a number. -/
def variable_ : Json → Option (Variable B64)
  | .str r => (decode r).map .text
  | .num t => (float t).map .number
  | _ => none

/-- `HashMap::insert`: the last value of a name remains. -/
def insert {V : Type} (l : List (Str × V)) (k : Str) (v : V) : List (Str × V) := l.filter (fun e => decide (e.1 ≠ k)) ++ [(k, v)]

/-- `HashMap<String, Variable>::deserialize`. The order is that of insertion here; the order of a hash map is not known (see `serveBody`). -/
def mapOf : List (Str × Variable B64) → List (Str × Json) → Option (List (Str × Variable B64))
  | l, [] => some l
  | l, (k, v) :: ms => match decode k, variable_ v with
    | some k, some v => mapOf (insert l k v) ms
    | _, _ => none

/-- `Option<HashMap<String, Variable>>::deserialize`, prexel-server/src/models/mod.rs 48 -/
def vars : Json → Option (Option (List (Str × Variable B64)))
  | .null => some none
  | .obj ms => (mapOf [] ms).map some
  | _ => none

/-- `Option<NumberType>::deserialize`, prexel-server/src/models/mod.rs 22-41 and 47: a string, or (as serde reads enums) an object with the name as its
only member. -/
def type : Json → Option (Option NumberType)
  | .null => some none
  | .str r => ((decode r).bind NumberType.fromStr).map some
  | .obj [(k, .null)] => ((decode k).bind NumberType.fromStr).map some
  | _ => none

/-- `String::deserialize`, prexel-server/src/models/mod.rs 46 -/
def text : Json → Option Str
  | .str r => decode r
  | _ => none

/-- The fields read so far, `EvalExpression::deserialize`. -/
structure Fields where
  expression : Option Str
  type : Option (Option NumberType)
  vars : Option (Option (List (Str × Variable B64)))

/-- `visit_map` of the derived `EvalExpression::deserialize`, prexel-server/src/models/mod.rs 43-49: no field twice, other members are ignored. -/
def fields : Fields → List (Str × Json) → Option Fields
  | f, [] => some f
  | f, (k, v) :: ms => match decode k with
    | none => none
    | some k =>
      if k = Prexel.str "expression" then
        (if f.expression.isSome then none else (text v).bind fun x => fields { f with expression := some x } ms)
      else if k = Prexel.str "type" then
        (if f.type.isSome then none else (type v).bind fun x => fields { f with type := some x } ms)
      else if k = Prexel.str "variables" then
        (if f.vars.isSome then none else (vars v).bind fun x => fields { f with vars := some x } ms)
      else fields f ms

/-- `EvalExpression::deserialize`, prexel-server/src/models/mod.rs 43-49: an object, or (as serde reads structures) an array of all three fields. -/
def request : Json → Option (Request B64)
  | .obj ms => match fields ⟨none, none, none⟩ ms with
    | some f => match f.expression with
      | some x => some ⟨x, f.type.join, f.vars.join⟩
      | none => none
    | none => none
  | .arr [x, t, v] => match text x, type t, vars v with
    | some x, some t, some v => some ⟨x, t, v⟩
    | _, _, _ => none
  | _ => none

end Json

/-- Reading the body, prexel-server/src/endpoints/mod.rs 30-42: what is behind the value is not looked at (`Deserializer::end` is not called). -/
def readBody (body : Str) : Option (Request B64) :=
  match Json.value (body.length + 1) (Json.skip body) with
  | some (v, _) => v.request
  | none => none

/-- The `eval` endpoint, prexel-server/src/endpoints/mod.rs 19-54, on a body that is UTF-8. `order` is how the hash map of the variables is iterated. -/
def World.serveBody {D T : Type} (W : World D B64 T) (order : List (Str × Variable B64) → List (Str × Variable B64)) (body : Str)
    (onlyResult : Option Bool) : Response :=
  W.evalEndpoint ((readBody body).map fun r => { r with «variables» := r.«variables».map order }) onlyResult

namespace Json

/-- A hexadecimal digit, lower case. -/
def hexChar (n : ℕ) : Char := if n < 10 then Char.ofNat (48 + n) else Char.ofNat (87 + n)

/-- `format_escaped_str_contents` of `serde_json`: a character in a string. -/
def escape (c : Char) : Str :=
  if c = '"' then ['\\', '"'] else if c = '\\' then ['\\', '\\']
  else if c.toNat = 8 then ['\\', 'b'] else if c.toNat = 12 then ['\\', 'f'] else if c = '\n' then ['\\', 'n']
  else if c = '\r' then ['\\', 'r'] else if c = '\t' then ['\\', 't']
  else if c.toNat < 32 then ['\\', 'u', '0', '0', hexChar (c.toNat / 16), hexChar (c.toNat % 16)]
  else [c]

/-- A text as JSON. -/
def quoted (s : Str) : Str := '"' :: s.flatMap escape ++ ['"']

/-- An `Option<String>` as JSON. -/
def quotedOption : Option Str → Str
  | none => Prexel.str "null"
  | some s => quoted s

end Json

/-- What is sent: the status and the text of the body. `EvaluatedExpression` is serialised with its two fields in order, prexel-server/src/models/mod.rs 51-56.
`message` is the text of an error. -/
def Response.sent (message : Failure → Str) : Response → Option (ℕ × Str)
  | .json status result error =>
    some (status, str "{\"result\":" ++ Json.quotedOption result ++ str ",\"error\":" ++ Json.quotedOption (error.map message) ++ str "}")
  | .body status text => some (status, text)
  | .panic => none

end Prexel
