import Verif.Model.Json
import Verif.Spec.Numerals
/-!
# What a JSON text says

The grammar of RFC 8259, and what a request for the server is. Independent of how texts are read.
-/

namespace Prexel.Json

/-- White space, RFC 8259 section 2. -/
def Blank (s : Str) : Prop := ∀ c ∈ s, c = ' ' ∨ c = '\t' ∨ c = '\n' ∨ c = '\r'

/-- A number, RFC 8259 section 6: a sign, digits, digits behind a point, `e` with a sign, digits of the exponent. -/
structure Number where
  neg : Bool
  whole : Str
  frac : Str
  mark : Str
  exp : Str

/-- The digits before the point do not begin with a zero unless it is the only one; the exponent is there if its mark is. -/
def Number.WF (n : Number) : Prop :=
  Digits n.whole ∧ (n.whole.head? = some '0' → n.whole = ['0']) ∧ (n.frac = [] ∨ Digits n.frac) ∧
  ((n.mark = [] ∧ n.exp = []) ∨ (n.mark ∈ [['e'], ['E'], ['e', '+'], ['E', '+'], ['e', '-'], ['E', '-']] ∧ Digits n.exp))

def Number.text (n : Number) : Str :=
  (if n.neg then ['-'] else []) ++ n.whole ++ (if n.frac = [] then [] else '.' :: n.frac) ++ n.mark ++ n.exp

/-- The digits without the point, as a number. -/
def Number.significand (n : Number) : ℕ := digitsValue (n.whole ++ n.frac)

/-- The power of ten by which the digits without the point are multiplied. -/
def Number.power (n : Number) : ℤ :=
  (if n.mark = ['e', '-'] ∨ n.mark = ['E', '-'] then -(digitsValue n.exp : ℤ) else digitsValue n.exp) - n.frac.length

/-- The number that is meant. -/
def Number.value (n : Number) : ℚ := (if n.neg then -(n.significand : ℚ) else n.significand) * 10 ^ n.power

/-- A hexadecimal digit and its value. -/
def Hex (c : Char) (n : ℕ) : Prop :=
  ('0' ≤ c ∧ c ≤ '9' ∧ n = c.toNat - '0'.toNat) ∨ ('a' ≤ c ∧ c ≤ 'f' ∧ n = c.toNat - 'a'.toNat + 10) ∨ ('A' ≤ c ∧ c ≤ 'F' ∧ n = c.toNat - 'A'.toNat + 10)

/-- Four hexadecimal digits and their value. -/
def Hex4 (a b c d : Char) (n : ℕ) : Prop := ∃ i j k l, Hex a i ∧ Hex b j ∧ Hex c k ∧ Hex d l ∧ n = i * 4096 + j * 256 + k * 16 + l

/-- The short escapes, RFC 8259 section 7. -/
def shortEscapes : List (Char × Char) :=
  [('"', '"'), ('\\', '\\'), ('/', '/'), ('b', '\x08'), ('f', '\x0c'), ('n', '\n'), ('r', '\r'), ('t', '\t')]

/-- What may stand between quotes, RFC 8259 section 7. -/
inductive Raw : Str → Prop
  | nil : Raw []
  | plain {c : Char} {s : Str} : 32 ≤ c.toNat → c ≠ '"' → c ≠ '\\' → Raw s → Raw (c :: s)
  | short {c x : Char} {s : Str} : (c, x) ∈ shortEscapes → Raw s → Raw ('\\' :: c :: s)
  | hex {a b c d : Char} {n : ℕ} {s : Str} : Hex4 a b c d n → Raw s → Raw ('\\' :: 'u' :: a :: b :: c :: d :: s)

/-- The text that a string stands for, RFC 8259 section 7: characters stand for themselves, escapes for the character with this code, and two escapes
that are a surrogate pair for the character that the pair encodes. -/
inductive Spells : Str → Str → Prop
  | nil : Spells [] []
  | plain {c : Char} {s t : Str} : 32 ≤ c.toNat → c ≠ '"' → c ≠ '\\' → Spells s t → Spells (c :: s) (c :: t)
  | short {c x : Char} {s t : Str} : (c, x) ∈ shortEscapes → Spells s t → Spells ('\\' :: c :: s) (x :: t)
  | hex {a b c d x : Char} {s t : Str} : Hex4 a b c d x.toNat → Spells s t → Spells ('\\' :: 'u' :: a :: b :: c :: d :: s) (x :: t)
  | pair {a b c d e f g h x : Char} {hi lo : ℕ} {s t : Str} : Hex4 a b c d (0xD800 + hi) → hi < 1024 → Hex4 e f g h (0xDC00 + lo) → lo < 1024 →
      x.toNat = 0x10000 + hi * 1024 + lo → Spells s t → Spells ('\\' :: 'u' :: a :: b :: c :: d :: '\\' :: 'u' :: e :: f :: g :: h :: s) (x :: t)

mutual

/-- The text is this value, RFC 8259 section 3. -/
inductive Writes : Str → Json → Prop
  | null : Writes (Prexel.str "null") .null
  | true : Writes (Prexel.str "true") (.bool true)
  | false : Writes (Prexel.str "false") (.bool false)
  | num {n : Number} : n.WF → Writes n.text (.num n.text)
  | str {r : Str} : Raw r → Writes ('"' :: r ++ ['"']) (.str r)
  | noItems {b : Str} : Blank b → Writes ('[' :: b ++ [']']) (.arr [])
  | arr {s : Str} {l : List Json} : WritesItems s l → Writes ('[' :: s ++ [']']) (.arr l)
  | noMembers {b : Str} : Blank b → Writes ('{' :: b ++ ['}']) (.obj [])
  | obj {s : Str} {l : List (Str × Json)} : WritesMembers s l → Writes ('{' :: s ++ ['}']) (.obj l)

/-- The elements of an array, RFC 8259 section 5. -/
inductive WritesItems : Str → List Json → Prop
  | one {b s b' : Str} {v : Json} : Blank b → Writes s v → Blank b' → WritesItems (b ++ s ++ b') [v]
  | more {b s b' s' : Str} {v : Json} {l : List Json} : Blank b → Writes s v → Blank b' → WritesItems s' l →
      WritesItems (b ++ s ++ b' ++ ',' :: s') (v :: l)

/-- The members of an object, RFC 8259 section 4. -/
inductive WritesMembers : Str → List (Str × Json) → Prop
  | one {b r b1 b2 s b3 : Str} {v : Json} : Blank b → Raw r → Blank b1 → Blank b2 → Writes s v → Blank b3 →
      WritesMembers (b ++ '"' :: r ++ '"' :: b1 ++ ':' :: b2 ++ s ++ b3) [(r, v)]
  | more {b r b1 b2 s b3 s' : Str} {v : Json} {l : List (Str × Json)} : Blank b → Raw r → Blank b1 → Blank b2 → Writes s v → Blank b3 →
      WritesMembers s' l → WritesMembers (b ++ '"' :: r ++ '"' :: b1 ++ ':' :: b2 ++ s ++ b3 ++ ',' :: s') ((r, v) :: l)

end

/-- A JSON text: a value with white space around it, RFC 8259 section 2. -/
def IsText (s : Str) (v : Json) : Prop := ∃ b t b', Blank b ∧ Writes t v ∧ Blank b' ∧ s = b ++ t ++ b'

/-- The members of an object with the texts of their names. -/
def Named (ms named : List (Str × Json)) : Prop := List.Forall₂ (fun m n => Spells m.1 n.1 ∧ m.2 = n.2) ms named

/-- A string with this text. -/
def IsString (v : Json) (t : Str) : Prop := ∃ r, v = .str r ∧ Spells r t

/-- The names of the number types. -/
def typeNames : List (Str × NumberType) :=
  [(Prexel.str "decimal", .decimal), (Prexel.str "float", .float), (Prexel.str "integer", .integer), (Prexel.str "complex", .complex),
   (Prexel.str "binary", .binary)]

/-- The name of a number type: a string, or the name of the only member of an object, whose value is `null`. -/
def IsType (v : Json) (t : NumberType) : Prop := ∃ name r, (name, t) ∈ typeNames ∧ Spells r name ∧ (v = .str r ∨ v = .obj [(r, .null)])

/-- The value of a variable: a string or a number. Which double a number is, is the subject of C148. -/
def IsVariable (v : Json) : Variable B64 → Prop
  | .text t => IsString v t
  | .number f => ∃ t, v = .num t ∧ float t = some f

/-- The variables of a request, in any order; the last value of a name counts. -/
def IsVariables (v : Json) (l : List (Str × Variable B64)) : Prop :=
  ∃ ms named, v = .obj ms ∧ Named ms named ∧ (∀ m ∈ named, ∃ x, IsVariable m.2 x) ∧ (l.map (·.1)).Nodup ∧
    ∀ k x, (k, x) ∈ l ↔ ∃ w, named.reverse.lookup k = some w ∧ IsVariable w x

/-- A value that may be `null`. -/
def Optional {α : Type} (P : Json → α → Prop) (v : Json) (o : Option α) : Prop := (v = .null ∧ o = none) ∨ ∃ a, o = some a ∧ P v a

/-- A member that may be missing. -/
def Member {α : Type} (P : Json → α → Prop) (named : List (Str × Json)) (k : Str) (o : Option α) : Prop :=
  (∃ v, (k, v) ∈ named ∧ Optional P v o) ∨ ((∀ v, (k, v) ∉ named) ∧ o = none)

/-- A request: an object with an expression, and perhaps a type and variables, none of them twice; or an array of the three. -/
def IsRequest (v : Json) (r : Request B64) : Prop :=
  (∃ ms named, v = .obj ms ∧ Named ms named ∧
    (∀ k ∈ [Prexel.str "expression", Prexel.str "type", Prexel.str "variables"], (named.filter fun m => decide (m.1 = k)).length ≤ 1) ∧
    (∃ w, (Prexel.str "expression", w) ∈ named ∧ IsString w r.expression) ∧
    Member IsType named (Prexel.str "type") r.type ∧ Member IsVariables named (Prexel.str "variables") r.«variables») ∨
  (∃ x t w, v = .arr [x, t, w] ∧ IsString x r.expression ∧ Optional IsType t r.type ∧ Optional IsVariables w r.«variables»)

/-- Two requests that differ at most in the order of their variables. -/
def Same (r r' : Request B64) : Prop :=
  r.expression = r'.expression ∧ r.type = r'.type ∧ Option.Rel List.Perm r.«variables» r'.«variables»

/-- The body begins with the JSON text of this request. What is behind it is not looked at, which is more than RFC 8259 allows. -/
def Asks (body : Str) (r : Request B64) : Prop := ∃ b s rest v, body = b ++ s ++ rest ∧ Blank b ∧ Writes s v ∧ IsRequest v r

/-- The body of an answer says what the result is and what the error is: it is an object with exactly these two members, each a string or `null`. -/
def Says (body : Str) (result error : Option Str) : Prop :=
  ∃ ms v w, IsText body (.obj ms) ∧ Named ms [(Prexel.str "result", v), (Prexel.str "error", w)] ∧ Optional IsString v result ∧ Optional IsString w error

end Prexel.Json
