import Verif.Model.Json
/-!
# Query strings

`Query::<T>::from_query(req.query_string()).ok()`, prexel-server/src/endpoints/mod.rs 46-47, 58-59, 91-92 and 124-125: the crate `serde_urlencoded`, which is not part
of the repository, reads the query as `application/x-www-form-urlencoded`. Texts are compared with ASCII names only, so that what is decoded is a list
of bytes here.
-/

namespace Prexel

/-- `form_urlencoded::decode`: a plus sign is a space, `%` with two hexadecimal digits is a byte, everything else is itself. -/
def percent : Str → List ℕ
  | [] => []
  | '+' :: s => 32 :: percent s
  | '%' :: a :: b :: s =>
    match Json.hexDigit a, Json.hexDigit b with
    | some x, some y => (x * 16 + y) :: percent s
    | _, _ => 37 :: percent (a :: b :: s)
  | c :: s => c.toNat :: percent s

/-- The parts between the separators. -/
def cutAt (sep : Char) : Str → List Str
  | [] => [[]]
  | c :: s =>
    if c = sep then [] :: cutAt sep s
    else match cutAt sep s with
      | p :: ps => (c :: p) :: ps
      | [] => [[c]]

/-- `form_urlencoded::parse`: the name and the value of a part. -/
def queryPart (s : Str) : List ℕ × List ℕ :=
  (percent (s.takeWhile fun c => decide (c ≠ '=')), percent ((s.dropWhile fun c => decide (c ≠ '=')).drop 1))

/-- `form_urlencoded::parse`: empty parts are skipped. -/
def queryParts (q : Str) : List (List ℕ × List ℕ) := ((cutAt '&' q).filter fun s => decide (s ≠ [])).map queryPart

/-- The derived `Deserialize` of a structure with one optional field, over `serde_urlencoded`: the field at most once, other names are ignored, a value that
cannot be read is an error. -/
def oneField {α : Type} (name : List ℕ) (read : List ℕ → Option α) : Option α → List (List ℕ × List ℕ) → Option (Option α)
  | found, [] => some found
  | found, (k, v) :: rest =>
    if k = name then
      if found.isSome then none
      else match read v with
        | some a => oneField name read (some a) rest
        | none => none
    else oneField name read found rest

/-- The bytes of an ASCII text. -/
def bytesOf (s : String) : List ℕ := s.toList.map Char.toNat

/-- `EvalParams`, prexel-server/src/endpoints/mod.rs 9-12, 46-47: `query.and_then(|q| q.only_result)`. -/
def queryOnlyResult (q : Str) : Option Bool :=
  (oneField (bytesOf "only_result") (fun v => if v = bytesOf "true" then some true else if v = bytesOf "false" then some false else none)
    none (queryParts q)).join

/-- `GetFunctions`, prexel-server/src/endpoints/mod.rs 14-17, 58-59: `query.and_then(|q| q.r#type)`. -/
def queryType (q : Str) : Option NumberType :=
  (oneField (bytesOf "type")
    (fun v => if v = bytesOf "decimal" then some .decimal else if v = bytesOf "float" then some .float else if v = bytesOf "complex" then some .complex
      else if v = bytesOf "integer" then some .integer else if v = bytesOf "binary" then some .binary else none) none (queryParts q)).join

/-- A request to `/eval` with a query and a body, prexel-server/src/endpoints/mod.rs 19-54. -/
def World.post {D T : Type} (W : World D B64 T) (order : List (Str × Variable B64) → List (Str × Variable B64)) (query body : Str) : Response :=
  W.serveBody order body (queryOnlyResult query)

/-- A request for a listing with a query, prexel-server/src/endpoints/mod.rs 56-156. -/
def World.get {D F T : Type} (W : World D F T) (query : Str) : Res Listing := W.serverListing (queryType query)

end Prexel
