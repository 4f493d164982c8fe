import Verif.Model.Query
/-!
# The listings as JSON

`HttpResponse::Ok().json(...)` of prexel-server/src/endpoints/mod.rs 56-156 with the structures of prexel-server/src/services/info.rs 5-16; the texts are those
that `serde_json::to_string` writes: no white space, the fields of a structure in the order in which they are declared.
-/

namespace Prexel

/-- A `Vec` as JSON, its elements being texts already. -/
def Json.array (items : List Str) : Str := '[' :: [','].intercalate items ++ [']']

/-- `FnInfo` as JSON, prexel-server/src/services/info.rs 5-10. -/
def FnInfo.json (i : FnInfo) : Str :=
  str "{\"name\":" ++ Json.quoted i.name ++ str ",\"aliases\":" ++ Json.array (i.aliases.map Json.quoted) ++ str ",\"description\":" ++
    Json.quotedOption i.description ++ str "}"

/-- `VarInfo` as JSON, prexel-server/src/services/info.rs 12-16. -/
def constantJson (e : Str × Str) : Str := str "{\"name\":" ++ Json.quoted e.1 ++ str ",\"value\":" ++ Json.quoted e.2 ++ str "}"

namespace World
variable {D F T : Type} (W : World D F T)

/-- `get_operators`, prexel-server/src/endpoints/mod.rs 56-87: the status and the body. -/
def getOperators (query : Str) : Res (ℕ × Str) := (W.serverInfos (queryType query)).map fun I => (200, Json.array (I.operators.map FnInfo.json))

/-- `get_constants`, prexel-server/src/endpoints/mod.rs 89-120. -/
def getConstants (query : Str) : Res (ℕ × Str) := (W.serverInfos (queryType query)).map fun I => (200, Json.array (I.constants.map constantJson))

/-- `get_functions`, prexel-server/src/endpoints/mod.rs 122-154. -/
def getFunctions (query : Str) : Res (ℕ × Str) := (W.serverInfos (queryType query)).map fun I => (200, Json.array (I.functions.map FnInfo.json))

end World

end Prexel
