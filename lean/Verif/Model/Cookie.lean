import Verif.Model.RateLimit
import Verif.Model.Repl

/-!
# Requests without an address

Models the middleware of `prexel-server/src/main.rs` 38-74, which gives a client whose address is not known an identifier of its own in a cookie,
together with the limiter behind it. `wrap_fn` (39) is registered after the limiter (38), so it sees a request first.

The crates `actix-web` 3 and `cookie` 0.14 are not part of the repository. What is used of them is written out from their documentation and
source: how a `Cookie` header is read, that the cookies of a request are read once and kept, and how a cookie is printed. Whether they are kept is
a parameter (`cached`), and so are the decoding of percent signs (`decode`) and the date in the cookie.
-/
namespace Prexel

/-- `RATE_LIMIT_ID`, prexel-server/src/middlewares/rate_limiter.rs 5. -/
def rateLimitId : Str := str "X-Ratelimit-Id"

/-- `Cookie::parse_encoded` of a text without semicolons: a name, `=` and a value. -/
def parsePair (decode : Str → Option Str) (s : Str) : Option (Str × Str) :=
  match s.span (· != '=') with
  | (_, []) => none
  | (n, _ :: v) =>
    if trim n = [] then none
    else match decode (trim n), decode (trim v) with
      | some n, some v => some (n, v)
      | _, _ => none

/-- `HttpMessage::cookies` of `actix-web` 3: the `Cookie` headers are cut at semicolons; one bad part makes the whole call fail. -/
def readCookies (decode : Str → Option Str) (headers : List Str) : Option (List (Str × Str)) :=
  ((headers.flatMap (splitChar ';')).map trim |>.filter (· ≠ [])).mapM (parsePair decode)

/-- A request: its addresses, its `Cookie` headers and the cookies that were read from them before. -/
structure WebRequest where
  remoteAddr : Option Str
  peerAddr : Option Str
  cookieHeaders : List Str
  kept : Option (List (Str × Str))

/-- `HttpMessage::cookie` of `actix-web` 3: the first cookie of that name, `None` also when the headers are bad; and the request afterwards, with the
cookies kept. A cookie of a request has no `http_only` flag. -/
def WebRequest.cookie (decode : Str → Option Str) (cached : Bool) (r : WebRequest) (name : Str) : Option Str × WebRequest :=
  match r.kept with
  | some cs => ((cs.find? (·.1 = name)).map (·.2), r)
  | none =>
    match readCookies decode r.cookieHeaders with
    | none => (none, r)
    | some cs => ((cs.find? (·.1 = name)).map (·.2), if cached then { r with kept := some cs } else r)

/-- `get_rate_limit_identifier`, prexel-server/src/middlewares/rate_limiter.rs 7-30, on a request; the cookies are only read when there is no
address. -/
def WebRequest.identify (decode : Str → Option Str) (cached : Bool) (r : WebRequest) : Option Str × WebRequest :=
  if r.remoteAddr.isSome || r.peerAddr.isSome then ((Peer.mk r.remoteAddr r.peerAddr none).identifier, r)
  else
    let c := r.cookie decode cached rateLimitId
    ((Peer.mk r.remoteAddr r.peerAddr (c.1.map (·, none))).identifier, c.2)

/-- `generate_rate_limit_id`, prexel-server/src/middlewares/rate_limiter.rs 32-35, from the bytes of the new UUID. -/
def generateId (uuid : List UInt8) : Str := trimEndMatches '=' (base64Bytes uuid)

/-- `temp_cookie.to_string()`, prexel-server/src/main.rs 46-50 and 55: `Display` of the crate `cookie` 0.14. `permanent()` is twenty years. -/
def printCookie (id date : Str) : Str :=
  rateLimitId ++ '=' :: id ++ str "; HttpOnly; Path=/; Max-Age=630720000; Expires=" ++ date

/-- What the server answers: the answer of the endpoint, a refusal of the limiter, or the error of a request that the limiter cannot identify
(prexel-server/src/main.rs 98-101). An answer carries the `Set-Cookie` header of the middleware (63-71). A refusal and an error of the limiter
are errors of the service, which are passed on by `?` (61) before a cookie is set. -/
inductive WebReply
  | answered (setCookie : Option Str)
  | limited
  | unidentified
deriving DecidableEq

/-- `RateLimiter::call` with the identifier of prexel-server/src/main.rs 98-101. -/
def limiter (decode : Str → Option Str) (cached : Bool) (σ : RateStore) (now : Nat) (r : WebRequest) : Option Bool × RateStore :=
  match (r.identify decode cached).1 with
  | none => (none, σ)
  | some id => (some (σ.request now id).1, (σ.request now id).2)

/-- The middleware around the limiter, prexel-server/src/main.rs 38-74. The new `Cookie` header replaces the others (`HeaderMap::insert`, 53-56). -/
def serveRequest (decode : Str → Option Str) (cached : Bool) (uuid : List UInt8) (date : Str) (σ : RateStore) (now : Nat) (r : WebRequest) :
    WebReply × RateStore :=
  let i := r.identify decode cached
  let cookie := if i.1.isSome then none else some (printCookie (generateId uuid) date)
  let r' := match cookie with
    | none => i.2
    | some c => { i.2 with cookieHeaders := [c] }
  match limiter decode cached σ now r' with
  | (none, τ) => (.unidentified, τ)
  | (some true, τ) => (.answered cookie, τ)
  | (some false, τ) => (.limited, τ)

end Prexel
