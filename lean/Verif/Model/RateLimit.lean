import Verif.Model.Basic

/-!
# The rate limiter of the server

Models `prexel-server/src/middlewares/rate_limiter.rs` and the part of `prexel-server/src/main.rs` that sets the limiter up. The crates
`base64` and `actix-ratelimit` are not part of the repository: the encoding and the memory store are written out here from their
documentation. Times are whole seconds. Requests without any address, which get their identifier from a cookie, are modelled as far as the
identifier goes; the cookie that is added to the response is not.
-/
namespace Prexel

/-- The alphabet of `base64::STANDARD`. -/
def base64Char (n : Nat) : Char :=
  if n < 26 then Char.ofNat (n + 65) else if n < 52 then Char.ofNat (n + 71) else if n < 62 then Char.ofNat (n - 4) else if n = 62 then '+' else '/'

/-- `base64::encode` of bytes, with padding. -/
def base64Bytes : List UInt8 → Str
  | [] => []
  | [a] => [base64Char (a.toNat / 4), base64Char (a.toNat % 4 * 16), '=', '=']
  | [a, b] => [base64Char (a.toNat / 4), base64Char (a.toNat % 4 * 16 + b.toNat / 16), base64Char (b.toNat % 16 * 4), '=']
  | a :: b :: c :: rest =>
    base64Char (a.toNat / 4) :: base64Char (a.toNat % 4 * 16 + b.toNat / 16) :: base64Char (b.toNat % 16 * 4 + c.toNat / 64) ::
      base64Char (c.toNat % 64) :: base64Bytes rest

/-- `base64::encode` of a string: of its UTF-8 bytes. -/
def base64Encode (s : Str) : Str := base64Bytes (s.flatMap String.utf8EncodeChar)

/-- `str::trim_end_matches` with a character. -/
def trimEndMatches (c : Char) (s : Str) : Str := (s.reverse.dropWhile (· == c)).reverse

/-- What the limiter sees of a request: `connection_info().remote_addr()`, `peer_addr()` as text, and the value and the `http_only` flag of the
cookie `X-Ratelimit-Id`. -/
structure Peer where
  remoteAddr : Option Str
  peerAddr : Option Str
  cookie : Option (Str × Option Bool)

/-- `internal_get_identifier`, prexel-server/src/middlewares/rate_limiter.rs 8-26. -/
def Peer.internalIdentifier (p : Peer) : Option Str :=
  match p.remoteAddr with
  | some a => some a
  | none =>
    match p.peerAddr with
    | some a => some a
    | none =>
      match p.cookie with
      | some (v, httpOnly) => if httpOnly.getD true then some v else none
      | none => none

/-- `get_rate_limit_identifier`, prexel-server/src/middlewares/rate_limiter.rs 7-30. -/
def Peer.identifier (p : Peer) : Option Str := p.internalIdentifier.map fun id => trimEndMatches '=' (base64Encode id)

/-- `MAX_REQUESTS`, prexel-server/src/main.rs 89. -/
def maxRequests : Nat := 100
/-- `TIME_BETWEEN_REQUESTS`, prexel-server/src/main.rs 90, in seconds. -/
def rateInterval : Nat := 60

/-- `actix_ratelimit::MemoryStore`: the requests that an identifier has left, and when the entry is removed. -/
abbrev RateStore := Str → Option (Nat × Nat)

/-- `actix_ratelimit::RateLimiter` with the settings of prexel-server/src/main.rs 88-102: `now` is the time of the request; whether it is passed
on. An entry that is not there or is removed starts a new interval, of which this request is the first. -/
def RateStore.request (σ : RateStore) (now : Nat) (id : Str) : Bool × RateStore :=
  let fresh := (true, fun k => if k = id then some (maxRequests - 1, now + rateInterval) else σ k)
  match σ id with
  | none => fresh
  | some (left, expires) =>
    if expires ≤ now then fresh
    else if left = 0 then (false, σ)
    else (true, fun k => if k = id then some (left - 1, expires) else σ k)

/-- What became of a request. -/
structure Served where
  time : Nat
  id : Str
  passed : Bool
deriving DecidableEq

/-- A run of the server: requests with their times and identifiers, in the order in which they arrive. -/
def RateStore.run (σ : RateStore) : List (Nat × Str) → List Served
  | [] => []
  | (now, id) :: rest => ⟨now, id, (σ.request now id).1⟩ :: (σ.request now id).2.run rest

/-- prexel-server/src/main.rs 92: the store is empty at the start. -/
def serveAll (requests : List (Nat × Str)) : List Served := RateStore.run (fun _ => none) requests

end Prexel
