import Verif.Model.Cookie
import Verif.Props.RateLimit
import Verif.Props.Session
import Mathlib.Data.List.TakeDrop

/-!
# Clients without an address (C126)
-/
namespace Prexel

/-- A name or a value that can stand in a `Cookie` header as it is. -/
def CookieText (s : Str) : Prop := ∀ c ∈ s, c ≠ ';' ∧ c ≠ '=' ∧ c ≠ '%' ∧ isWhitespace c = false

/-- The `Cookie` header that a browser sends for its cookies. -/
def cookieHeader : List (Str × Str) → Str
  | [] => []
  | [(n, v)] => n ++ '=' :: v
  | (n, v) :: rest => n ++ '=' :: v ++ ';' :: ' ' :: cookieHeader rest

/-- The contract of the decoding: a text without percent signs means itself. -/
def Decodes (decode : Str → Option Str) : Prop := ∀ s : Str, '%' ∉ s → decode s = some s

theorem dropWhile_none (s : Str) (h : ∀ c ∈ s, isWhitespace c = false) : s.dropWhile isWhitespace = s := by
  cases s with
  | nil => rfl
  | cons c s => simp [h c (by simp)]

theorem trim_none (s : Str) (h : ∀ c ∈ s, isWhitespace c = false) : trim s = s := by
  unfold trim
  rw [dropWhile_none s h, dropWhile_none s.reverse (by simpa using h), List.reverse_reverse]

theorem trim_space (s : Str) : trim (' ' :: s) = trim s := by
  have : isWhitespace ' ' = true := by decide
  simp [trim, this]

theorem CookieText.trim {s : Str} (h : CookieText s) : trim s = s := trim_none s fun c hc => (h c hc).2.2.2

theorem splitChar_space (s : Str) : (splitChar ';' (' ' :: s)).map trim = (splitChar ';' s).map trim := by
  have : (' ' : Char) ≠ ';' := by decide
  rw [splitChar, if_neg this]
  have := splitChar_ne_nil ';' s
  cases e : splitChar ';' s with
  | nil => exact absurd e this
  | cons w ws => simp [trim_space]

theorem split_header (l : List (Str × Str)) (hl : l ≠ []) (h : ∀ p ∈ l, CookieText p.1 ∧ CookieText p.2) :
    (splitChar ';' (cookieHeader l)).map trim = l.map fun p => p.1 ++ '=' :: p.2 := by
  have part : ∀ n v : Str, CookieText n → CookieText v → ';' ∉ n ++ '=' :: v ∧ trim (n ++ '=' :: v) = n ++ '=' :: v := by
    intro n v hn hv
    constructor
    · simp only [List.mem_append, List.mem_cons, not_or]
      exact ⟨fun hc => (hn _ hc).1 rfl, by decide, fun hc => (hv _ hc).1 rfl⟩
    · apply trim_none
      intro c hc
      rcases List.mem_append.1 hc with hc | hc
      · exact (hn c hc).2.2.2
      · rcases List.mem_cons.1 hc with rfl | hc
        · decide
        · exact (hv c hc).2.2.2
  induction l with
  | nil => exact absurd rfl hl
  | cons p rest ih =>
    obtain ⟨n, v⟩ := p
    have hp := h (n, v) (by simp)
    have := part n v hp.1 hp.2
    cases rest with
    | nil => simp [cookieHeader, splitChar_of_not_mem _ _ this.1, this.2]
    | cons q rest =>
      rw [cookieHeader]
      · rw [splitChar_append _ _ _ this.1, List.map_cons, splitChar_space, ih (by simp) (fun p hp => h p (by simp [hp])), this.2]
        simp
      · simp

theorem parsePair_pair {decode : Str → Option Str} (hd : Decodes decode) {n v : Str} (hn : CookieText n) (hv : CookieText v) (h0 : n ≠ []) :
    parsePair decode (n ++ '=' :: v) = some (n, v) := by
  have e : (n ++ '=' :: v).span (· != '=') = (n, '=' :: v) := by
    rw [List.span_eq_takeWhile_dropWhile]
    have a : ∀ c ∈ n, (c != '=') = true := fun c hc => by simpa using (hn c hc).2.1
    rw [List.takeWhile_append_of_pos a, List.dropWhile_append_of_pos a]
    simp
  simp only [parsePair, e, hn.trim, hv.trim, h0, if_false]
  rw [hd n fun hc => (hn _ hc).2.2.1 rfl, hd v fun hc => (hv _ hc).2.2.1 rfl]

theorem readCookies_header {decode : Str → Option Str} (hd : Decodes decode) (l : List (Str × Str)) (hl : l ≠ [])
    (h : ∀ p ∈ l, CookieText p.1 ∧ CookieText p.2 ∧ p.1 ≠ []) : readCookies decode [cookieHeader l] = some l := by
  unfold readCookies
  simp only [List.flatMap_cons, List.flatMap_nil, List.append_nil]
  rw [split_header l hl fun p hp => ⟨(h p hp).1, (h p hp).2.1⟩]
  have : ((l.map fun p => p.1 ++ '=' :: p.2).filter (· ≠ [])) = l.map fun p => p.1 ++ '=' :: p.2 := by
    rw [List.filter_eq_self]
    intro a ha
    obtain ⟨p, _, rfl⟩ := List.mem_map.1 ha
    simp
  rw [this]
  clear this hl
  induction l with
  | nil => rfl
  | cons p l ih =>
    have hp := h p (by simp)
    simp [List.mapM_cons, parsePair_pair hd hp.1 hp.2.1 hp.2.2, ih (fun q hq => h q (by simp [hq]))]

/-- C126: a client whose address is known is counted by it, whatever cookies it sends, and never gets a cookie. -/
theorem C126_address (decode : Str → Option Str) (cached : Bool) (uuid : List UInt8) (date : Str) (σ : RateStore) (now : Nat) (r : WebRequest)
    (a : Str) (h : r.remoteAddr = some a ∨ r.remoteAddr = none ∧ r.peerAddr = some a) :
    serveRequest decode cached uuid date σ now r =
      (if (σ.request now (trimEndMatches '=' (base64Encode a))).1 then .answered none else .limited,
        (σ.request now (trimEndMatches '=' (base64Encode a))).2) := by
  have e : r.identify decode cached = (some (trimEndMatches '=' (base64Encode a)), r) := by
    rcases h with h | ⟨h, h'⟩
    · simp [WebRequest.identify, h, Peer.identifier, Peer.internalIdentifier]
    · simp [WebRequest.identify, h, h', Peer.identifier, Peer.internalIdentifier]
  simp only [serveRequest, e, limiter, Option.isSome_some, if_true]
  cases (σ.request now (trimEndMatches '=' (base64Encode a))).1 <;> rfl

/-- C126: a client whose address is not known and that sends the cookie is counted by its value, whatever other cookies it sends with it, and gets no
other cookie. Values that differ are counted apart (`C113_address`, `encode_inj`). -/
theorem C126_cookie {decode : Str → Option Str} (hd : Decodes decode) (cached : Bool) (uuid : List UInt8) (date : Str) (σ : RateStore) (now : Nat)
    (before after : List (Str × Str)) (v : Str) (hv : CookieText v)
    (hb : ∀ p ∈ before, CookieText p.1 ∧ CookieText p.2 ∧ p.1 ≠ [] ∧ p.1 ≠ rateLimitId)
    (ha : ∀ p ∈ after, CookieText p.1 ∧ CookieText p.2 ∧ p.1 ≠ []) :
    serveRequest decode cached uuid date σ now ⟨none, none, [cookieHeader (before ++ (rateLimitId, v) :: after)], none⟩ =
      (if (σ.request now (trimEndMatches '=' (base64Encode v))).1 then .answered none else .limited,
        (σ.request now (trimEndMatches '=' (base64Encode v))).2) := by
  have hn : CookieText rateLimitId := by
    have : rateLimitId.all (fun c => c != ';' && c != '=' && c != '%' && !isWhitespace c) = true := by decide
    intro c hc
    have := List.all_eq_true.1 this c hc
    simp only [Bool.and_eq_true, bne_iff_ne, ne_eq, Bool.not_eq_true'] at this
    exact ⟨this.1.1.1, this.1.1.2, this.1.2, this.2⟩
  have h0 : rateLimitId ≠ [] := by decide
  have hr := readCookies_header hd (before ++ (rateLimitId, v) :: after) (by simp) (by
    intro p hp
    simp only [List.mem_append, List.mem_cons] at hp
    rcases hp with hp | rfl | hp
    · exact ⟨(hb p hp).1, (hb p hp).2.1, (hb p hp).2.2.1⟩
    · exact ⟨hn, hv, h0⟩
    · exact ha p hp)
  have hf : ((before ++ (rateLimitId, v) :: after).find? (·.1 = rateLimitId)) = some (rateLimitId, v) := by
    rw [List.find?_append, List.find?_eq_none.2 (by simpa using fun a b hp => (hb (a, b) hp).2.2.2)]
    simp
  have e1 : WebRequest.identify decode cached ⟨none, none, [cookieHeader (before ++ (rateLimitId, v) :: after)], none⟩ =
      (some (trimEndMatches '=' (base64Encode v)),
        ⟨none, none, [cookieHeader (before ++ (rateLimitId, v) :: after)], if cached then some (before ++ (rateLimitId, v) :: after) else none⟩) := by
    simp only [WebRequest.identify, WebRequest.cookie, hr, hf]
    cases cached <;> simp [Peer.identifier, Peer.internalIdentifier]
  have e2 : (WebRequest.identify decode cached
      ⟨none, none, [cookieHeader (before ++ (rateLimitId, v) :: after)], if cached then some (before ++ (rateLimitId, v) :: after) else none⟩).1 =
      some (trimEndMatches '=' (base64Encode v)) := by
    cases cached
    · simp only [WebRequest.identify, WebRequest.cookie, hr, hf]
      simp [Peer.identifier, Peer.internalIdentifier]
    · simp only [WebRequest.identify, WebRequest.cookie, if_true]
      rw [hf]
      rfl
  simp only [serveRequest, e1, limiter, e2, Option.isSome_some, if_true]
  cases (σ.request now (trimEndMatches '=' (base64Encode v))).1 <;> rfl

theorem splitChar_mem (a p b : Str) (hp : ';' ∉ p) : p ∈ splitChar ';' (a ++ ';' :: p ++ ';' :: b) := by
  induction a with
  | nil =>
    rw [List.nil_append, List.cons_append, splitChar, if_pos rfl, splitChar_append _ _ _ hp]
    simp
  | cons c a ih =>
    rw [List.cons_append, List.cons_append, splitChar]
    split
    · exact List.mem_cons_of_mem _ ih
    · have hh : ∀ s : Str, (';' :: p ++ ';' :: b) ≠ [] := by simp
      -- the part stands behind the first one
      have h2 : ∀ a : Str, p ∈ (splitChar ';' (a ++ ';' :: p ++ ';' :: b)).tail := by
        intro a
        clear ih
        induction a with
        | nil => rw [List.nil_append, List.cons_append, splitChar, if_pos rfl, splitChar_append _ _ _ hp]; simp
        | cons c a ih =>
          rw [List.cons_append, List.cons_append, splitChar]
          split
          · exact List.mem_of_mem_tail ih
          · cases e : splitChar ';' (a ++ ';' :: p ++ ';' :: b) with
            | nil => rw [e] at ih; simp at ih
            | cons w ws => rw [e] at ih; exact ih
      have := h2 a
      cases e : splitChar ';' (a ++ ';' :: p ++ ';' :: b) with
      | nil => exact absurd e (splitChar_ne_nil _ _)
      | cons w ws => rw [e] at this; exact List.mem_cons_of_mem _ this

theorem mapM_none {α β : Type} (f : α → Option β) (l : List α) (x : α) (hx : x ∈ l) (h : f x = none) : l.mapM f = none := by
  induction l with
  | nil => cases hx
  | cons y l ih =>
    rw [List.mapM_cons]
    rcases List.mem_cons.1 hx with rfl | hx
    · rw [h]; rfl
    · rw [ih hx]; cases f y <;> rfl

/-- The cookie that the middleware writes into the request cannot be read: `HttpOnly` is no pair. -/
theorem readCookies_printed (decode : Str → Option Str) (id date : Str) : readCookies decode [printCookie id date] = none := by
  unfold readCookies
  refine mapM_none _ _ (str "HttpOnly") ?_ rfl
  have e : printCookie id date = (rateLimitId ++ '=' :: id) ++ ';' :: str " HttpOnly" ++ ';' :: (str " Path=/; Max-Age=630720000; Expires=" ++ date) := by
    have : str "; HttpOnly; Path=/; Max-Age=630720000; Expires=" = ';' :: str " HttpOnly" ++ ';' :: str " Path=/; Max-Age=630720000; Expires=" := by
      decide
    simp only [printCookie, this]
    simp only [List.append_assoc, List.cons_append]
  simp only [List.flatMap_cons, List.flatMap_nil, List.append_nil, List.mem_filter, List.mem_map]
  refine ⟨⟨str " HttpOnly", ?_, by decide⟩, by decide⟩
  rw [e]
  exact splitChar_mem _ _ _ (by decide)

/-- C126 fails: a client whose address is not known and that does not send the cookie, for whatever reason, is never answered and never gets a cookie:
the limiter cannot read the cookie that the middleware writes into the request (and would not look at it, as it keeps the cookies it has read). The
client is not counted either. -/
theorem C126_counterexample (decode : Str → Option Str) (cached : Bool) (uuid : List UInt8) (date : Str) (σ : RateStore) (now : Nat)
    (headers : List Str) (h : ∀ cs, readCookies decode headers = some cs → ∀ p ∈ cs, p.1 ≠ rateLimitId) :
    serveRequest decode cached uuid date σ now ⟨none, none, headers, none⟩ = (.unidentified, σ) := by
  cases e : readCookies decode headers with
  | none => simp [serveRequest, WebRequest.identify, WebRequest.cookie, e, limiter, readCookies_printed, Peer.identifier, Peer.internalIdentifier]
  | some cs =>
    have hf : cs.find? (fun x => decide (x.1 = rateLimitId)) = none := List.find?_eq_none.2 (by simpa using fun a b hp => h cs e (a, b) hp)
    cases cached <;>
      simp [serveRequest, WebRequest.identify, WebRequest.cookie, e, hf, limiter, readCookies_printed, Peer.identifier, Peer.internalIdentifier]

/-- C126 fails for every client: whatever a request looks like, its answer never carries the cookie. -/
theorem C126_never_counterexample (decode : Str → Option Str) (cached : Bool) (uuid : List UInt8) (date : Str) (σ : RateStore) (now : Nat)
    (remote peer : Option Str) (headers : List Str) (c : Str) :
    (serveRequest decode cached uuid date σ now ⟨remote, peer, headers, none⟩).1 ≠ .answered (some c) := by
  by_cases ha : ∃ a, remote = some a ∨ remote = none ∧ peer = some a
  · obtain ⟨a, ha⟩ := ha
    rw [C126_address decode cached uuid date σ now ⟨remote, peer, headers, none⟩ a ha]
    simp only
    split <;> simp
  · cases remote with
    | some a => exact absurd ⟨a, .inl rfl⟩ ha
    | none =>
      cases peer with
      | some a => exact absurd ⟨a, .inr ⟨rfl, rfl⟩⟩ ha
      | none =>
        by_cases h : ∀ cs, readCookies decode headers = some cs → ∀ p ∈ cs, p.1 ≠ rateLimitId
        · rw [C126_counterexample decode cached uuid date σ now headers h]
          simp
        · have hi : (WebRequest.identify decode cached ⟨none, none, headers, none⟩).1.isSome = true := by
            push Not at h
            obtain ⟨cs, hc, p, hp, hn⟩ := h
            cases hf : cs.find? (fun x => decide (x.1 = rateLimitId)) with
            | none => exact absurd hn (by simpa using List.find?_eq_none.1 hf p hp)
            | some q => simp [WebRequest.identify, WebRequest.cookie, hc, hf, Peer.identifier, Peer.internalIdentifier]
          simp only [serveRequest, hi, if_true]
          split <;> simp

/-- C126: different UUIDs make different identifiers. -/
theorem C126_ids {u u' : List UInt8} (h : generateId u = generateId u') : u = u' := by
  unfold generateId at h
  rw [trim_base64, trim_base64] at h
  exact base64Plain_inj _ _ h

/-- The first request of a client without an address and without cookies. -/
example (decode : Str → Option Str) (cached : Bool) (uuid : List UInt8) (date : Str) :
    serveRequest decode cached uuid date (fun _ => none) 0 ⟨none, none, [], none⟩ = (.unidentified, fun _ => none) :=
  C126_counterexample decode cached uuid date _ 0 [] (by intro cs h; cases h; simp)

/-- A client that sends the cookie `X-Ratelimit-Id=abc` along with another one is answered. -/
example (cached : Bool) (uuid : List UInt8) (date : Str) :
    (serveRequest some cached uuid date (fun _ => none) 0 ⟨none, none, [str "lang=en; X-Ratelimit-Id=abc"], none⟩).1 = .answered none := by
  have := C126_cookie (decode := some) (fun _ _ => rfl) cached uuid date (fun _ => none) 0 [(str "lang", str "en")] [] (str "abc")
    (by simp only [CookieText]; decide) (by simp only [CookieText]; decide) (by simp)
  exact congrArg Prod.fst this

end Prexel
