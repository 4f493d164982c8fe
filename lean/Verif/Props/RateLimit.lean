import Verif.Model.RateLimit

/-!
# The rate limiter (C113, C114)
-/
namespace Prexel

/-! ## C113: identifiers -/

theorem base64Char_ne (n : Nat) (h : n < 64) : base64Char n ≠ '=' := by
  have : ∀ n : Fin 64, base64Char n.1 ≠ '=' := by decide
  exact this ⟨n, h⟩

theorem base64Char_inj {m n : Nat} (hm : m < 64) (hn : n < 64) (h : base64Char m = base64Char n) : m = n := by
  have : ∀ m n : Fin 64, base64Char m.1 = base64Char n.1 → m = n := by decide +kernel
  exact congrArg Fin.val (this ⟨m, hm⟩ ⟨n, hn⟩ h)

/-- The encoding without padding. -/
def base64Plain : List UInt8 → Str
  | [] => []
  | [a] => [base64Char (a.toNat / 4), base64Char (a.toNat % 4 * 16)]
  | [a, b] => [base64Char (a.toNat / 4), base64Char (a.toNat % 4 * 16 + b.toNat / 16), base64Char (b.toNat % 16 * 4)]
  | a :: b :: c :: rest =>
    base64Char (a.toNat / 4) :: base64Char (a.toNat % 4 * 16 + b.toNat / 16) :: base64Char (b.toNat % 16 * 4 + c.toNat / 64) ::
      base64Char (c.toNat % 64) :: base64Plain rest

theorem base64Plain_no_pad (l : List UInt8) : ∀ c ∈ base64Plain l, c ≠ '=' := by
  induction l using base64Plain.induct with
  | case1 => simp [base64Plain]
  | case2 a =>
    have := a.toNat_lt
    intro c hc
    simp only [base64Plain, List.mem_cons, List.not_mem_nil, or_false] at hc
    rcases hc with rfl | rfl <;> exact base64Char_ne _ (by omega)
  | case3 a b =>
    have := a.toNat_lt
    have := b.toNat_lt
    intro c hc
    simp only [base64Plain, List.mem_cons, List.not_mem_nil, or_false] at hc
    rcases hc with rfl | rfl | rfl <;> exact base64Char_ne _ (by omega)
  | case4 a b c rest ih =>
    have := a.toNat_lt
    have := b.toNat_lt
    have := c.toNat_lt
    intro x hx
    simp only [base64Plain, List.mem_cons] at hx
    rcases hx with rfl | rfl | rfl | rfl | hx
    · exact base64Char_ne _ (by omega)
    · exact base64Char_ne _ (by omega)
    · exact base64Char_ne _ (by omega)
    · exact base64Char_ne _ (by omega)
    · exact ih x hx

theorem base64Bytes_eq (l : List UInt8) : ∃ n, base64Bytes l = base64Plain l ++ List.replicate n '=' := by
  induction l using base64Plain.induct with
  | case1 => exact ⟨0, rfl⟩
  | case2 a => exact ⟨2, rfl⟩
  | case3 a b => exact ⟨1, rfl⟩
  | case4 a b c rest ih =>
    obtain ⟨n, h⟩ := ih
    exact ⟨n, by simp [base64Bytes, base64Plain, h]⟩

theorem dropWhile_replicate (n : Nat) (s : Str) : (List.replicate n '=' ++ s).dropWhile (· == '=') = s.dropWhile (· == '=') := by
  induction n with
  | zero => rfl
  | succ n ih => simp [List.replicate_succ, ih]

theorem trim_plain (s : Str) (h : ∀ c ∈ s, c ≠ '=') (n : Nat) : trimEndMatches '=' (s ++ List.replicate n '=') = s := by
  unfold trimEndMatches
  rw [List.reverse_append, List.reverse_replicate, dropWhile_replicate]
  have : s.reverse.dropWhile (· == '=') = s.reverse := by
    cases hs : s.reverse with
    | nil => rfl
    | cons c r =>
      have : c ≠ '=' := h c (by rw [← List.mem_reverse, hs]; simp)
      simp [this]
  rw [this, List.reverse_reverse]

theorem trim_base64 (l : List UInt8) : trimEndMatches '=' (base64Bytes l) = base64Plain l := by
  obtain ⟨n, h⟩ := base64Bytes_eq l
  rw [h, trim_plain _ (base64Plain_no_pad l)]

theorem u8_ext {a b : UInt8} (h : a.toNat = b.toNat) : a = b := UInt8.toNat_inj.1 h

theorem base64Plain_inj (l m : List UInt8) (h : base64Plain l = base64Plain m) : l = m := by
  induction l using base64Plain.induct generalizing m with
  | case1 => rcases m with _ | ⟨a, _ | ⟨b, _ | ⟨c, rest⟩⟩⟩ <;> simp [base64Plain] at h ⊢
  | case2 a =>
    rcases m with _ | ⟨a', _ | ⟨b', _ | ⟨c', rest'⟩⟩⟩ <;> simp only [base64Plain, List.cons.injEq, and_true, reduceCtorEq, and_false] at h
    have := a.toNat_lt
    have := a'.toNat_lt
    have h1 := base64Char_inj (by omega) (by omega) h.1
    have h2 := base64Char_inj (by omega) (by omega) h.2
    rw [u8_ext (a := a) (b := a') (by omega)]
  | case3 a b =>
    rcases m with _ | ⟨a', _ | ⟨b', _ | ⟨c', rest'⟩⟩⟩ <;> simp only [base64Plain, List.cons.injEq, and_true, reduceCtorEq, and_false] at h
    have := a.toNat_lt
    have := a'.toNat_lt
    have := b.toNat_lt
    have := b'.toNat_lt
    have h1 := base64Char_inj (by omega) (by omega) h.1
    have h2 := base64Char_inj (by omega) (by omega) h.2.1
    have h3 := base64Char_inj (by omega) (by omega) h.2.2
    rw [u8_ext (a := a) (b := a') (by omega), u8_ext (a := b) (b := b') (by omega)]
  | case4 a b c rest ih =>
    rcases m with _ | ⟨a', _ | ⟨b', _ | ⟨c', rest'⟩⟩⟩ <;> simp only [base64Plain, List.cons.injEq, reduceCtorEq, and_false] at h
    have := a.toNat_lt
    have := a'.toNat_lt
    have := b.toNat_lt
    have := b'.toNat_lt
    have := c.toNat_lt
    have := c'.toNat_lt
    have h1 := base64Char_inj (by omega) (by omega) h.1
    have h2 := base64Char_inj (by omega) (by omega) h.2.1
    have h3 := base64Char_inj (by omega) (by omega) h.2.2.1
    have h4 := base64Char_inj (by omega) (by omega) h.2.2.2.1
    rw [u8_ext (a := a) (b := a') (by omega), u8_ext (a := b) (b := b') (by omega), u8_ext (a := c) (b := c') (by omega), ih _ h.2.2.2.2]

theorem utf8_inj {s t : Str} (h : s.flatMap String.utf8EncodeChar = t.flatMap String.utf8EncodeChar) : s = t := by
  have h1 : s.utf8Encode = t.utf8Encode := by
    unfold List.utf8Encode
    rw [h]
  have h2 : String.ofList s = String.ofList t := by
    rw [← String.toByteArray_inj]
    simpa using h1
  simpa using congrArg String.toList h2

theorem encode_inj {s t : Str} (h : trimEndMatches '=' (base64Encode s) = trimEndMatches '=' (base64Encode t)) : s = t := by
  unfold base64Encode at h
  rw [trim_base64, trim_base64] at h
  exact utf8_inj (base64Plain_inj _ _ h)

/-- C113. Two requests with addresses are counted together exactly if their addresses are the same, whatever cookies they carry. -/
theorem C113_address {p q : Peer} {a b : Str} (hp : p.remoteAddr = some a) (hq : q.remoteAddr = some b) :
    p.identifier = q.identifier ↔ a = b := by
  simp only [Peer.identifier, Peer.internalIdentifier, hp, hq, Option.map_some, Option.some.injEq]
  exact ⟨encode_inj, fun h => by rw [h]⟩

/-- C113: a request with an address never fails to have an identifier. -/
theorem C113_identified {p : Peer} {a : Str} (hp : p.remoteAddr = some a) : p.identifier ≠ none := by
  simp [Peer.identifier, Peer.internalIdentifier, hp]

/-- A request over TCP. `actix-web` 3 gives the address with the port of the client. -/
def Peer.tcp (ip port : Str) (cookie : Option (Str × Option Bool)) : Peer := ⟨some (ip ++ ':' :: port), some (ip ++ ':' :: port), cookie⟩

/-- C113 over TCP: requests of one connection are counted together. -/
theorem C113_connection (ip port : Str) (c c' : Option (Str × Option Bool)) : (Peer.tcp ip port c).identifier = (Peer.tcp ip port c').identifier :=
  (C113_address rfl rfl).2 rfl

/-- C113 over TCP: clients with different addresses are never counted together. Ports are written without a colon. -/
theorem C113_clients {ip ip' port port' : Str} (hp : ':' ∉ port) (hp' : ':' ∉ port') (h : ip ≠ ip') (c c' : Option (Str × Option Bool)) :
    (Peer.tcp ip port c).identifier ≠ (Peer.tcp ip' port' c').identifier := by
  intro he
  have := (C113_address rfl rfl).1 he
  clear he
  apply h
  clear h
  induction ip generalizing ip' with
  | nil =>
    cases ip' with
    | nil => rfl
    | cons d r =>
      simp only [List.nil_append, List.cons_append, List.cons.injEq] at this
      exact absurd (by rw [this.2]; simp) hp
  | cons d r ih =>
    cases ip' with
    | nil =>
      simp only [List.nil_append, List.cons_append, List.cons.injEq] at this
      exact absurd (by rw [← this.2]; simp) hp'
    | cons d' r' =>
      simp only [List.cons_append, List.cons.injEq] at this
      rw [this.1, ih this.2]

/-- C113 fails for one client with two connections: each has a limit of its own. -/
theorem C113_counterexample (ip : Str) {port port' : Str} (h : port ≠ port') (c c' : Option (Str × Option Bool)) :
    (Peer.tcp ip port c).identifier ≠ (Peer.tcp ip port' c').identifier := by
  intro he
  have := (C113_address rfl rfl).1 he
  exact h (by simpa using this)

/-- C113 fails without addresses: a cookie with the address of another client as its value is counted with that client. -/
theorem C113_cookie_counterexample (ip port : Str) (c : Option (Str × Option Bool)) :
    (Peer.tcp ip port c).identifier = (Peer.mk none none (some (ip ++ ':' :: port, none))).identifier := rfl

/-- C113 without a remote address: the address of the peer counts; without any address, the value of the cookie, unless its `http_only` flag is
false; otherwise the request has no identifier. -/
theorem C113_fallback (a v : Str) (cookie : Option (Str × Option Bool)) :
    (Peer.mk none (some a) cookie).identifier = (Peer.mk (some a) none none).identifier ∧
    (Peer.mk none none (some (v, none))).identifier = (Peer.mk (some v) none none).identifier ∧
    (Peer.mk none none (some (v, some true))).identifier = (Peer.mk (some v) none none).identifier ∧
    (Peer.mk none none (some (v, some false))).identifier = none ∧
    (Peer.mk none none none).identifier = none := ⟨rfl, rfl, rfl, rfl, rfl⟩

/-- The identifier of a local connection. -/
example : (Peer.tcp (str "127.0.0.1") (str "50000") none).identifier = some (str "MTI3LjAuMC4xOjUwMDAw") := by decide +kernel

/-! ## C114: the limit -/

/-- The requests of one identifier. -/
def Served.of (id : Str) (l : List Served) : List Served := l.filter (·.id == id)

theorem run_isolated (id : Str) (h : List (Nat × Str)) (σ τ : RateStore) (e : σ id = τ id) :
    Served.of id (σ.run h) = τ.run (h.filter (·.2 == id)) := by
  induction h generalizing σ τ with
  | nil => rfl
  | cons r rest ih =>
    obtain ⟨now, k⟩ := r
    by_cases hk : k = id
    · subst hk
      have h1 : (σ.request now k).1 = (τ.request now k).1 ∧ (σ.request now k).2 k = (τ.request now k).2 k := by
        unfold RateStore.request
        rw [← e]
        cases hs : σ k with
        | none => simp
        | some v => simp only; split <;> (try split) <;> simp [hs, ← e]
      simp only [RateStore.run, Served.of, List.filter_cons, beq_self_eq_true, if_true]
      rw [← h1.1]
      congr 1
      exact ih _ _ h1.2
    · have h1 : (σ.request now k).2 id = σ id := by
        unfold RateStore.request
        cases hs : σ k with
        | none => simp [Ne.symm hk]
        | some v => simp only; split <;> (try split) <;> simp [Ne.symm hk]
      have hb : (k == id) = false := by simpa using hk
      simp only [RateStore.run, Served.of, List.filter_cons, hb]
      exact ih _ _ (h1.trans e)

/-- C114, isolation: what becomes of the requests of one client does not depend on the requests of others. -/
theorem C114_isolated (id : Str) (h : List (Nat × Str)) : Served.of id (serveAll h) = serveAll (h.filter (·.2 == id)) :=
  run_isolated id h _ _ rfl

/-- The requests of an identifier that were passed on, with times from `a` up to but not including `b`. -/
def passedBetween (id : Str) (a b : Nat) (l : List Served) : Nat :=
  (l.filter fun s => s.id == id && s.passed && decide (a ≤ s.time) && decide (s.time < b)).length

/-- The times do not decrease. -/
def Timely (h : List (Nat × Str)) : Prop := h.Pairwise fun r s => r.1 ≤ s.1

/-- The three things that can become of a request. -/
theorem request_cases (σ : RateStore) (now : Nat) (id : Str) :
    ((σ.request now id).1 = true ∧ (σ.request now id).2 id = some (99, now + 60) ∧ (σ id = none ∨ ∃ n e, σ id = some (n, e) ∧ e ≤ now)) ∨
    (∃ n e, (σ.request now id).1 = true ∧ (σ.request now id).2 id = some (n, e) ∧ σ id = some (n + 1, e) ∧ now < e) ∨
    (∃ e, (σ.request now id).1 = false ∧ (σ.request now id).2 id = some (0, e) ∧ σ id = some (0, e) ∧ now < e) := by
  unfold RateStore.request
  cases hs : σ id with
  | none => left; simp [maxRequests, rateInterval]
  | some v =>
    obtain ⟨n, e⟩ := v
    simp only
    by_cases h : e ≤ now
    · left; exact ⟨by simp [h], by simp [h, maxRequests, rateInterval], .inr ⟨n, e, rfl, h⟩⟩
    · right
      rw [if_neg h]
      cases n with
      | zero => right; exact ⟨e, by simp, by simp [hs], rfl, by omega⟩
      | succ n => left; exact ⟨n, e, by simp, by simp, rfl, by omega⟩

theorem request_other (σ : RateStore) (now : Nat) {k id : Str} (hk : k ≠ id) : (σ.request now k).2 id = σ id := by
  unfold RateStore.request
  cases hs : σ k with
  | none => simp [Ne.symm hk]
  | some v => simp only; split <;> (try split) <;> simp [Ne.symm hk]

theorem passed_cons_other {k id : Str} (hk : k ≠ id) (a b t : Nat) (p : Bool) (l : List Served) :
    passedBetween id a b (⟨t, k, p⟩ :: l) = passedBetween id a b l := by
  have : (k == id) = false := by simpa using hk
  simp [passedBetween, this]

theorem passed_cons_false (id : Str) (a b t : Nat) (l : List Served) : passedBetween id a b (⟨t, id, false⟩ :: l) = passedBetween id a b l := by
  simp [passedBetween]

theorem passed_cons_true (id : Str) (a b t : Nat) (l : List Served) :
    passedBetween id a b (⟨t, id, true⟩ :: l) = passedBetween id a b l + if a ≤ t ∧ t < b then 1 else 0 := by
  by_cases h1 : a ≤ t <;> by_cases h2 : t < b <;> simp [passedBetween, h1, h2]

theorem passed_late (id : Str) (a b : Nat) (h : List (Nat × Str)) (σ : RateStore) (hl : ∀ r ∈ h, b ≤ r.1) : passedBetween id a b (σ.run h) = 0 := by
  induction h generalizing σ with
  | nil => rfl
  | cons r rest ih =>
    obtain ⟨now, k⟩ := r
    have hb : b ≤ now := hl (now, k) (by simp)
    have := ih (σ.request now k).2 fun r hr => hl r (by simp [hr])
    rw [RateStore.run]
    simp only [passedBetween, List.filter_cons] at this ⊢
    rw [if_neg (by simp; omega), this]

theorem passed_within (id : Str) (a b : Nat) (h : List (Nat × Str)) (ht : Timely h) (σ : RateStore) {n e : Nat} (hs : σ id = some (n, e)) (hb : b ≤ e) :
    passedBetween id a b (σ.run h) ≤ n := by
  induction h generalizing σ n with
  | nil => exact Nat.zero_le _
  | cons r rest ih =>
    obtain ⟨now, k⟩ := r
    have ht' := List.pairwise_cons.1 ht
    rw [RateStore.run]
    by_cases hk : k = id
    · subst hk
      rcases request_cases σ now k with ⟨h1, h2, h3⟩ | ⟨n', e', h1, h2, h3, h4⟩ | ⟨e', h1, h2, h3, h4⟩
      · rcases h3 with h3 | ⟨n', e', h3, h4⟩
        · rw [hs] at h3; simp at h3
        · rw [hs] at h3
          simp only [Option.some.injEq, Prod.mk.injEq] at h3
          have hl := passed_late k a b rest (σ.request now k).2 fun r hr => by have := ht'.1 r hr; simp at this; omega
          rw [h1, passed_cons_true, hl, if_neg (by omega)]
          exact Nat.zero_le _
      · rw [hs] at h3
        simp only [Option.some.injEq, Prod.mk.injEq] at h3
        obtain ⟨rfl, rfl⟩ := h3
        have := ih ht'.2 _ h2
        rw [h1, passed_cons_true]
        split <;> omega
      · rw [hs] at h3
        simp only [Option.some.injEq, Prod.mk.injEq] at h3
        obtain ⟨rfl, rfl⟩ := h3
        have := ih ht'.2 _ h2
        rw [h1, passed_cons_false]
        omega
    · rw [passed_cons_other hk]
      exact ih ht'.2 _ ((request_other σ now hk).trans hs)

/-- With all times from `a` on, and an entry that is removed after `a`. -/
theorem passed_two (id : Str) (a b : Nat) (h : List (Nat × Str)) (ht : Timely h) (σ : RateStore) {n e : Nat} (hs : σ id = some (n, e)) (hb : b ≤ e + 60) :
    passedBetween id a b (σ.run h) ≤ n + 100 := by
  induction h generalizing σ n with
  | nil => exact Nat.zero_le _
  | cons r rest ih =>
    obtain ⟨now, k⟩ := r
    have ht' := List.pairwise_cons.1 ht
    rw [RateStore.run]
    by_cases hk : k = id
    · subst hk
      rcases request_cases σ now k with ⟨h1, h2, h3⟩ | ⟨n', e', h1, h2, h3, h4⟩ | ⟨e', h1, h2, h3, h4⟩
      · rcases h3 with h3 | ⟨n', e', h3, h4⟩
        · rw [hs] at h3; simp at h3
        · rw [hs] at h3
          simp only [Option.some.injEq, Prod.mk.injEq] at h3
          have := passed_within k a b rest ht'.2 _ h2 (by omega)
          rw [h1, passed_cons_true]
          split <;> omega
      · rw [hs] at h3
        simp only [Option.some.injEq, Prod.mk.injEq] at h3
        obtain ⟨rfl, rfl⟩ := h3
        have := ih ht'.2 _ h2
        rw [h1, passed_cons_true]
        split <;> omega
      · rw [hs] at h3
        simp only [Option.some.injEq, Prod.mk.injEq] at h3
        obtain ⟨rfl, rfl⟩ := h3
        have := ih ht'.2 _ h2
        rw [h1, passed_cons_false]
        omega
    · rw [passed_cons_other hk]
      exact ih ht'.2 _ ((request_other σ now hk).trans hs)

theorem passed_any (id : Str) (a : Nat) (h : List (Nat × Str)) (ht : Timely h) (σ : RateStore) (hs : ∀ n e, σ id = some (n, e) → n ≤ 99) :
    passedBetween id a (a + 60) (σ.run h) ≤ 199 := by
  induction h generalizing σ with
  | nil => exact Nat.zero_le _
  | cons r rest ih =>
    obtain ⟨now, k⟩ := r
    have ht' := List.pairwise_cons.1 ht
    rw [RateStore.run]
    by_cases hk : k = id
    · subst hk
      rcases request_cases σ now k with ⟨h1, h2, h3⟩ | ⟨n', e', h1, h2, h3, h4⟩ | ⟨e', h1, h2, h3, h4⟩
      · rw [h1, passed_cons_true]
        by_cases hn : a ≤ now
        · have := passed_within k a (a + 60) rest ht'.2 _ h2 (by omega)
          split <;> omega
        · rw [if_neg (by omega)]
          exact ih ht'.2 _ fun n e he => by rw [h2] at he; simp at he; omega
      · have hn := hs _ _ h3
        rw [h1, passed_cons_true]
        by_cases hn' : a ≤ now
        · have := passed_two k a (a + 60) rest ht'.2 _ h2 (by omega)
          split <;> omega
        · rw [if_neg (by omega)]
          exact ih ht'.2 _ fun n e he => by rw [h2] at he; simp at he; omega
      · rw [h1, passed_cons_false]
        exact ih ht'.2 _ fun n e he => by rw [h2] at he; simp at he; omega
    · rw [passed_cons_other hk]
      exact ih ht'.2 _ fun n e he => by rw [request_other σ now hk] at he; exact hs n e he

/-- C114, the part of the limit that holds: in any 60 seconds, however they are placed, at most 199 requests of a client are passed on. -/
theorem C114_limit_partial (id : Str) (h : List (Nat × Str)) (ht : Timely h) (a : Nat) : passedBetween id a (a + 60) (serveAll h) ≤ 199 :=
  passed_any id a h ht _ (by simp)

/-- The requests of an identifier that were passed on from `a` on. -/
def passedSince (id : Str) (a : Nat) (l : List Served) : Nat := (l.filter fun s => s.id == id && s.passed && decide (a ≤ s.time)).length

theorem since_append (id : Str) (a : Nat) (l m : List Served) : passedSince id a (l ++ m) = passedSince id a l + passedSince id a m := by
  simp [passedSince]

theorem since_mono (id : Str) {a b : Nat} (h : a ≤ b) (l : List Served) : passedSince id b l ≤ passedSince id a l := by
  induction l with
  | nil => exact Nat.le_refl _
  | cons s l ih =>
    simp only [passedSince, List.filter_cons] at ih ⊢
    by_cases h1 : (s.id == id && s.passed && decide (b ≤ s.time)) = true
    · have h2 : (s.id == id && s.passed && decide (a ≤ s.time)) = true := by
        simp only [Bool.and_eq_true, decide_eq_true_eq] at h1 ⊢
        exact ⟨h1.1, by omega⟩
      rw [if_pos h1, if_pos h2]
      simpa using ih
    · rw [if_neg h1]
      split
      · simp only [List.length_cons]; omega
      · exact ih

theorem between_since (id : Str) (a b : Nat) (l : List Served) (h : ∀ s ∈ l, s.time < b) : passedBetween id a b l = passedSince id a l := by
  unfold passedBetween passedSince
  congr 1
  apply List.filter_congr
  intro s hs
  simp [h s hs]

theorem refused_after (id : Str) (h : List (Nat × Str)) (σ : RateStore) (t : Nat) (post pre before : List Served)
    (hs : ∀ n e, σ id = some (n, e) → 60 ≤ e ∧ 100 ≤ n + passedSince id (e - 60) before ∧ ∀ r ∈ h, e ≤ r.1 + 60)
    (hr : σ.run h = pre ++ ⟨t, id, false⟩ :: post) (ht : Timely h) (hb : ∀ s ∈ before, ∀ r ∈ h, s.time ≤ r.1) :
    100 ≤ passedBetween id (t - 59) (t + 1) (before ++ pre) := by
  induction h generalizing σ pre before with
  | nil => simp [RateStore.run] at hr
  | cons r rest ih =>
    obtain ⟨now, k⟩ := r
    have ht' := List.pairwise_cons.1 ht
    rw [RateStore.run] at hr
    cases pre with
    | nil =>
      simp only [List.nil_append, List.cons.injEq, Served.mk.injEq] at hr
      obtain ⟨⟨rfl, rfl, hp⟩, -⟩ := hr
      rcases request_cases σ now k with ⟨h1, -⟩ | ⟨n', e', h1, -⟩ | ⟨e', h1, h2, h3, h4⟩
      · rw [hp] at h1; simp at h1
      · rw [hp] at h1; simp at h1
      · obtain ⟨h5, h6, h7⟩ := hs _ _ h3
        rw [List.append_nil, between_since k _ _ _ fun s hs => by have := hb s hs _ (List.mem_cons_self); simp at this; omega]
        have := since_mono k (a := now - 59) (b := e' - 60) (by omega) before
        omega
    | cons s pre =>
      simp only [List.cons_append, List.cons.injEq] at hr
      obtain ⟨rfl, hr⟩ := hr
      have := ih (σ.request now k).2 pre (before ++ [⟨now, k, (σ.request now k).1⟩]) ?_ hr ht'.2 ?_
      · simpa using this
      · intro n e he
        rw [since_append]
        by_cases hk : k = id
        · subst hk
          rcases request_cases σ now k with ⟨h1, h2, h3⟩ | ⟨n', e', h1, h2, h3, h4⟩ | ⟨e', h1, h2, h3, h4⟩
          · rw [h2] at he
            simp only [Option.some.injEq, Prod.mk.injEq] at he
            obtain ⟨rfl, rfl⟩ := he
            refine ⟨by omega, ?_, fun r hr => by have := ht'.1 r hr; simp at this; omega⟩
            rw [h1]
            simp [passedSince]
            omega
          · rw [h2] at he
            simp only [Option.some.injEq, Prod.mk.injEq] at he
            obtain ⟨rfl, rfl⟩ := he
            obtain ⟨h5, h6, h7⟩ := hs _ _ h3
            have h8 := h7 _ List.mem_cons_self
            simp only at h8
            refine ⟨h5, ?_, fun r hr => h7 r (by simp [hr])⟩
            rw [h1]
            have : passedSince k (e' - 60) [⟨now, k, true⟩] = 1 := by
              simp [passedSince, h8]
            omega
          · rw [h2] at he
            simp only [Option.some.injEq, Prod.mk.injEq] at he
            obtain ⟨rfl, rfl⟩ := he
            obtain ⟨h5, h6, h7⟩ := hs _ _ h3
            exact ⟨h5, by omega, fun r hr => h7 r (by simp [hr])⟩
        · rw [request_other σ now hk] at he
          obtain ⟨h5, h6, h7⟩ := hs _ _ he
          exact ⟨h5, by omega, fun r hr => h7 r (by simp [hr])⟩
      · intro s hs r hr
        rw [List.mem_append, List.mem_singleton] at hs
        rcases hs with hs | rfl
        · exact hb s hs r (by simp [hr])
        · exact ht'.1 r hr

/-- C114, refusals: when a request is refused, 100 requests of the same client were passed on in the 60 seconds up to it. -/
theorem C114_refused (id : Str) (h : List (Nat × Str)) (ht : Timely h) {pre post : List Served} {t : Nat}
    (hr : serveAll h = pre ++ ⟨t, id, false⟩ :: post) : 100 ≤ passedBetween id (t - 59) (t + 1) pre := by
  simpa using refused_after id h (fun _ => none) t post pre [] (by simp) hr ht (by simp)

/-- C114: the first 100 requests of a client are passed on. -/
theorem C114_first (id : Str) (h : List (Nat × Str)) (ht : Timely h) {pre post : List Served} {t : Nat} {p : Bool}
    (hr : serveAll h = pre ++ ⟨t, id, p⟩ :: post) (hf : (Served.of id pre).length < 100) : p = true := by
  cases p with
  | true => rfl
  | false =>
    have h1 := C114_refused id h ht hr
    have h2 : passedBetween id (t - 59) (t + 1) pre ≤ (Served.of id pre).length := by
      unfold passedBetween Served.of
      have : (pre.filter fun s => s.id == id && s.passed && decide (t - 59 ≤ s.time) && decide (s.time < t + 1)) =
          (pre.filter (·.id == id)).filter fun s => s.passed && decide (t - 59 ≤ s.time) && decide (s.time < t + 1) := by
        rw [List.filter_filter]
        congr 1
        funext s
        cases (s.id == id) <;> simp
      rw [this]
      exact List.length_filter_le _ _
    omega

/-- One request, 99 in the 60th second after it and 101 in the 61st. -/
def Demo.burst : List (Nat × Str) := (0, str "a") :: (List.replicate 99 (59, str "a") ++ List.replicate 101 (60, str "a"))

theorem Demo.burst_timely : Timely Demo.burst := by
  have : Demo.burst.Pairwise fun r s => r.1 ≤ s.1 := by decide +kernel
  exact this

/-- C114 fails as a limit of 100 requests in any 60 seconds: 199 requests are passed on within two seconds. -/
theorem C114_counterexample : Timely Demo.burst ∧ passedBetween (str "a") 59 61 (serveAll Demo.burst) = 199 :=
  ⟨Demo.burst_timely, by decide +kernel⟩

/-- The last request of the burst is refused. -/
example : ∃ pre, serveAll Demo.burst = pre ++ ⟨60, str "a", false⟩ :: [] :=
  ⟨(serveAll Demo.burst).dropLast, by decide +kernel⟩

end Prexel
