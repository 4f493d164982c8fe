import Verif.Model.Context
/-!
# Lemmas about names, maps and contexts
-/

set_option linter.unusedVariables false
set_option linter.unusedSimpArgs false

namespace Prexel
variable {N V : Type}

/-! ## Names -/

theorem cmpChars_eq (l m : List Char) : cmpChars l m = .eq ↔ l = m := by
  induction l generalizing m with
  | nil => cases m <;> simp [cmpChars]
  | cons a l ih =>
    cases m with
    | nil => simp [cmpChars]
    | cons b m =>
      simp only [cmpChars, List.cons.injEq]
      have hab : a = b ↔ a.toNat = b.toNat := ⟨fun h => by rw [h], fun h => Char.toNat_inj.mp h⟩
      cases hc : compare a.toNat b.toNat with
      | eq => simp [ih, hab, Nat.compare_eq_eq.mp hc]
      | lt => simp [hab]; intro h; have := Nat.compare_eq_lt.mp hc; omega
      | gt => simp [hab]; intro h; have := Nat.compare_eq_gt.mp hc; omega

theorem cmpIgnoreCase_eq (L : Lowercase) (a b : Str) : cmpIgnoreCase L a b = .eq ↔ a.map L.lower = b.map L.lower := by
  induction a generalizing b with
  | nil => cases b <;> simp [cmpIgnoreCase]
  | cons x a ih =>
    cases b with
    | nil => simp [cmpIgnoreCase]
    | cons y b =>
      simp only [cmpIgnoreCase, List.map_cons, List.cons.injEq]
      cases hc : cmpChars (L.lower x) (L.lower y) with
      | eq => simp [ih, (cmpChars_eq _ _).mp hc]
      | lt => simp; intro h; rw [(cmpChars_eq _ _).mpr h] at hc; cases hc
      | gt => simp; intro h; rw [(cmpChars_eq _ _).mpr h] at hc; cases hc

theorem eqIgnoreCase_iff (L : Lowercase) (a b : Str) : eqIgnoreCase L a b = true ↔ a.map L.lower = b.map L.lower := by
  simp [eqIgnoreCase, cmpIgnoreCase_eq]

theorem eqIgnoreCase_refl (L : Lowercase) (a : Str) : eqIgnoreCase L a a = true := by rw [eqIgnoreCase_iff]
theorem eqIgnoreCase_symm (L : Lowercase) {a b : Str} (h : eqIgnoreCase L a b = true) : eqIgnoreCase L b a = true := by
  rw [eqIgnoreCase_iff] at h ⊢; exact h.symm
theorem eqIgnoreCase_trans (L : Lowercase) {a b c : Str} (h : eqIgnoreCase L a b = true) (h' : eqIgnoreCase L b c = true) :
    eqIgnoreCase L a c = true := by
  rw [eqIgnoreCase_iff] at h h' ⊢; exact h.trans h'

theorem toNat_ofNat_small {n : Nat} (h : n < 128) : (Char.ofNat n).toNat = n := by
  have : n.isValidChar := .inl (by omega)
  simp [Char.ofNat, this, Char.toNat, Char.ofNatAux]

theorem asciiLower_toNat (c : Char) : (asciiLower c).toNat = if 65 ≤ c.toNat ∧ c.toNat ≤ 90 then c.toNat + 32 else c.toNat := by
  unfold asciiLower
  split
  · rename_i h; exact toNat_ofNat_small (by omega)
  · rfl

theorem asciiLower_ascii (c : Char) : isAscii (asciiLower c) = isAscii c := by
  simp only [isAscii, asciiLower_toNat]
  split <;> simp <;> omega

theorem asciiLower_not_ascii {c : Char} (h : isAscii c = false) : asciiLower c = c := by
  simp only [isAscii, decide_eq_false_iff_not] at h
  unfold asciiLower
  rw [if_neg (by omega)]

theorem lower_of_asciiLower (L : Lowercase) {a b : Char} (h : asciiLower a = asciiLower b) : L.lower a = L.lower b := by
  have hs : isAscii a = isAscii b := by rw [← asciiLower_ascii a, ← asciiLower_ascii b, h]
  cases ha : isAscii a with
  | true => rw [L.ascii a ha, L.ascii b (hs ▸ ha), h]
  | false => rw [asciiLower_not_ascii ha, asciiLower_not_ascii (hs ▸ ha)] at h; rw [h]

theorem eqIgnoreCase_of_hash (L : Lowercase) {a b : Str} (h : hashInput a = hashInput b) : eqIgnoreCase L a b = true := by
  rw [eqIgnoreCase_iff]
  unfold hashInput at h
  induction a generalizing b with
  | nil => cases b <;> simp_all
  | cons x a ih =>
    cases b with
    | nil => simp at h
    | cons y b =>
      simp only [List.map_cons, List.cons.injEq] at h ⊢
      exact ⟨lower_of_asciiLower L h.1, ih h.2⟩

/-- For ASCII names the map finds a name exactly if it is equal up to the case of ASCII letters. -/
theorem Keys.same_ascii (K : Keys) {a b : Str} (ha : a.all isAscii = true) (hb : b.all isAscii = true) :
    K.same a b = true ↔ hashInput a = hashInput b := by
  refine ⟨fun h => ?_, K.hash a b⟩
  have := K.eq a b h
  rw [eqIgnoreCase_iff] at this
  clear h
  unfold hashInput
  induction a generalizing b with
  | nil => cases b <;> simp_all
  | cons x a ih =>
    cases b with
    | nil => simp at this
    | cons y b =>
      simp only [List.all_cons, Bool.and_eq_true] at ha hb
      simp only [List.map_cons, List.cons.injEq] at this ⊢
      refine ⟨?_, ih ha.2 hb.2 this.2⟩
      have h1 := this.1
      rw [K.L.ascii x ha.1, K.L.ascii y hb.1] at h1
      simpa using h1

/-- The key equivalence of a hash map that relies on the hash alone. -/
def Keys.byHash (L : Lowercase) : Keys where
  L := L
  same a b := hashInput a == hashInput b
  refl a := by simp
  symm a b h := by simp only [beq_iff_eq] at h ⊢; exact h.symm
  trans a b c h h' := by simp only [beq_iff_eq] at h h' ⊢; exact h.trans h'
  hash a b h := by simp [h]
  eq a b h := eqIgnoreCase_of_hash L (by simpa using h)

/-- The key equivalence of a map that relies on `Eq` alone. -/
def Keys.byEq (L : Lowercase) : Keys where
  L := L
  same a b := eqIgnoreCase L a b
  refl a := eqIgnoreCase_refl L a
  symm a b h := eqIgnoreCase_symm L h
  trans a b c h h' := eqIgnoreCase_trans L h h'
  hash a b h := eqIgnoreCase_of_hash L h
  eq a b h := h

/-- A lower-case table that knows ASCII and the letter pi. -/
def demoLowercase : Lowercase where
  lower c := if c = 'Π' then ['π'] else [asciiLower c]
  ascii c h := by
    split
    · rename_i hc; subst hc; revert h; decide
    · rfl
  kelvin c a hc h ha := by
    split at h
    · cases h; revert ha; decide
    · cases h; rw [asciiLower_ascii, hc] at ha; cases ha

/-- An ASCII name without the letter K. -/
def plainName (n : Str) : Bool := n.all fun c => isAscii c && asciiLower c != 'k'

theorem plainName_ascii {n : Str} (h : plainName n = true) : n.all isAscii = true := by
  simp only [plainName, List.all_eq_true, Bool.and_eq_true] at h ⊢
  exact fun c hc => (h c hc).1

/-- A map finds an ASCII name without the letter K exactly under its ASCII case variants. -/
theorem Keys.same_plain (K : Keys) {n k : Str} (hn : plainName n = true) : K.same n k = true ↔ hashInput n = hashInput k := by
  refine ⟨fun h => ?_, K.hash n k⟩
  have h1 := (eqIgnoreCase_iff K.L n k).mp (K.eq n k h)
  have hk : k.all isAscii = true := by
    clear h
    induction n generalizing k with
    | nil => cases k <;> simp_all
    | cons x n ih =>
      cases k with
      | nil => simp at h1
      | cons y k =>
        simp only [plainName, List.all_cons, Bool.and_eq_true, bne_iff_ne] at hn
        simp only [List.map_cons, List.cons.injEq] at h1
        rw [List.all_cons, Bool.and_eq_true]
        refine ⟨?_, ih (by simpa [plainName] using hn.2) h1.2⟩
        cases hy : isAscii y with
        | true => rfl
        | false =>
          have h2 := h1.1
          rw [K.L.ascii x hn.1.1] at h2
          exact absurd (K.L.kelvin y _ hy h2.symm (by rw [asciiLower_ascii]; exact hn.1.1)) hn.1.2
  exact (K.same_ascii (plainName_ascii hn) hk).mp h

/-! ## Maps -/

/-- The key relation is an equivalence. -/
structure Equiv (same : Str → Str → Bool) : Prop where
  refl : ∀ a, same a a = true
  symm : ∀ a b, same a b = true → same b a = true
  trans : ∀ a b c, same a b = true → same b c = true → same a c = true

theorem Keys.equiv (K : Keys) : Equiv K.same := ⟨K.refl, K.symm, K.trans⟩
theorem sameString_equiv : Equiv sameString :=
  ⟨fun a => by simp [sameString], fun a b h => by simp only [sameString, beq_iff_eq] at h ⊢; exact h.symm,
    fun a b c h h' => by simp only [sameString, beq_iff_eq] at h h' ⊢; exact h.trans h'⟩

namespace Map
variable {same : Str → Str → Bool}

theorem get_cons (k k' : Str) (v : V) (m : Map V) : get same ((k, v) :: m) k' = if same k k' then some v else get same m k' := by
  simp only [get, List.find?_cons]
  split
  · rename_i h; simp [h]
  · rename_i h; simp [h]

theorem get_congr (hs : Equiv same) (m : Map V) {k k' : Str} (h : same k k' = true) : get same m k = get same m k' := by
  induction m with
  | nil => rfl
  | cons e m ih =>
    obtain ⟨a, v⟩ := e
    rw [get_cons, get_cons, ih]
    have : same a k = same a k' := by
      rw [Bool.eq_iff_iff]
      exact ⟨fun ha => hs.trans _ _ _ ha h, fun ha => hs.trans _ _ _ ha (hs.symm _ _ h)⟩
    rw [this]

theorem get_map_replace (hs : Equiv same) (m : Map V) (k k' : Str) (v : V) :
    get same (m.map (fun e => if same e.1 k then (e.1, v) else e)) k' =
      if same k k' then (get same m k').map (fun _ => v) else get same m k' := by
  induction m with
  | nil => simp [get]
  | cons e m ih =>
    obtain ⟨a, x⟩ := e
    rw [List.map_cons, get_cons]
    cases hak : same a k with
    | true =>
      simp only [if_true]
      rw [get_cons, ih]
      cases hkk : same k k' with
      | true => simp [hs.trans _ _ _ hak hkk]
      | false =>
        have : same a k' = false := by
          cases hx : same a k' with
          | false => rfl
          | true => rw [hs.trans _ _ _ (hs.symm _ _ hak) hx] at hkk; cases hkk
        simp [this]
    | false =>
      simp only [Bool.false_eq_true, if_false]
      rw [get_cons, ih]
      cases hkk : same k k' with
      | true =>
        have : same a k' = false := by
          cases hx : same a k' with
          | false => rfl
          | true => rw [hs.trans _ _ _ hx (hs.symm _ _ hkk)] at hak; cases hak
        simp [this]
      | false => simp

theorem get_insert (hs : Equiv same) (m : Map V) (k k' : Str) (v : V) :
    get same (insert same m k v) k' = if same k k' then some v else get same m k' := by
  unfold insert
  split
  · rename_i hc
    rw [get_map_replace hs]
    split
    · rename_i h
      rw [← get_congr hs m h]
      unfold containsKey at hc
      cases hg : get same m k with
      | none => simp [hg] at hc
      | some x => rfl
    · rfl
  · rename_i hc
    have happ : get same (m ++ [(k, v)]) k' = (get same m k').or (if same k k' then some v else none) := by
      unfold get
      rw [List.find?_append]
      cases m.find? (fun e => same e.1 k') with
      | none => cases h : same k k' <;> simp [h]
      | some e => simp
    rw [happ]
    cases h : same k k' with
    | false => simp
    | true =>
      have : get same m k' = none := by
        rw [← get_congr hs m h]
        unfold containsKey at hc
        cases hg : get same m k with
        | none => rfl
        | some x => simp [hg] at hc
      simp [this]

theorem mem_keys_insert {m : Map V} {k : Str} {v : V} {x : Str} (h : x ∈ keys (insert same m k v)) : x = k ∨ x ∈ keys m := by
  unfold insert keys at h
  split at h
  · right
    simp only [List.map_map, List.mem_map] at h
    obtain ⟨e, he, hx⟩ := h
    simp only [Function.comp] at hx
    simp only [keys, List.mem_map]
    refine ⟨e, he, ?_⟩
    split at hx <;> exact hx
  · simpa [keys, or_comm] using h

theorem get_some_key {m : Map V} {k : Str} {v : V} (h : get same m k = some v) : ∃ x ∈ keys m, same x k = true := by
  unfold get at h
  cases hf : m.find? (fun e => same e.1 k) with
  | none => simp [hf] at h
  | some e =>
    refine ⟨e.1, ?_, ?_⟩
    · simp only [keys, List.mem_map]; exact ⟨e, List.mem_of_find?_eq_some hf, rfl⟩
    · have := List.find?_some hf; exact this

theorem key_get (hs : Equiv same) {m : Map V} {k : Str} (h : k ∈ keys m) : (get same m k).isSome = true := by
  simp only [keys, List.mem_map] at h
  obtain ⟨e, he, rfl⟩ := h
  unfold get
  have : (m.find? (fun e' => same e'.1 e.1)).isSome := by
    rw [List.find?_isSome]; exact ⟨e, he, hs.refl _⟩
  cases hf : m.find? (fun e' => same e'.1 e.1) with
  | none => simp [hf] at this
  | some x => rfl

end Map

/-! ## Registration -/

variable {same : Str → Str → Bool}

theorem insertAliases_keeps (hs : Equiv same) (v : V) (as : List Str) (m : Map V) (k : Str) (x : V) (h : Map.get same m k = some x) :
    Map.get same (insertAliases same v as m).2 k = some x := by
  induction as generalizing m with
  | nil => exact h
  | cons a as ih =>
    unfold insertAliases
    split
    · exact h
    · rename_i hc
      apply ih
      rw [Map.get_insert hs]
      split
      · rename_i hak
        unfold Map.containsKey at hc
        rw [Map.get_congr hs m hak, h] at hc
        simp at hc
      · exact h

theorem insertAliases_ok (hs : Equiv same) (v : V) (as : List Str) (m : Map V) (h : (insertAliases same v as m).1 = .ok ()) (k : Str) :
    Map.get same (insertAliases same v as m).2 k = if as.any (same · k) then some v else Map.get same m k := by
  induction as generalizing m with
  | nil => simp [insertAliases]
  | cons a as ih =>
    unfold insertAliases at h ⊢
    split
    · rename_i hc; rw [if_pos hc] at h; cases h
    · rename_i hc
      rw [if_neg hc] at h
      rw [ih _ h, Map.get_insert hs]
      simp only [List.any_cons, Bool.or_eq_true]
      cases same a k <;> cases (as.any fun x => same x k) <;> simp

theorem insertAliases_other (hs : Equiv same) (v : V) (as : List Str) (m : Map V) (k : Str) (hk : as.any (same · k) = false) :
    Map.get same (insertAliases same v as m).2 k = Map.get same m k := by
  induction as generalizing m with
  | nil => rfl
  | cons a as ih =>
    simp only [List.any_cons, Bool.or_eq_false_iff] at hk
    unfold insertAliases
    split
    · rfl
    · rw [ih _ hk.2, Map.get_insert hs, hk.1]; simp

theorem insertAliases_ne_err (v : V) (as : List Str) (m : Map V) (k : ErrorKind) : (insertAliases same v as m).1 ≠ .err k := by
  induction as generalizing m with
  | nil => simp [insertAliases]
  | cons a as ih =>
    unfold insertAliases
    split
    · simp
    · exact ih _

theorem debugCheck_ne_panic (debug : Bool) (name : Str) : debugCheck debug name ≠ .panic := by
  unfold debugCheck checkTokenName
  split
  · repeat' split
    all_goals simp
  · simp

theorem addAs_keeps (hs : Equiv same) (debug : Bool) (m : Map V) (f : Named V) (name k : Str) (x : V)
    (h : Map.get same m k = some x) : Map.get same (addAs same debug m f name).2 k = some x := by
  unfold addAs
  split
  · exact h
  · exact h
  · split
    · exact h
    · rename_i hc
      have hk := insertAliases_keeps hs f.fn f.aliases m k x h
      split
      · rename_i m' he
        rw [he] at hk
        simp only at hk ⊢
        rw [Map.get_insert hs]
        split
        · rename_i hak
          unfold Map.containsKey at hc
          rw [Map.get_congr hs m hak, h] at hc
          simp at hc
        · exact hk
      · rename_i r m' _ he
        rw [he] at hk
        exact hk

theorem addAs_ok (hs : Equiv same) (debug : Bool) (m : Map V) (f : Named V) (name : Str) (h : (addAs same debug m f name).1 = .ok ())
    (k : Str) : Map.get same (addAs same debug m f name).2 k =
      if (name :: f.aliases).any (same · k) then some f.fn else Map.get same m k := by
  unfold addAs at h ⊢
  split
  · rename_i hd; rw [hd] at h; cases h
  · rename_i hd; rw [hd] at h; cases h
  · rename_i hd
    rw [hd] at h
    simp only at h
    split
    · rename_i hc; rw [if_pos hc] at h; cases h
    · rename_i hc
      rw [if_neg hc] at h
      cases hi : insertAliases same f.fn f.aliases m with
      | mk r m' =>
        rw [hi] at h
        cases r with
        | err e => exact absurd (by rw [hi]) (insertAliases_ne_err (same := same) f.fn f.aliases m e)
        | panic => simp at h
        | ok u =>
          cases u
          have hk := insertAliases_ok hs f.fn f.aliases m (by rw [hi]) k
          rw [hi] at hk
          simp only at hk ⊢
          rw [Map.get_insert hs, hk]
          simp only [List.any_cons, Bool.or_eq_true]
          cases same name k <;> cases (f.aliases.any fun x => same x k) <;> simp

theorem addAs_err (debug : Bool) (m : Map V) (f : Named V) (name : Str) (k : ErrorKind) (h : (addAs same debug m f name).1 = .err k) :
    (addAs same debug m f name).2 = m := by
  unfold addAs at h ⊢
  split
  · rfl
  · rfl
  · rename_i hd
    rw [hd] at h
    simp only at h
    split
    · rfl
    · rename_i hc
      rw [if_neg hc] at h
      cases hi : insertAliases same f.fn f.aliases m with
      | mk r m' =>
        rw [hi] at h
        cases r with
        | err e => exact absurd (by rw [hi]) (insertAliases_ne_err (same := same) f.fn f.aliases m e)
        | panic => simp at h
        | ok u => cases u; simp at h

theorem addAs_other (hs : Equiv same) (debug : Bool) (m : Map V) (f : Named V) (name k : Str)
    (hk : (name :: f.aliases).any (same · k) = false) : Map.get same (addAs same debug m f name).2 k = Map.get same m k := by
  simp only [List.any_cons, Bool.or_eq_false_iff] at hk
  unfold addAs
  split
  · rfl
  · rfl
  · split
    · rfl
    · have h1 := insertAliases_other hs f.fn f.aliases m k hk.2
      split
      · rename_i m' he
        rw [he] at h1
        simp only at h1 ⊢
        rw [Map.get_insert hs, hk.1]
        simpa using h1
      · rename_i r m' _ he
        rw [he] at h1
        exact h1

end Prexel
