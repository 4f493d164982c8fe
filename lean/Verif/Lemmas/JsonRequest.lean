import Verif.Lemmas.JsonValue
import Mathlib.Data.List.Nodup
import Mathlib.Data.List.Perm.Basic
/-!
# Reading JSON: requests
-/

namespace Prexel.Json

theorem spells_unique {r t t' : Str} (h : Spells r t) (h' : Spells r t') : t = t' := by
  have := spelled_decode h
  rw [spelled_decode h'] at this
  cases this; rfl

theorem spells_raw {r t : Str} (h : Spells r t) : Raw r := by
  induction h with
  | nil => exact .nil
  | plain h0 h1 h2 _ ih => exact .plain h0 h1 h2 ih
  | short hc _ ih => exact .short hc ih
  | hex hn _ ih => exact .hex hn ih
  | pair hn _ hm _ _ _ ih => exact .hex hn (.hex hm ih)

theorem named_unique {ms a b : List (Str × Json)} (h : Named ms a) (h' : Named ms b) : a = b := by
  unfold Named at h h'
  induction h generalizing b with
  | nil => cases h'; rfl
  | cons hx _ ih =>
    cases h' with
    | cons hy hr =>
      rw [ih hr, Prod.ext_iff.2 ⟨spells_unique hx.1 hy.1, hx.2.symm.trans hy.2⟩]

theorem text_iff {v : Json} {x : Str} : text v = some x ↔ IsString v x := by
  unfold text IsString
  constructor
  · intro h
    split at h
    · exact ⟨_, rfl, decode_iff.1 h⟩
    · cases h
  · rintro ⟨r, rfl, h⟩
    exact decode_iff.2 h

theorem fromStr_iff {s : Str} {t : NumberType} : NumberType.fromStr s = some t ↔ (s, t) ∈ typeNames := by
  unfold NumberType.fromStr typeNames
  simp only [List.mem_cons, Prod.mk.injEq, List.not_mem_nil, or_false]
  constructor
  · intro h
    repeat' split at h
    all_goals first | (cases h; simp_all) | (cases h)
  · rintro (⟨rfl, rfl⟩ | ⟨rfl, rfl⟩ | ⟨rfl, rfl⟩ | ⟨rfl, rfl⟩ | ⟨rfl, rfl⟩) <;> decide

theorem named_type {r : Str} {o : Option NumberType} : ((decode r).bind NumberType.fromStr).map some = some o ↔
    ∃ t name, o = some t ∧ (name, t) ∈ typeNames ∧ Spells r name := by
  constructor
  · intro h
    obtain ⟨t, ht, rfl⟩ := Option.map_eq_some_iff.1 h
    obtain ⟨name, hn, hf⟩ := Option.bind_eq_some_iff.1 ht
    exact ⟨t, name, rfl, fromStr_iff.1 hf, decode_iff.1 hn⟩
  · rintro ⟨t, name, rfl, hf, hn⟩
    rw [decode_iff.2 hn, Option.bind_some, fromStr_iff.2 hf]
    rfl

theorem type_iff {v : Json} {o : Option NumberType} : type v = some o ↔ Optional IsType v o := by
  unfold type Optional IsType
  constructor
  · intro h
    split at h
    · cases h; exact .inl ⟨rfl, rfl⟩
    · obtain ⟨t, name, rfl, h1, h2⟩ := named_type.1 h
      exact .inr ⟨t, rfl, name, _, h1, h2, .inl rfl⟩
    · obtain ⟨t, name, rfl, h1, h2⟩ := named_type.1 h
      exact .inr ⟨t, rfl, name, _, h1, h2, .inr rfl⟩
    · cases h
  · rintro (⟨rfl, rfl⟩ | ⟨t, rfl, name, r, h1, h2, rfl | rfl⟩)
    · rfl
    · exact named_type.2 ⟨t, name, rfl, h1, h2⟩
    · exact named_type.2 ⟨t, name, rfl, h1, h2⟩

theorem variable_iff {v : Json} {x : Variable B64} : variable_ v = some x ↔ IsVariable v x := by
  constructor
  · intro h
    unfold variable_ at h
    split at h
    · obtain ⟨t, ht, rfl⟩ := Option.map_eq_some_iff.1 h
      exact ⟨_, rfl, decode_iff.1 ht⟩
    · obtain ⟨t, ht, rfl⟩ := Option.map_eq_some_iff.1 h
      exact ⟨_, rfl, ht⟩
    · cases h
  · intro h
    cases x with
    | text t =>
      obtain ⟨r, rfl, h⟩ := h
      rw [variable_, decode_iff.2 h]; rfl
    | number f =>
      obtain ⟨r, rfl, h⟩ := h
      rw [variable_, h]; rfl

theorem variable_unique {v : Json} {x y : Variable B64} (h : IsVariable v x) (h' : IsVariable v y) : x = y := by
  have := variable_iff.2 h
  rw [variable_iff.2 h'] at this
  cases this; rfl

theorem insert_nodup {l : List (Str × Variable B64)} (h : (l.map (·.1)).Nodup) (k : Str) (v : Variable B64) : ((insert l k v).map (·.1)).Nodup := by
  unfold insert
  rw [List.map_append, List.nodup_append]
  refine ⟨(List.filter_sublist.map _).nodup h, by simp, ?_⟩
  intro a ha b hb
  simp only [List.map_cons, List.map_nil, List.mem_singleton] at hb
  subst hb
  rintro rfl
  simp at ha

theorem mem_insert {l : List (Str × Variable B64)} {k : Str} {v : Variable B64} {k' : Str} {x : Variable B64} :
    (k', x) ∈ insert l k v ↔ (k' = k ∧ x = v) ∨ (k' ≠ k ∧ (k', x) ∈ l) := by
  unfold insert
  simp only [List.mem_append, List.mem_filter, List.mem_singleton, Prod.mk.injEq, decide_eq_true_eq]
  tauto

theorem mapOf_some (ms : List (Str × Json)) : ∀ l l', mapOf l ms = some l' → ∃ named, Named ms named ∧ (∀ m ∈ named, ∃ x, IsVariable m.2 x) ∧
    ((l.map (·.1)).Nodup → (l'.map (·.1)).Nodup) ∧
    ∀ k x, (k, x) ∈ l' ↔ (∃ w, named.reverse.lookup k = some w ∧ IsVariable w x) ∨ (named.reverse.lookup k = none ∧ (k, x) ∈ l) := by
  induction ms with
  | nil =>
    intro l l' h
    rw [mapOf] at h
    cases h
    exact ⟨[], .nil, by simp, id, by simp⟩
  | cons m ms ih =>
    obtain ⟨r, v⟩ := m
    intro l l' h
    rw [mapOf] at h
    split at h
    · rename_i k x hk hx
      obtain ⟨named, h1, h2, h3, h4⟩ := ih _ _ h
      refine ⟨(k, v) :: named, .cons ⟨decode_iff.1 hk, rfl⟩ h1, ?_, fun hn => h3 (insert_nodup hn _ _), ?_⟩
      · intro m hm
        rcases List.mem_cons.1 hm with rfl | hm
        · exact ⟨x, variable_iff.1 hx⟩
        · exact h2 m hm
      · intro k' y
        rw [h4, List.reverse_cons, List.lookup_append, mem_insert]
        cases hl : named.reverse.lookup k' with
        | some w => simp
        | none =>
          by_cases hkk : k' = k
          · subst hkk
            simp only [Option.none_or, List.lookup_cons_self]
            constructor
            · rintro (⟨w, h, _⟩ | ⟨-, ⟨-, rfl⟩ | ⟨h, _⟩⟩)
              · cases h
              · exact .inl ⟨v, rfl, variable_iff.1 hx⟩
              · exact absurd rfl h
            · rintro (⟨w, h, hw⟩ | ⟨h, _⟩)
              · cases h; exact .inr ⟨trivial, .inl ⟨trivial, variable_unique hw (variable_iff.1 hx)⟩⟩
              · cases h
          · have : List.lookup k' [(k, v)] = none := by rw [List.lookup, beq_eq_false_iff_ne.2 hkk]; rfl
            simp [this, hkk]
    · cases h

theorem mapOf_total {ms named : List (Str × Json)} (h : Named ms named) : (∀ m ∈ named, ∃ x, IsVariable m.2 x) → ∀ l, ∃ l', mapOf l ms = some l' := by
  unfold Named at h
  induction h with
  | nil => intro _ l; exact ⟨l, rfl⟩
  | @cons m n ms named hx _ ih =>
    intro hv l
    obtain ⟨r, v⟩ := m
    obtain ⟨x, hx'⟩ := hv n (by simp)
    obtain ⟨l', hl⟩ := ih (fun m hm => hv m (by simp [hm])) (insert l n.1 x)
    refine ⟨l', ?_⟩
    simp only at hx
    rw [mapOf, decode_iff.2 hx.1, hx.2, variable_iff.2 hx']
    exact hl

theorem vars_some {v : Json} {o : Option (List (Str × Variable B64))} (h : vars v = some o) : Optional IsVariables v o := by
  unfold vars at h
  split at h
  · cases h; exact .inl ⟨rfl, rfl⟩
  · rename_i ms
    obtain ⟨l, hl, rfl⟩ := Option.map_eq_some_iff.1 h
    obtain ⟨named, h1, h2, h3, h4⟩ := mapOf_some ms [] l hl
    exact .inr ⟨l, rfl, ms, named, rfl, h1, h2, h3 (by simp), fun k x => by rw [h4]; simp⟩
  · cases h

theorem variables_perm {v : Json} {l l' : List (Str × Variable B64)} (h : IsVariables v l) (h' : IsVariables v l') : l.Perm l' := by
  obtain ⟨ms, named, rfl, h1, -, h3, h4⟩ := h
  obtain ⟨ms', named', e, h1', -, h3', h4'⟩ := h'
  cases e
  rw [named_unique h1' h1] at h4'
  rw [List.perm_ext_iff_of_nodup (List.Nodup.of_map _ h3) (List.Nodup.of_map _ h3')]
  intro a
  obtain ⟨k, x⟩ := a
  rw [h4, h4']

theorem vars_total {v : Json} {o : Option (List (Str × Variable B64))} (h : Optional IsVariables v o) : ∃ o', vars v = some o' ∧ Option.Rel List.Perm o' o := by
  rcases h with ⟨rfl, rfl⟩ | ⟨l, rfl, h⟩
  · exact ⟨none, rfl, .none⟩
  · obtain ⟨ms, named, rfl, h1, h2, h3, h4⟩ := id h
    obtain ⟨l', hl⟩ := mapOf_total h1 h2 []
    have hv : vars (.obj ms) = some (some l') := by rw [vars, hl]; rfl
    refine ⟨some l', hv, .some ?_⟩
    rcases vars_some hv with ⟨h, _⟩ | ⟨l'', e, hl'⟩
    · cases h
    · cases e
      exact variables_perm hl' h

/-- A field that is read at most once. -/
def Once {α : Type} (P : Json → Option α) (k : Str) (a : Option α) (named : List (Str × Json)) (b : Option α) : Prop :=
  (named.filter (fun m => decide (m.1 = k)) = [] ∧ b = a) ∨
  (a = none ∧ ∃ v x, named.filter (fun m => decide (m.1 = k)) = [(k, v)] ∧ P v = some x ∧ b = some x)

theorem once_other {α : Type} {P : Json → Option α} {k : Str} {a b : Option α} {m : Str × Json} {named : List (Str × Json)} (h : m.1 ≠ k) :
    Once P k a (m :: named) b ↔ Once P k a named b := by
  unfold Once
  rw [List.filter_cons_of_neg (by simpa using h)]

theorem once_cons {α : Type} {P : Json → Option α} {k : Str} {a b : Option α} {v : Json} {named : List (Str × Json)} :
    Once P k a ((k, v) :: named) b ↔ a = none ∧ ∃ x, P v = some x ∧ Once P k (some x) named b := by
  unfold Once
  rw [List.filter_cons_of_pos (by simp)]
  constructor
  · rintro (⟨h, _⟩ | ⟨rfl, w, x, h, hx, rfl⟩)
    · cases h
    · rw [List.cons.injEq, Prod.mk.injEq] at h
      obtain ⟨⟨-, rfl⟩, h⟩ := h
      exact ⟨rfl, x, hx, .inl ⟨h, rfl⟩⟩
  · rintro ⟨rfl, x, hx, ⟨h, rfl⟩ | ⟨h, _⟩⟩
    · exact .inr ⟨rfl, v, x, by rw [h], hx, rfl⟩
    · cases h

theorem fields_iff (ms : List (Str × Json)) : ∀ f g, fields f ms = some g ↔ ∃ named, Named ms named ∧
    Once text (Prexel.str "expression") f.expression named g.expression ∧ Once type (Prexel.str "type") f.type named g.type ∧
    Once vars (Prexel.str "variables") f.vars named g.vars := by
  induction ms with
  | nil =>
    intro f g
    rw [fields]
    constructor
    · rintro ⟨⟩
      exact ⟨[], .nil, .inl ⟨rfl, rfl⟩, .inl ⟨rfl, rfl⟩, .inl ⟨rfl, rfl⟩⟩
    · rintro ⟨named, h, h1, h2, h3⟩
      cases h
      have key : ∀ {α : Type} {P : Json → Option α} {k : Str} {a b : Option α}, Once P k a [] b → b = a := by
        intro α P k a b h
        rcases h with ⟨-, h⟩ | ⟨-, v, x, h, _⟩
        · exact h
        · cases h
      obtain ⟨f1, f2, f3⟩ := f
      obtain ⟨g1, g2, g3⟩ := g
      have e1 := key h1; have e2 := key h2; have e3 := key h3
      simp only at e1 e2 e3
      subst e1 e2 e3
      rfl
  | cons m ms ih =>
    obtain ⟨r, v⟩ := m
    intro f g
    have ne1 : Prexel.str "type" ≠ Prexel.str "expression" := by decide
    have ne2 : Prexel.str "variables" ≠ Prexel.str "expression" := by decide
    have ne3 : Prexel.str "variables" ≠ Prexel.str "type" := by decide
    rw [fields]
    cases hk : decode r with
    | none =>
      simp only
      constructor
      · intro h; cases h
      · rintro ⟨named, h, _⟩
        cases h with
        | cons hx _ => rw [spelled_decode hx.1] at hk; cases hk
    | some k =>
      have hex : (∃ named, Named ((r, v) :: ms) named ∧
          Once text (Prexel.str "expression") f.expression named g.expression ∧ Once type (Prexel.str "type") f.type named g.type ∧
          Once vars (Prexel.str "variables") f.vars named g.vars) ↔ ∃ named, Named ms named ∧
          Once text (Prexel.str "expression") f.expression ((k, v) :: named) g.expression ∧ Once type (Prexel.str "type") f.type ((k, v) :: named) g.type ∧
          Once vars (Prexel.str "variables") f.vars ((k, v) :: named) g.vars := by
        constructor
        · rintro ⟨named, h, h'⟩
          cases h with
          | @cons _ n _ named hx hr =>
            have : n = (k, v) := by
              have := spelled_decode hx.1
              rw [hk] at this
              cases this
              exact Prod.ext rfl hx.2.symm
            subst this
            exact ⟨named, hr, h'⟩
        · rintro ⟨named, h, h'⟩
          exact ⟨(k, v) :: named, .cons ⟨decode_iff.1 hk, rfl⟩ h, h'⟩
      rw [hex]
      simp only
      by_cases h1 : k = Prexel.str "expression"
      · rw [if_pos h1]
        subst h1
        simp only [once_cons, once_other (m := (Prexel.str "expression", v)) (k := Prexel.str "type") ne1.symm,
          once_other (m := (Prexel.str "expression", v)) (k := Prexel.str "variables") ne2.symm]
        split
        · rename_i hs
          constructor
          · intro h; cases h
          · rintro ⟨named, _, ⟨e, _⟩, _⟩
            rw [e] at hs; cases hs
        · rename_i hs
          rw [Option.bind_eq_some_iff]
          simp only [ih]
          constructor
          · rintro ⟨x, hx, named, h2, h3, h4, h5⟩
            exact ⟨named, h2, ⟨by simpa using hs, x, hx, h3⟩, h4, h5⟩
          · rintro ⟨named, h2, ⟨-, x, hx, h3⟩, h4, h5⟩
            exact ⟨x, hx, named, h2, h3, h4, h5⟩
      · rw [if_neg h1]
        by_cases h2 : k = Prexel.str "type"
        · rw [if_pos h2]
          subst h2
          simp only [once_cons, once_other (m := (Prexel.str "type", v)) (k := Prexel.str "expression") ne1,
            once_other (m := (Prexel.str "type", v)) (k := Prexel.str "variables") ne3.symm]
          split
          · rename_i hs
            constructor
            · intro h; cases h
            · rintro ⟨named, _, _, ⟨e, _⟩, _⟩
              rw [e] at hs; cases hs
          · rename_i hs
            rw [Option.bind_eq_some_iff]
            simp only [ih]
            constructor
            · rintro ⟨x, hx, named, h2, h3, h4, h5⟩
              exact ⟨named, h2, h3, ⟨by simpa using hs, x, hx, h4⟩, h5⟩
            · rintro ⟨named, h2, h3, ⟨-, x, hx, h4⟩, h5⟩
              exact ⟨x, hx, named, h2, h3, h4, h5⟩
        · rw [if_neg h2]
          by_cases h3 : k = Prexel.str "variables"
          · rw [if_pos h3]
            subst h3
            simp only [once_cons, once_other (m := (Prexel.str "variables", v)) (k := Prexel.str "expression") ne2,
              once_other (m := (Prexel.str "variables", v)) (k := Prexel.str "type") ne3]
            split
            · rename_i hs
              constructor
              · intro h; cases h
              · rintro ⟨named, _, _, _, ⟨e, _⟩⟩
                rw [e] at hs; cases hs
            · rename_i hs
              rw [Option.bind_eq_some_iff]
              simp only [ih]
              constructor
              · rintro ⟨x, hx, named, h2, h3, h4, h5⟩
                exact ⟨named, h2, h3, h4, ⟨by simpa using hs, x, hx, h5⟩⟩
              · rintro ⟨named, h2, h3, h4, ⟨-, x, hx, h5⟩⟩
                exact ⟨x, hx, named, h2, h3, h4, h5⟩
          · rw [if_neg h3, ih]
            simp only [once_other (m := (k, v)) h1, once_other (m := (k, v)) h2, once_other (m := (k, v)) h3]

end Prexel.Json
