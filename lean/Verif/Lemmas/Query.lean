import Verif.Model.Query
import Verif.Spec.Query
import Verif.Lemmas.Json
/-!
# Reading queries
-/

namespace Prexel

theorem percent_total (s : Str) : Percent s (percent s) := by
  fun_induction percent s with
  | case1 => exact .nil
  | case2 s ih => exact .plus ih
  | case3 a b s x y hb ha ih => exact .byte (Json.hexDigit_iff.1 ha) (Json.hexDigit_iff.1 hb) ih
  | case4 a b s h ih =>
    refine .plain (by decide) ?_ ih
    rintro - ⟨a', b', x, y, t, e, ha, hb⟩
    cases e
    exact h _ _ (Json.hexDigit_iff.2 ha) (Json.hexDigit_iff.2 hb)
  | case5 c s h1 h2 ih =>
    refine .plain h1 ?_ ih
    rintro rfl ⟨a', b', x, y, t, rfl, ha, hb⟩
    exact h2 _ _ _ rfl rfl

theorem percent_unique {s : Str} {l : List ℕ} (h : Percent s l) : percent s = l := by
  induction h with
  | nil => rfl
  | plus _ ih => rw [percent, ih]
  | byte ha hb _ ih => rw [percent, Json.hexDigit_iff.2 ha, Json.hexDigit_iff.2 hb]; simp only [ih]
  | @plain c s l h1 h2 _ ih =>
    unfold percent
    split
    · rename_i heq; cases heq
    · rename_i heq; cases heq; exact absurd rfl h1
    · rename_i a b t heq
      cases heq
      split
      · rename_i x y ha hb
        exact absurd ⟨_, _, _, _, _, rfl, Json.hexDigit_iff.1 ha, Json.hexDigit_iff.1 hb⟩ (h2 rfl)
      · rw [ih]; rfl
    · rename_i heq; cases heq; rw [ih]

theorem percent_iff {s : Str} {l : List ℕ} : percent s = l ↔ Percent s l := ⟨fun h => h ▸ percent_total s, percent_unique⟩

theorem cutAt_ne (sep : Char) (s : Str) : cutAt sep s ≠ [] := by
  cases s with
  | nil => simp [cutAt]
  | cons c s =>
    unfold cutAt
    split
    · simp
    · split <;> simp

theorem cutAt_parts (s : Str) : QueryParts s (cutAt '&' s) := by
  refine ⟨cutAt_ne _ _, ?_⟩
  induction s with
  | nil => exact ⟨by simp [cutAt], by simp [cutAt]⟩
  | cons c s ih =>
    obtain ⟨h1, h2⟩ := ih
    unfold cutAt
    split
    · rename_i hc
      subst hc
      refine ⟨by simpa using h1, ?_⟩
      obtain ⟨p, ps, e⟩ := List.exists_cons_of_ne_nil (cutAt_ne '&' s)
      rw [e] at h2 ⊢
      rw [List.intercalate_cons_cons]
      simp [h2]
    · rename_i hc
      split
      · rename_i p ps e
        rw [e] at h1 h2
        refine ⟨?_, ?_⟩
        · intro q hq
          rcases List.mem_cons.1 hq with rfl | hq
          · simp only [List.mem_cons, not_or]; exact ⟨fun h => hc h.symm, h1 _ (by simp)⟩
          · exact h1 q (by simp [hq])
        · cases ps with
          | nil => simp at h2 ⊢; exact h2
          | cons q qs =>
            rw [List.intercalate_cons_cons] at h2 ⊢
            simp [h2]
      · rename_i e; exact absurd e (cutAt_ne _ _)

theorem cutAt_unique {s : Str} {l : List Str} (h : QueryParts s l) : cutAt '&' s = l := by
  obtain ⟨hne, h1, rfl⟩ := h
  induction l with
  | nil => exact absurd rfl hne
  | cons p ps ih =>
    have plainPart : ∀ (p : Str), '&' ∉ p → cutAt '&' p = [p] := by
      intro p hp
      induction p with
      | nil => rfl
      | cons c p ih =>
        simp only [List.mem_cons, not_or] at hp
        rw [cutAt, if_neg (fun h => hp.1 h.symm), ih hp.2]
    have prefixPart : ∀ (p t : Str), '&' ∉ p → cutAt '&' (p ++ '&' :: t) = p :: cutAt '&' t := by
      intro p t hp
      induction p with
      | nil => simp [cutAt]
      | cons c p ih =>
        simp only [List.mem_cons, not_or] at hp
        rw [List.cons_append, cutAt, if_neg (fun h => hp.1 h.symm), ih hp.2]
    cases ps with
    | nil => simpa using plainPart p (h1 p (by simp))
    | cons q qs =>
      rw [List.intercalate_cons_cons]
      simp only [List.cons_append, List.nil_append, List.append_assoc]
      rw [prefixPart _ _ (h1 p (by simp)), ih (by simp) (fun x hx => h1 x (by simp [hx]))]

theorem parts_iff {s : Str} {l : List Str} : QueryParts s l ↔ cutAt '&' s = l := ⟨cutAt_unique, fun h => h ▸ cutAt_parts s⟩

theorem first_equals {p k v : Str} (hk : '=' ∉ k) (h : p = k ++ '=' :: v ∨ (p = k ∧ v = [])) :
    p.takeWhile (fun c => decide (c ≠ '=')) = k ∧ (p.dropWhile fun c => decide (c ≠ '=')).drop 1 = v := by
  have hall : ∀ c ∈ k, decide (c ≠ '=') = true := fun c hc => by
    simp only [decide_eq_true_eq]; rintro rfl; exact hk hc
  rcases h with rfl | ⟨rfl, rfl⟩
  · rw [List.takeWhile_append_of_pos hall, List.dropWhile_append_of_pos hall]; simp
  · rw [List.takeWhile_eq_self_iff.2 hall, List.dropWhile_eq_nil_iff.2 hall]; simp

theorem split_equals (p : Str) : ∃ k v, '=' ∉ k ∧ (p = k ++ '=' :: v ∨ (p = k ∧ v = [])) := by
  induction p with
  | nil => exact ⟨[], [], by simp, .inr ⟨rfl, rfl⟩⟩
  | cons c p ih =>
    by_cases hc : c = '='
    · exact ⟨[], p, by simp, .inl (by rw [hc]; rfl)⟩
    · obtain ⟨k, v, h1, h2⟩ := ih
      refine ⟨c :: k, v, by simp only [List.mem_cons, not_or]; exact ⟨fun h => hc h.symm, h1⟩, ?_⟩
      rcases h2 with rfl | ⟨rfl, rfl⟩
      · exact .inl rfl
      · exact .inr ⟨rfl, rfl⟩

theorem gives_iff {p : Str} {name value : String} : Gives p name value ↔ queryPart p = (bytesOf name, bytesOf value) := by
  constructor
  · rintro ⟨k, v, hk, hv, he, h⟩
    obtain ⟨h1, h2⟩ := first_equals he h
    rw [queryPart, h1, h2, percent_unique hk, percent_unique hv]; rfl
  · intro h
    obtain ⟨k, v, he, hp⟩ := split_equals p
    obtain ⟨h1, h2⟩ := first_equals he hp
    rw [queryPart, h1, h2] at h
    simp only [Prod.mk.injEq] at h
    exact ⟨k, v, percent_iff.1 h.1, percent_iff.1 h.2, he, hp⟩

theorem mentions_iff {p : Str} {name : String} : Mentions p name ↔ (queryPart p).1 = bytesOf name := by
  constructor
  · rintro ⟨k, v, hk, he, h⟩
    obtain ⟨h1, h2⟩ := first_equals he h
    rw [queryPart, h1, percent_unique hk]; rfl
  · intro h
    obtain ⟨k, v, he, hp⟩ := split_equals p
    obtain ⟨h1, h2⟩ := first_equals he hp
    rw [queryPart, h1] at h
    exact ⟨k, v, percent_iff.1 h, he, hp⟩

theorem oneField_found {α : Type} {name : List ℕ} {read : List ℕ → Option α} (l : List (List ℕ × List ℕ)) :
    ∀ a o, oneField name read (some a) l = some o ↔ o = some a ∧ ∀ e ∈ l, e.1 ≠ name := by
  induction l with
  | nil => intro a o; simp [oneField, eq_comm]
  | cons e l ih =>
    intro a o
    obtain ⟨k, v⟩ := e
    unfold oneField
    by_cases hk : k = name
    · rw [if_pos hk]; simp [hk]
    · rw [if_neg hk, ih]; simp [hk]

theorem oneField_some {α : Type} {name : List ℕ} {read : List ℕ → Option α} (l : List (List ℕ × List ℕ)) (a : α) :
    oneField name read none l = some (some a) ↔ ∃ l1 v l2, l = l1 ++ (name, v) :: l2 ∧ read v = some a ∧ ∀ e ∈ l1 ++ l2, e.1 ≠ name := by
  induction l with
  | nil => simp [oneField]
  | cons e l ih =>
    obtain ⟨k, v⟩ := e
    unfold oneField
    by_cases hk : k = name
    · subst hk
      rw [if_pos rfl]
      simp only [Option.isSome_none, Bool.false_eq_true, if_false]
      constructor
      · intro h
        split at h
        · rename_i b hb
          obtain ⟨h1, h2⟩ := (oneField_found _ _ _).1 h
          cases h1
          exact ⟨[], v, l, rfl, hb, by simpa using h2⟩
        · cases h
      · rintro ⟨l1, v', l2, e, hr, hn⟩
        cases l1 with
        | nil =>
          cases e
          rw [hr]
          exact (oneField_found _ _ _).2 ⟨rfl, by simpa using hn⟩
        | cons x l1 =>
          cases e
          exact absurd rfl (hn (_, v) (by simp))
    · rw [if_neg hk, ih]
      constructor
      · rintro ⟨l1, v', l2, rfl, hr, hn⟩
        exact ⟨(k, v) :: l1, v', l2, rfl, hr, by
          intro e he
          rcases List.mem_cons.1 he with rfl | he
          · exact hk
          · exact hn e he⟩
      · rintro ⟨l1, v', l2, e, hr, hn⟩
        cases l1 with
        | nil => cases e; exact absurd rfl hk
        | cons x l1 => cases e; exact ⟨l1, v', l2, rfl, hr, fun e he => hn e (by simp only [List.cons_append, List.mem_cons]; exact .inr he)⟩

theorem filter_split {α : Type} {f : α → Bool} {l a b : List α} {x : α} (h : l.filter f = a ++ x :: b) :
    ∃ a' b', l = a' ++ x :: b' ∧ a'.filter f = a ∧ b'.filter f = b := by
  obtain ⟨l1, l2, rfl, h1, h2⟩ := List.filter_eq_append_iff.1 h
  obtain ⟨m1, m2, rfl, h3, h4, h5⟩ := List.filter_eq_cons_iff.1 h2
  refine ⟨l1 ++ m1, m2, by simp, ?_, h5⟩
  rw [List.filter_append, h1]
  have : m1.filter f = [] := by rw [List.filter_eq_nil_iff]; exact fun x hx => by simpa using h3 x hx
  rw [this, List.append_nil]

/-- One parameter of a query. -/
theorem query_param {α : Type} (name : String) (hname : name ≠ "") (read : List ℕ → Option α) (q : Str) (a : α) :
    (oneField (bytesOf name) read none (queryParts q)).join = some a ↔
      ∃ before part after v, QueryParts q (before ++ part :: after) ∧ queryPart part = (bytesOf name, v) ∧ read v = some a ∧
        ∀ p ∈ before ++ after, ¬ Mentions p name := by
  have hne : ∀ p, Mentions p name → p ≠ [] := by
    rintro p hp rfl
    rw [mentions_iff] at hp
    have : bytesOf name = [] := hp.symm
    unfold bytesOf at this
    simp at this
    exact hname this
  rw [Option.join_eq_some_iff, oneField_some]
  unfold queryParts
  constructor
  · rintro ⟨l1, v, l2, h, hr, hn⟩
    obtain ⟨p1, p2, hf, rfl, h2⟩ := List.map_eq_append_iff.1 h
    obtain ⟨x, p2', rfl, hx, rfl⟩ := List.map_eq_cons_iff.1 h2
    obtain ⟨a', b', hq, ha', hb'⟩ := filter_split hf
    refine ⟨a', x, b', v, parts_iff.2 hq, hx, hr, ?_⟩
    intro p hp hm
    refine hn (queryPart p) ?_ (mentions_iff.1 hm)
    rw [← ha', ← hb', ← List.map_append, ← List.filter_append]
    exact List.mem_map_of_mem (List.mem_filter.2 ⟨hp, by simpa using hne p hm⟩)
  · rintro ⟨before, part, after, v, hq, hx, hr, hn⟩
    rw [parts_iff] at hq
    have hpn : part ≠ [] := hne part (mentions_iff.2 (by rw [hx]))
    refine ⟨(before.filter fun s => decide (s ≠ [])).map queryPart, v, (after.filter fun s => decide (s ≠ [])).map queryPart, ?_, hr, ?_⟩
    · rw [hq, List.filter_append, List.filter_cons_of_pos (by simpa using hpn), List.map_append, List.map_cons, hx]
    · intro e he
      rw [← List.map_append, ← List.filter_append] at he
      obtain ⟨p, hp, rfl⟩ := List.mem_map.1 he
      exact fun h => hn p (List.mem_filter.1 hp).1 (mentions_iff.2 h)

end Prexel
