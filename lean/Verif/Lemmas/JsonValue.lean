import Verif.Lemmas.JsonText
import Verif.Lemmas.JsonNumber
/-!
# Reading JSON: values
-/

namespace Prexel.Json

/-- How a value can begin. -/
def Begins (c : Char) : Prop := blank c = false ∧ c ≠ ']' ∧ c ≠ '}'

instance (c : Char) : Decidable (Begins c) := inferInstanceAs (Decidable (_ ∧ _))

theorem digit_begins {c : Char} (h : '0' ≤ c ∧ c ≤ '9') : Begins c := by
  have le : ∀ a b : Char, a ≤ b ↔ a.toNat ≤ b.toNat := fun a b => Iff.rfl
  rw [le, le] at h
  refine ⟨?_, ?_, ?_⟩
  · rw [Bool.eq_false_iff]
    intro hb
    rcases blank_iff.1 hb with rfl | rfl | rfl | rfl <;> revert h <;> decide
  · rintro rfl; revert h; decide
  · rintro rfl; revert h; decide

theorem number_head {n : Number} (h : n.WF) : ∃ c t, n.text = c :: t ∧ (c = '-' ∨ ('0' ≤ c ∧ c ≤ '9')) := by
  obtain ⟨d, w, hd⟩ := List.exists_cons_of_ne_nil h.1.1
  unfold Number.text
  cases n.neg with
  | true => exact ⟨'-', _, rfl, .inl rfl⟩
  | false => exact ⟨d, w ++ (if n.frac = [] then [] else '.' :: n.frac) ++ n.mark ++ n.exp, by simp [hd], .inr (h.1.2 d (by rw [hd]; simp))⟩

theorem writes_head {s : Str} {v : Json} (h : Writes s v) : ∃ c t, s = c :: t ∧ Begins c := by
  cases h with
  | null => exact ⟨'n', _, rfl, by decide⟩
  | «true» => exact ⟨'t', _, rfl, by decide⟩
  | «false» => exact ⟨'f', _, rfl, by decide⟩
  | num h =>
    obtain ⟨c, t, e, hc⟩ := number_head h
    refine ⟨c, t, e, ?_⟩
    rcases hc with rfl | hc
    · decide
    · exact digit_begins hc
  | str h => exact ⟨'"', _, rfl, by decide⟩
  | noItems h => exact ⟨'[', _, rfl, by decide⟩
  | arr h => exact ⟨'[', _, rfl, by decide⟩
  | noMembers h => exact ⟨'{', _, rfl, by decide⟩
  | obj h => exact ⟨'{', _, rfl, by decide⟩

theorem skip_begins {b s : Str} (hb : Blank b) {c : Char} (hc : Begins c) : skip (b ++ c :: s) = c :: s :=
  skip_blank hb (by intro d hd; simp at hd; subst hd; exact hc.1)

theorem skip_symbol {b s : Str} (hb : Blank b) {c : Char} (hc : blank c = false) : skip (b ++ c :: s) = c :: s :=
  skip_blank hb (by intro d hd; simp at hd; subst hd; exact hc)

theorem value_num {n : ℕ} {c : Char} {s : Str} (hc : c = '-' ∨ ('0' ≤ c ∧ c ≤ '9')) :
    value (n + 1) (c :: s) = (numeral (c :: s)).map fun r => (.num r.1, r.2) := by
  rw [value.eq_def]
  simp only
  split
  all_goals first
    | (rename_i heq; simp only [List.cons.injEq] at heq; obtain ⟨rfl, -⟩ := heq; exfalso; revert hc; decide)
    | rfl

theorem value_items {n : ℕ} {s : Str} (h : ∀ c ∈ (skip s).head?, c ≠ ']') :
    value (n + 1) ('[' :: s) = (items n (skip s)).map fun r => (.arr r.1, r.2) := by
  rw [value]
  split
  · rename_i t heq
    rw [heq] at h
    exact absurd rfl (h ']' (by simp))
  · rfl

theorem value_members {n : ℕ} {s : Str} (h : ∀ c ∈ (skip s).head?, c ≠ '}') :
    value (n + 1) ('{' :: s) = (members n (skip s)).map fun r => (.obj r.1, r.2) := by
  rw [value]
  split
  · rename_i t heq
    rw [heq] at h
    exact absurd rfl (h '}' (by simp))
  · rfl

theorem stop_symbol {b s : Str} (hb : Blank b) {c : Char} (hc : c = ',' ∨ c = ']' ∨ c = '}') : Stop (b ++ c :: s) := by
  intro d hd
  cases b with
  | nil =>
    simp at hd; subst hd
    rcases hc with rfl | rfl | rfl <;> decide
  | cons x b =>
    simp at hd; subst hd
    rcases hb x (by simp) with rfl | rfl | rfl | rfl <;> decide

theorem items_head {s : Str} {l : List Json} (h : WritesItems s l) : ∃ b c t, Blank b ∧ s = b ++ c :: t ∧ Begins c := by
  cases h with
  | one hb hw _ => obtain ⟨c, t, rfl, hc⟩ := writes_head hw; exact ⟨_, c, t ++ _, hb, by simp; rfl, hc⟩
  | more hb hw _ _ => obtain ⟨c, t, rfl, hc⟩ := writes_head hw; exact ⟨_, c, t ++ _, hb, by simp; rfl, hc⟩

theorem members_head {s : Str} {l : List (Str × Json)} (h : WritesMembers s l) : ∃ b t, Blank b ∧ s = b ++ '"' :: t := by
  cases h with
  | one hb hw _ => exact ⟨_, _, hb, by simp; rfl⟩
  | more hb hw _ _ => exact ⟨_, _, hb, by simp; rfl⟩

mutual

theorem writes_read {s : Str} {v : Json} : Writes s v → ∀ (n : ℕ) (rest : Str), s.length ≤ n → ((∃ t, v = .num t) → Stop rest) →
    value n (s ++ rest) = some (v, rest)
  | .null, 0, _, h, _ => by simp [Prexel.str] at h
  | .null, _ + 1, _, _, _ => rfl
  | .true, 0, _, h, _ => by simp [Prexel.str] at h
  | .true, _ + 1, _, _, _ => rfl
  | .false, 0, _, h, _ => by simp [Prexel.str] at h
  | .false, _ + 1, _, _, _ => rfl
  | .num (n := x) hn, 0, _, h, _ => by
    obtain ⟨c, t, e, -⟩ := number_head hn
    rw [e] at h; simp at h
  | .num (n := x) hn, n + 1, rest, _, hs => by
    obtain ⟨c, t, e, hc⟩ := number_head hn
    have := number_read hn (hs ⟨_, rfl⟩)
    rw [e] at this ⊢
    rw [List.cons_append] at this ⊢
    rw [value_num hc, this]
    rfl
  | .str hr, 0, _, h, _ => by simp at h
  | .str (r := r) hr, n + 1, rest, _, _ => by
    have := raw_read hr rest
    simp only [List.cons_append, List.append_assoc, List.nil_append]
    rw [value, this]
    rfl
  | .noItems hb, 0, _, h, _ => by simp at h
  | .noItems (b := b) hb, n + 1, rest, _, _ => by
    simp only [List.cons_append, List.append_assoc, List.nil_append]
    rw [value, skip_symbol hb (by decide)]
    rfl
  | .arr hi, 0, _, h, _ => by simp at h
  | .arr (s := s) (l := l) hi, n + 1, rest, h, _ => by
    simp only [List.cons_append, List.append_assoc, List.nil_append]
    have hn : s.length + 1 ≤ n := by simp at h; omega
    obtain ⟨b, c, t, hb, rfl, hc⟩ := items_head hi
    have := items_read hi n rest hn
    rw [value_items, this]
    · rfl
    · rw [List.append_assoc, List.cons_append, skip_begins hb hc]
      intro d hd; simp at hd; subst hd; exact hc.2.1
  | .noMembers hb, 0, _, h, _ => by simp at h
  | .noMembers (b := b) hb, n + 1, rest, _, _ => by
    simp only [List.cons_append, List.append_assoc, List.nil_append]
    rw [value, skip_symbol hb (by decide)]
    rfl
  | .obj hi, 0, _, h, _ => by simp at h
  | .obj (s := s) (l := l) hi, n + 1, rest, h, _ => by
    simp only [List.cons_append, List.append_assoc, List.nil_append]
    have hn : s.length + 1 ≤ n := by simp at h; omega
    obtain ⟨b, t, hb, rfl⟩ := members_head hi
    have := members_read hi n rest hn
    rw [value_members, this]
    · rfl
    · rw [List.append_assoc, List.cons_append, skip_symbol hb (by decide)]
      intro d hd; simp at hd; subst hd; decide

theorem items_read {s : Str} {l : List Json} : WritesItems s l → ∀ (n : ℕ) (rest : Str), s.length + 1 ≤ n →
    items n (skip (s ++ ']' :: rest)) = some (l, rest)
  | .one (b := b) (s := s) (b' := b') hb hw hb', n, rest, h => by
    obtain ⟨m, rfl⟩ : ∃ m, n = m + 1 := ⟨n - 1, by omega⟩
    obtain ⟨c, t, e, hc⟩ := writes_head hw
    have hv := writes_read hw m (b' ++ ']' :: rest) (by simp at h; omega) (fun _ => stop_symbol hb' (by simp))
    have hs : skip (b ++ s ++ b' ++ ']' :: rest) = s ++ (b' ++ ']' :: rest) := by
      rw [e]; simp only [List.append_assoc, List.cons_append]; exact skip_begins hb hc
    rw [hs, items, hv]
    simp only
    rw [skip_symbol hb' (by decide)]
    rfl
  | .more (b := b) (s := s) (b' := b') (s' := s') (l := l) hb hw hb' hi, n, rest, h => by
    obtain ⟨m, rfl⟩ : ∃ m, n = m + 1 := ⟨n - 1, by omega⟩
    obtain ⟨c, t, e, hc⟩ := writes_head hw
    have hv := writes_read hw m (b' ++ ',' :: (s' ++ ']' :: rest)) (by simp at h; omega) (fun _ => stop_symbol hb' (by simp))
    have hs : skip (b ++ s ++ b' ++ ',' :: s' ++ ']' :: rest) = s ++ (b' ++ ',' :: (s' ++ ']' :: rest)) := by
      rw [e]; simp only [List.append_assoc, List.cons_append]; exact skip_begins hb hc
    rw [hs, items, hv]
    simp only
    rw [skip_symbol hb' (by decide)]
    simp only
    rw [items_read hi m rest (by simp at h; omega)]
    rfl

theorem members_read {s : Str} {l : List (Str × Json)} : WritesMembers s l → ∀ (n : ℕ) (rest : Str), s.length + 1 ≤ n →
    members n (skip (s ++ '}' :: rest)) = some (l, rest)
  | .one (b := b) (r := r) (b1 := b1) (b2 := b2) (s := s) (b3 := b3) hb hr hb1 hb2 hw hb3, n, rest, h => by
    obtain ⟨m, rfl⟩ : ∃ m, n = m + 1 := ⟨n - 1, by omega⟩
    obtain ⟨c, t, e, hc⟩ := writes_head hw
    have hv := writes_read hw m (b3 ++ '}' :: rest) (by simp at h; omega) (fun _ => stop_symbol hb3 (by simp))
    have hs : skip (b ++ '"' :: r ++ '"' :: b1 ++ ':' :: b2 ++ s ++ b3 ++ '}' :: rest) =
        '"' :: (r ++ '"' :: (b1 ++ ':' :: (b2 ++ (s ++ (b3 ++ '}' :: rest))))) := by
      simp only [List.append_assoc, List.cons_append]; exact skip_symbol hb (by decide)
    have hs2 : skip (b2 ++ (s ++ (b3 ++ '}' :: rest))) = s ++ (b3 ++ '}' :: rest) := by
      rw [e]; simp only [List.cons_append]; exact skip_begins hb2 hc
    rw [hs, members, raw_read hr]
    simp only
    rw [skip_symbol hb1 (by decide)]
    simp only
    rw [hs2, hv]
    simp only
    rw [skip_symbol hb3 (by decide)]
    rfl
  | .more (b := b) (r := r) (b1 := b1) (b2 := b2) (s := s) (b3 := b3) (s' := s') hb hr hb1 hb2 hw hb3 hi, n, rest, h => by
    obtain ⟨m, rfl⟩ : ∃ m, n = m + 1 := ⟨n - 1, by omega⟩
    obtain ⟨c, t, e, hc⟩ := writes_head hw
    have hv := writes_read hw m (b3 ++ ',' :: (s' ++ '}' :: rest)) (by simp at h; omega) (fun _ => stop_symbol hb3 (by simp))
    have hs : skip (b ++ '"' :: r ++ '"' :: b1 ++ ':' :: b2 ++ s ++ b3 ++ ',' :: s' ++ '}' :: rest) =
        '"' :: (r ++ '"' :: (b1 ++ ':' :: (b2 ++ (s ++ (b3 ++ ',' :: (s' ++ '}' :: rest)))))) := by
      simp only [List.append_assoc, List.cons_append]; exact skip_symbol hb (by decide)
    have hs2 : skip (b2 ++ (s ++ (b3 ++ ',' :: (s' ++ '}' :: rest)))) = s ++ (b3 ++ ',' :: (s' ++ '}' :: rest)) := by
      rw [e]; simp only [List.cons_append]; exact skip_begins hb2 hc
    rw [hs, members, raw_read hr]
    simp only
    rw [skip_symbol hb1 (by decide)]
    simp only
    rw [hs2, hv]
    simp only
    rw [skip_symbol hb3 (by decide)]
    simp only
    rw [members_read hi m rest (by simp at h; omega)]
    rfl

end

theorem blank_append {b b' : Str} (h : Blank b) (h' : Blank b') : Blank (b ++ b') := by
  intro c hc
  rcases List.mem_append.1 hc with hc | hc
  · exact h c hc
  · exact h' c hc

theorem items_blank {b w : Str} {l : List Json} (hb : Blank b) (h : WritesItems w l) : WritesItems (b ++ w) l := by
  cases h with
  | one h1 h2 h3 =>
    have := WritesItems.one (blank_append hb h1) h2 h3
    simpa only [List.append_assoc] using this
  | more h1 h2 h3 h4 =>
    have := WritesItems.more (blank_append hb h1) h2 h3 h4
    simpa only [List.append_assoc] using this

theorem members_blank {b w : Str} {l : List (Str × Json)} (hb : Blank b) (h : WritesMembers w l) : WritesMembers (b ++ w) l := by
  cases h with
  | one h1 h2 h3 h4 h5 h6 =>
    have := WritesMembers.one (blank_append hb h1) h2 h3 h4 h5 h6
    simpa only [List.append_assoc] using this
  | more h1 h2 h3 h4 h5 h6 h7 =>
    have := WritesMembers.more (blank_append hb h1) h2 h3 h4 h5 h6 h7
    simpa only [List.append_assoc] using this

theorem read_only (n : ℕ) :
    (∀ s v t, value n s = some (v, t) → ∃ w, Writes w v ∧ s = w ++ t) ∧
    (∀ s l t, items n s = some (l, t) → ∃ w, WritesItems w l ∧ s = w ++ ']' :: t) ∧
    (∀ s l t, members n s = some (l, t) → ∃ w, WritesMembers w l ∧ s = w ++ '}' :: t) := by
  induction n with
  | zero =>
    refine ⟨?_, ?_, ?_⟩ <;> intro s v t h
    · rw [value] at h; cases h
    · rw [items] at h; cases h
    · rw [members] at h; cases h
  | succ n ih =>
    obtain ⟨ihv, ihi, ihm⟩ := ih
    have nil : Blank [] := by intro c hc; cases hc
    refine ⟨?_, ?_, ?_⟩
    · intro s v t h
      rw [value.eq_def] at h
      simp only at h
      split at h
      · cases h; exact ⟨_, .null, rfl⟩
      · cases h; exact ⟨_, .true, rfl⟩
      · cases h; exact ⟨_, .false, rfl⟩
      · obtain ⟨p, hp, he⟩ := Option.map_eq_some_iff.1 h
        cases he
        obtain ⟨h1, h2⟩ := raw_only _ p.1 p.2 hp
        exact ⟨_, .str h1, by rw [h2]; simp⟩
      · rename_i s
        obtain ⟨b, hb, hs, -⟩ := skip_split s
        split at h
        · rename_i t' he
          cases h
          exact ⟨_, .noItems hb, by rw [hs, he]; simp⟩
        · obtain ⟨p, hp, he⟩ := Option.map_eq_some_iff.1 h
          cases he
          obtain ⟨w, hw, e⟩ := ihi _ p.1 p.2 hp
          exact ⟨_, .arr (items_blank hb hw), by rw [hs, e]; simp⟩
      · rename_i s
        obtain ⟨b, hb, hs, -⟩ := skip_split s
        split at h
        · rename_i t' he
          cases h
          exact ⟨_, .noMembers hb, by rw [hs, he]; simp⟩
        · obtain ⟨p, hp, he⟩ := Option.map_eq_some_iff.1 h
          cases he
          obtain ⟨w, hw, e⟩ := ihm _ p.1 p.2 hp
          exact ⟨_, .obj (members_blank hb hw), by rw [hs, e]; simp⟩
      · obtain ⟨p, hp, he⟩ := Option.map_eq_some_iff.1 h
        cases he
        obtain ⟨x, hx, h1, h2⟩ := number_only (t := p.1) (rest := p.2) hp
        rw [h1] at h2 ⊢
        exact ⟨_, .num hx, h2⟩
    · intro s l t h
      rw [items] at h
      split at h
      · cases h
      · rename_i v t1 hv
        obtain ⟨w, hw, rfl⟩ := ihv _ _ _ hv
        obtain ⟨b, hb, hs, -⟩ := skip_split t1
        split at h
        · rename_i t2 he
          obtain ⟨p, hp, hq⟩ := Option.map_eq_some_iff.1 h
          cases hq
          obtain ⟨w2, hw2, e⟩ := ihi _ p.1 p.2 hp
          obtain ⟨b2, hb2, hs2, -⟩ := skip_split t2
          exact ⟨_, .more nil hw hb (items_blank hb2 hw2), by rw [hs, he, hs2, e]; simp⟩
        · rename_i t2 he
          cases h
          refine ⟨_, .one nil hw hb, ?_⟩
          rw [hs, he]; simp
        · cases h
    · intro s l t h
      rw [members.eq_def] at h
      simp only at h
      split at h
      · rename_i s1
        split at h
        · cases h
        · rename_i k t1 hk
          obtain ⟨hr, rfl⟩ := raw_only _ _ _ hk
          obtain ⟨b1, hb1, hs1, -⟩ := skip_split t1
          split at h
          · rename_i t2 he
            obtain ⟨b2, hb2, hs2, -⟩ := skip_split t2
            split at h
            · cases h
            · rename_i v t3 hv
              obtain ⟨w, hw, e⟩ := ihv _ _ _ hv
              obtain ⟨b3, hb3, hs3, -⟩ := skip_split t3
              split at h
              · rename_i t4 he4
                obtain ⟨p, hp, hq⟩ := Option.map_eq_some_iff.1 h
                cases hq
                obtain ⟨w2, hw2, e2⟩ := ihm _ p.1 p.2 hp
                obtain ⟨b4, hb4, hs4, -⟩ := skip_split t4
                exact ⟨_, .more nil hr hb1 hb2 hw hb3 (members_blank hb4 hw2), by rw [hs1, he, hs2, e, hs3, he4, hs4, e2]; simp⟩
              · rename_i t4 he4
                cases h
                refine ⟨_, .one nil hr hb1 hb2 hw hb3, ?_⟩
                rw [hs1, he, hs2, e, hs3, he4]; simp
              · cases h
          · cases h
      · cases h

/-- A text has at most one value. -/
theorem writes_unique {s : Str} {v v' : Json} (h : Writes s v) (h' : Writes s v') : v = v' := by
  have key : ∀ {v : Json}, Writes s v → ∃ r, value s.length s = some (v, r) := by
    intro v h
    have := writes_read h s.length [] le_rfl (fun _ c hc => by cases hc)
    rw [List.append_nil] at this
    exact ⟨_, this⟩
  obtain ⟨r, h1⟩ := key h
  obtain ⟨r', h2⟩ := key h'
  rw [h1] at h2
  cases h2
  rfl

end Prexel.Json
