import Verif.Lemmas.Json
/-!
# The numerals of JSON
-/

namespace Prexel.Json

theorem isDigit_iff' {c : Char} : isDigit c = true ↔ '0' ≤ c ∧ c ≤ '9' := by simp [isDigit]

/-- What does not continue a numeral. -/
def Stop (s : Str) : Prop := ∀ c ∈ s.head?, isDigit c = false ∧ c ≠ '.' ∧ c ≠ 'e' ∧ c ≠ 'E'

/-- What does not continue digits. -/
def Halt (s : Str) : Prop := ∀ c ∈ s.head?, isDigit c = false

theorem takeDigits {a s : Str} (ha : ∀ c ∈ a, '0' ≤ c ∧ c ≤ '9') (hs : Halt s) :
    (a ++ s).takeWhile isDigit = a ∧ (a ++ s).dropWhile isDigit = s := by
  have h1 : ∀ c ∈ a, isDigit c = true := fun c hc => isDigit_iff'.2 (ha c hc)
  rw [List.takeWhile_append_of_pos h1, List.dropWhile_append_of_pos h1]
  cases s with
  | nil => simp
  | cons c s =>
    have := hs c (by simp)
    simp [this]

theorem takeWhile_digits {s : Str} (h : s.takeWhile isDigit ≠ []) : Digits (s.takeWhile isDigit) :=
  ⟨h, fun _ hc => isDigit_iff'.1 (List.mem_takeWhile_imp hc)⟩

theorem exponent_read {m x : Str} (h : (m = [] ∧ x = []) ∨ (m ∈ [['e'], ['E'], ['e', '+'], ['E', '+'], ['e', '-'], ['E', '-']] ∧ Digits x))
    {rest : Str} (hr : Stop rest) : exponentPart (m ++ x ++ rest) = some (m ++ x, rest) := by
  have halt : Halt rest := fun c hc => (hr c hc).1
  rcases h with ⟨rfl, rfl⟩ | ⟨hm, hx⟩
  · cases rest with
    | nil => rfl
    | cons c s =>
      obtain ⟨-, -, h1, h2⟩ := hr c (by simp)
      simp [exponentPart, h1, h2]
  · obtain ⟨h1, h2⟩ := takeDigits hx.2 halt
    obtain ⟨d, x', rfl⟩ := List.exists_cons_of_ne_nil hx.1
    have hd := hx.2 d (by simp)
    have hp : d ≠ '+' := by rintro rfl; revert hd; decide
    have hq : d ≠ '-' := by rintro rfl; revert hd; decide
    simp only [List.mem_cons, List.not_mem_nil, or_false] at hm
    rcases hm with rfl | rfl | rfl | rfl | rfl | rfl
    · have e : expSign (d :: (x' ++ rest)) = ([], d :: (x' ++ rest)) := by unfold expSign; split <;> simp_all
      simp only [List.cons_append] at h1 h2
      simp [exponentPart, e, h1, h2]
    · have e : expSign (d :: (x' ++ rest)) = ([], d :: (x' ++ rest)) := by unfold expSign; split <;> simp_all
      simp only [List.cons_append] at h1 h2
      simp [exponentPart, e, h1, h2]
    all_goals
      simp only [List.cons_append] at h1 h2
      simp [exponentPart, expSign, h1, h2]

theorem fraction_read {f : Str} (h : f = [] ∨ Digits f) {rest : Str} (hr : Halt rest) (hd : ∀ c ∈ rest.head?, c ≠ '.') :
    fractionPart ((if f = [] then [] else '.' :: f) ++ rest) = some ((if f = [] then [] else '.' :: f), rest) := by
  by_cases hf : f = []
  · subst hf
    simp only [if_true, List.nil_append]
    unfold fractionPart
    split
    · rename_i s; exact absurd rfl (hd '.' (by simp))
    · rfl
  · rcases h with h | h
    · exact absurd h hf
    · obtain ⟨h1, h2⟩ := takeDigits h.2 hr
      simp only [hf, if_false, List.cons_append, fractionPart, h1, h2]

theorem whole_read {a : Str} (h : Digits a) (h0 : a.head? = some '0' → a = ['0']) {rest : Str} (hr : Halt rest) :
    wholePart (a ++ rest) = some (a, rest) := by
  obtain ⟨h1, h2⟩ := takeDigits h.2 hr
  unfold wholePart
  simp only [h1, h2]
  rw [if_neg]
  simp only [not_or, not_and, Decidable.not_not]
  exact ⟨h.1, fun e => by rw [h0 e]; rfl⟩

theorem signPart_none {s : Str} (h : s.head? ≠ some '-') : signPart s = ([], s) := by
  unfold signPart
  split
  · exact absurd rfl h
  · rfl

theorem number_read {n : Number} (h : n.WF) {rest : Str} (hr : Stop rest) : numeral (n.text ++ rest) = some (n.text, rest) := by
  obtain ⟨hw, h0, hf, he⟩ := h
  have hexp := exponent_read he hr
  have halt1 : Halt (n.mark ++ n.exp ++ rest) ∧ ∀ c ∈ (n.mark ++ n.exp ++ rest).head?, c ≠ '.' := by
    rcases he with ⟨h1, h2⟩ | ⟨hm, hx⟩
    · rw [h1, h2]; exact ⟨fun c hc => (hr c hc).1, fun c hc => (hr c hc).2.1⟩
    · simp only [List.mem_cons, List.not_mem_nil, or_false] at hm
      rcases hm with h | h | h | h | h | h <;> rw [h] <;> refine ⟨fun c hc => ?_, fun c hc => ?_⟩ <;>
        · simp at hc; subst hc; decide
  have hfr := fraction_read hf halt1.1 halt1.2
  have halt2 : Halt ((if n.frac = [] then [] else '.' :: n.frac) ++ (n.mark ++ n.exp ++ rest)) := by
    by_cases h : n.frac = []
    · rw [if_pos h]; exact halt1.1
    · rw [if_neg h]; intro c hc; simp at hc; subst hc; decide
  have hwh := whole_read hw h0 halt2
  have hminus : ∀ t, n.whole ++ t ≠ [] ∧ (n.whole ++ t).head? ≠ some '-' := by
    intro t
    obtain ⟨d, w, hd⟩ := List.exists_cons_of_ne_nil hw.1
    rw [hd]
    refine ⟨by simp, ?_⟩
    simp only [List.cons_append, List.head?_cons, ne_eq, Option.some_inj]
    rintro rfl
    have := hw.2 '-' (by rw [hd]; simp)
    revert this; decide
  unfold numeral Number.text
  cases n.neg with
  | true =>
    simp only [if_true, List.append_assoc, List.cons_append, List.nil_append] at hwh hfr hexp ⊢
    rw [signPart, hwh]
    simp only
    rw [hfr]
    simp only
    rw [hexp]
    rfl
  | false =>
    have hm := (hminus ((if n.frac = [] then [] else '.' :: n.frac) ++ (n.mark ++ n.exp ++ rest))).2
    simp only [List.append_assoc, List.nil_append, Bool.false_eq_true, if_false] at hwh hfr hexp hm ⊢
    rw [signPart_none hm, hwh]
    simp only
    rw [hfr]
    simp only
    rw [hexp]
    rfl

theorem number_only {s t rest : Str} (h : numeral s = some (t, rest)) : ∃ n : Number, n.WF ∧ t = n.text ∧ s = t ++ rest := by
  unfold numeral at h
  have hsign : ((signPart s).1 = ['-'] ∨ (signPart s).1 = []) ∧ s = (signPart s).1 ++ (signPart s).2 := by
    unfold signPart; split <;> simp
  generalize (signPart s).1 = sign at h hsign
  generalize (signPart s).2 = s1 at h hsign
  simp only at h
  split at h
  · cases h
  rename_i a s2 ha
  split at h
  · cases h
  rename_i b s3 hb
  split at h
  · cases h
  rename_i c s4 hc
  cases h
  have ha' : Digits a ∧ (a.head? = some '0' → a = ['0']) ∧ s1 = a ++ s2 := by
    unfold wholePart at ha
    simp only at ha
    split at ha
    · cases ha
    · rename_i hn
      cases ha
      simp only [not_or, not_and, Decidable.not_not] at hn
      refine ⟨takeWhile_digits hn.1, fun h0 => ?_, (List.takeWhile_append_dropWhile ..).symm⟩
      obtain ⟨x, hx⟩ := List.length_eq_one_iff.1 (hn.2 h0)
      rw [hx] at h0 ⊢
      simpa using h0
  have hb' : ∃ f, (f = [] ∨ Digits f) ∧ b = (if f = [] then [] else '.' :: f) ∧ s2 = b ++ s3 := by
    unfold fractionPart at hb
    split at hb
    · rename_i x
      split at hb
      · cases hb
      · rename_i hn
        cases hb
        refine ⟨x.takeWhile isDigit, .inr (takeWhile_digits hn), by rw [if_neg hn], ?_⟩
        rw [List.cons_append, List.takeWhile_append_dropWhile]
    · cases hb
      exact ⟨[], .inl rfl, by simp, by simp⟩
  have hc' : ∃ m x, ((m = [] ∧ x = []) ∨ (m ∈ [['e'], ['E'], ['e', '+'], ['E', '+'], ['e', '-'], ['E', '-']] ∧ Digits x)) ∧ c = m ++ x ∧ s3 = c ++ rest := by
    unfold exponentPart at hc
    split at hc
    · rename_i e y
      split at hc
      · rename_i he
        simp only at hc
        split at hc
        · cases hc
        · rename_i hn
          cases hc
          have hy : ((expSign y).1 = ['+'] ∨ (expSign y).1 = ['-'] ∨ (expSign y).1 = []) ∧ y = (expSign y).1 ++ (expSign y).2 := by
            unfold expSign; split <;> simp
          refine ⟨e :: (expSign y).1, (expSign y).2.takeWhile isDigit, .inr ⟨?_, takeWhile_digits hn⟩, rfl, ?_⟩
          · rcases he with rfl | rfl <;> rcases hy.1 with h | h | h <;> rw [h] <;> simp
          · conv_lhs => rw [hy.2]
            simp
      · cases hc
        exact ⟨[], [], .inl ⟨rfl, rfl⟩, rfl, rfl⟩
    · cases hc
      exact ⟨[], [], .inl ⟨rfl, rfl⟩, rfl, rfl⟩
  obtain ⟨f, hf, rfl, rfl⟩ := hb'
  obtain ⟨m, x, hmx, rfl, rfl⟩ := hc'
  obtain ⟨h1, h2, rfl⟩ := ha'
  refine ⟨⟨decide (sign = ['-']), a, f, m, x⟩, ⟨h1, h2, hf, hmx⟩, ?_, ?_⟩
  · rcases hsign.1 with rfl | rfl <;> simp [Number.text]
  · rw [hsign.2]; simp

end Prexel.Json
