import Verif.Spec.Json
import Mathlib.Data.List.TakeWhile
/-!
# Reading JSON: strings and numbers
-/

namespace Prexel.Json

theorem blank_iff {c : Char} : blank c = true ↔ c = ' ' ∨ c = '\t' ∨ c = '\n' ∨ c = '\r' := by
  simp only [blank, Bool.or_eq_true, beq_iff_eq]
  tauto

theorem skip_blank {b s : Str} (hb : Blank b) (hs : ∀ c ∈ s.head?, blank c = false) : skip (b ++ s) = s := by
  unfold skip
  rw [List.dropWhile_append_of_pos (fun c hc => blank_iff.2 (hb c hc))]
  cases s with
  | nil => rfl
  | cons c s => rw [List.dropWhile_cons, if_neg (by simp [hs c (by simp)])]

theorem skip_all {b : Str} (hb : Blank b) : skip b = [] := by
  have := skip_blank (s := []) hb (by simp)
  simpa using this

theorem skip_split (s : Str) : ∃ b, Blank b ∧ s = b ++ skip s ∧ ∀ c ∈ (skip s).head?, blank c = false := by
  refine ⟨s.takeWhile blank, fun c hc => ?_, (List.takeWhile_append_dropWhile ..).symm, ?_⟩
  · exact blank_iff.1 (List.mem_takeWhile_imp hc)
  · intro c hc
    have := List.head?_dropWhile_not blank s
    unfold skip at hc
    rw [Option.mem_def] at hc
    rw [hc] at this
    simpa using this

theorem hexDigit_iff {c : Char} {n : ℕ} : hexDigit c = some n ↔ Hex c n := by
  have e0 : '0'.toNat = 48 := rfl
  have e1 : 'a'.toNat = 97 := rfl
  have e2 : 'A'.toNat = 65 := rfl
  have le : ∀ a b : Char, a ≤ b ↔ a.toNat ≤ b.toNat := fun a b => Iff.rfl
  unfold hexDigit Hex
  simp only [le, e0, e1, e2, show '9'.toNat = 57 from rfl, show 'f'.toNat = 102 from rfl, show 'F'.toNat = 70 from rfl]
  split
  · rw [Option.some_inj]; omega
  · split
    · rw [Option.some_inj]; omega
    · split
      · rw [Option.some_inj]; omega
      · simp; omega

theorem hex4_iff {a b c d : Char} {n : ℕ} : hex4 a b c d = some n ↔ Hex4 a b c d n := by
  unfold hex4 Hex4
  constructor
  · intro h
    split at h
    · rename_i i j k l ha hb hc hd
      cases h
      exact ⟨i, j, k, l, hexDigit_iff.1 ha, hexDigit_iff.1 hb, hexDigit_iff.1 hc, hexDigit_iff.1 hd, by ring⟩
    · cases h
  · rintro ⟨i, j, k, l, ha, hb, hc, hd, rfl⟩
    rw [hexDigit_iff.2 ha, hexDigit_iff.2 hb, hexDigit_iff.2 hc, hexDigit_iff.2 hd]
    simp only [Option.some_inj]
    ring

theorem escaped_iff {c x : Char} : escaped c = some x ↔ (c, x) ∈ shortEscapes := by
  unfold escaped shortEscapes
  simp only [List.mem_cons, Prod.mk.injEq, List.not_mem_nil, or_false]
  constructor
  · intro h
    repeat' split at h
    all_goals first | (cases h; simp_all) | (cases h)
  · rintro (⟨rfl, rfl⟩ | ⟨rfl, rfl⟩ | ⟨rfl, rfl⟩ | ⟨rfl, rfl⟩ | ⟨rfl, rfl⟩ | ⟨rfl, rfl⟩ | ⟨rfl, rfl⟩ | ⟨rfl, rfl⟩) <;> rfl

theorem short_not_u {x : Char} : ('u', x) ∉ shortEscapes := by
  intro h
  have := escaped_iff.2 h
  cases this

theorem rawString_plain {c : Char} (h : 32 ≤ c.toNat) (h1 : c ≠ '"') (h2 : c ≠ '\\') (s : Str) :
    rawString (c :: s) = (rawString s).map fun r => (c :: r.1, r.2) := by
  rw [rawString]
  · rw [if_neg (by omega)]
  all_goals simp_all

theorem rawString_short {c : Char} (h1 : c ≠ 'u') (s : Str) :
    rawString ('\\' :: c :: s) = if (escaped c).isSome then (rawString s).map fun r => ('\\' :: c :: r.1, r.2) else none := by
  rw [rawString]
  simp_all

theorem rawString_hex (a b c d : Char) (s : Str) : rawString ('\\' :: 'u' :: a :: b :: c :: d :: s) =
    if (hex4 a b c d).isSome then (rawString s).map fun r => ('\\' :: 'u' :: a :: b :: c :: d :: r.1, r.2) else none := by
  rw [rawString]

theorem raw_read {r : Str} (h : Raw r) (rest : Str) : rawString (r ++ '"' :: rest) = some (r, rest) := by
  induction h with
  | nil => rfl
  | plain h0 h1 h2 _ ih => rw [List.cons_append, rawString_plain h0 h1 h2, ih]; rfl
  | @short c x s hc _ ih =>
    rw [List.cons_append, List.cons_append, rawString_short (by rintro rfl; exact short_not_u hc), ih, escaped_iff.2 hc]; rfl
  | hex hn _ ih =>
    simp only [List.cons_append]
    rw [rawString_hex, ih, hex4_iff.2 hn]; rfl

theorem raw_only (s : Str) : ∀ r t, rawString s = some (r, t) → Raw r ∧ s = r ++ '"' :: t := by
  fun_induction rawString s with
  | case1 => intro r t h; cases h
  | case2 s => intro r t h; cases h; exact ⟨.nil, rfl⟩
  | case3 a b c d s hx ih =>
    intro r t h
    obtain ⟨n, hn⟩ := Option.isSome_iff_exists.1 hx
    obtain ⟨p, hp, he⟩ := Option.map_eq_some_iff.1 h
    cases he
    obtain ⟨h1, h2⟩ := ih p.1 p.2 hp
    exact ⟨.hex (hex4_iff.1 hn) h1, by rw [h2]; rfl⟩
  | case4 => intro r t h; cases h
  | case5 c s hu hx ih =>
    intro r t h
    obtain ⟨n, hn⟩ := Option.isSome_iff_exists.1 hx
    obtain ⟨p, hp, he⟩ := Option.map_eq_some_iff.1 h
    cases he
    obtain ⟨h1, h2⟩ := ih p.1 p.2 hp
    exact ⟨.short (escaped_iff.1 hn) h1, by rw [h2]; rfl⟩
  | case6 => intro r t h; cases h
  | case7 => intro r t h; cases h
  | case8 => intro r t h; cases h
  | case9 c s h1 h2 h3 h4 h5 ih =>
    intro r t h
    obtain ⟨p, hp, he⟩ := Option.map_eq_some_iff.1 h
    cases he
    obtain ⟨g1, g2⟩ := ih p.1 p.2 hp
    refine ⟨.plain (by omega) (by simpa using h1) ?_ g1, by rw [g2]; rfl⟩
    rintro rfl
    cases s with
    | nil => exact h4 rfl rfl
    | cons c s => exact h3 c s rfl rfl

end Prexel.Json
