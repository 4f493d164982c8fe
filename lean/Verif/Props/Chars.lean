import Verif.Spec.Chars
import Verif.Spec.History
import Verif.Model.Text
/-!
# C29, C127, C18: which characters are white space, control characters, letters and digits
-/

namespace Prexel

/-- C29. The white space of the model (the property White_Space) and its control characters (the category Cc) are the listed ones; a name is valid exactly if it
is not empty and contains none of them. -/
theorem C29_characters : (∀ c : Char, isWhitespace c = true ↔ WhiteSpace c) ∧ (∀ c : Char, isControl c = true ↔ Control c) ∧
    ∀ name : Str, ValidName name ↔ name ≠ [] ∧ ∀ c ∈ name, ¬ WhiteSpace c ∧ ¬ Control c := by
  have hw : ∀ c : Char, isWhitespace c = true ↔ WhiteSpace c := by
    intro c
    simp only [isWhitespace, WhiteSpace, whiteSpaceCodes, Bool.or_eq_true, Bool.and_eq_true, decide_eq_true_eq, beq_iff_eq, List.mem_cons, List.not_mem_nil, or_false]
    omega
  have hc : ∀ c : Char, isControl c = true ↔ Control c := by
    intro c
    simp only [isControl, Control, controlCodes, Bool.or_eq_true, Bool.and_eq_true, decide_eq_true_eq, List.mem_append, List.mem_range, List.mem_range'_1,
      List.mem_cons, List.not_mem_nil, or_false]
    omega
  refine ⟨hw, hc, fun name => ?_⟩
  unfold ValidName
  simp only [← hw, ← hc, Bool.not_eq_true]

example : ¬ ValidName ['a', Char.ofNat 31] ∧ ¬ ValidName ['a', Char.ofNat 0x2009, 'b'] ∧ ValidName (str "sum") :=
  ⟨fun h => ((C29_characters.2.2 _).1 h).2 (Char.ofNat 31) (by simp) |>.2 (by unfold Control; decide), fun h => ((C29_characters.2.2 _).1 h).2 (Char.ofNat 0x2009) (by simp) |>.1 (by unfold WhiteSpace; decide),
    (C29_characters.2.2 _).2 ⟨by decide, by simp only [WhiteSpace, Control]; decide⟩⟩

theorem char_of_toNat {c d : Char} (h : c.toNat = d.toNat) : c = d := by
  rw [← Char.ofNat_toNat c, h, Char.ofNat_toNat]

theorem mem_of_code {c : Char} {l : List Char} (h : c.toNat ∈ l.map Char.toNat) : c ∈ l := by
  obtain ⟨d, hd, h⟩ := List.mem_map.1 h
  exact char_of_toNat h ▸ hd

theorem small_iff (c : Char) : c ∈ smallLetters ↔ 97 ≤ c.toNat ∧ c.toNat ≤ 122 := by
  constructor
  · have : ∀ c ∈ smallLetters, 97 ≤ c.toNat ∧ c.toNat ≤ 122 := by decide
    exact this c
  · intro h
    refine mem_of_code ?_
    rw [show smallLetters.map Char.toNat = List.range' 97 26 by decide, List.mem_range'_1]
    omega

theorem capital_iff (c : Char) : c ∈ capitalLetters ↔ 65 ≤ c.toNat ∧ c.toNat ≤ 90 := by
  constructor
  · have : ∀ c ∈ capitalLetters, 65 ≤ c.toNat ∧ c.toNat ≤ 90 := by decide
    exact this c
  · intro h
    refine mem_of_code ?_
    rw [show capitalLetters.map Char.toNat = List.range' 65 26 by decide, List.mem_range'_1]
    omega

/-- C127 (and C28): the capital of the n-th small letter is the n-th capital letter and conversely; all other characters stay. -/
theorem C127_letters : smallLetters.map asciiUpper = capitalLetters ∧ capitalLetters.map asciiLower = smallLetters ∧
    (∀ c, c ∉ smallLetters → asciiUpper c = c) ∧ ∀ c, c ∉ capitalLetters → asciiLower c = c := by
  refine ⟨by decide, by decide, fun c h => ?_, fun c h => ?_⟩
  · rw [small_iff] at h
    rw [asciiUpper, if_neg h]
  · rw [capital_iff] at h
    rw [asciiLower, if_neg h]

/-- C18: the letters and digits of the splitter are the ASCII letters and digits. -/
theorem C18_characters (c : Char) : (isLetter c = true ↔ c ∈ smallLetters ∨ c ∈ capitalLetters) ∧ (isDigit c = true ↔ c ∈ digitChars) := by
  have hle : ∀ a b : Char, a ≤ b ↔ a.toNat ≤ b.toNat := fun a b => Iff.rfl
  constructor
  · rw [small_iff, capital_iff]
    simp only [isLetter, Bool.or_eq_true, Bool.and_eq_true, decide_eq_true_eq, hle]
    exact Iff.rfl
  · simp only [isDigit, Bool.and_eq_true, decide_eq_true_eq, hle]
    constructor
    · intro h
      refine mem_of_code ?_
      rw [show digitChars.map Char.toNat = List.range' 48 10 by decide, List.mem_range'_1]
      exact ⟨h.1, Nat.lt_succ_of_le h.2⟩
    · have : ∀ c ∈ digitChars, '0'.toNat ≤ c.toNat ∧ c.toNat ≤ '9'.toNat := by decide
      exact this c

/-- C21: the punctuation behind which a sign can stand. -/
theorem C21_characters (c : Char) : isAsciiPunctuation c = true ↔ c ∈ punctuation := by
  simp only [isAsciiPunctuation, Bool.or_eq_true, Bool.and_eq_true, decide_eq_true_eq]
  constructor
  · intro h
    refine mem_of_code ?_
    rw [show punctuation.map Char.toNat = List.range' 33 15 ++ List.range' 58 7 ++ List.range' 91 6 ++ List.range' 123 4 by decide]
    simp only [List.mem_append, List.mem_range'_1]
    omega
  · have : ∀ c ∈ punctuation, ((33 ≤ c.toNat ∧ c.toNat ≤ 47 ∨ 58 ≤ c.toNat ∧ c.toNat ≤ 64) ∨ 91 ≤ c.toNat ∧ c.toNat ≤ 96) ∨ 123 ≤ c.toNat ∧ c.toNat ≤ 126 := by decide
    exact this c

end Prexel
