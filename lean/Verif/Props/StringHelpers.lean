import Verif.Model.Text

/-!
# The string helpers (C127)
-/
namespace Prexel

/-- C127: `eq_char` and `single_char` hold exactly of the text that consists of the character. -/
theorem C127_single (s : Str) (c : Char) : (eqChar s c = true ↔ s = [c]) ∧ (singleChar s = some c ↔ s = [c]) := by
  constructor
  · rcases s with _ | ⟨a, _ | ⟨b, s⟩⟩ <;> simp [eqChar]
  · rcases s with _ | ⟨a, _ | ⟨b, s⟩⟩ <;> simp [singleChar]

theorem sentenceLoop_done (alnum : Char → Bool) (s : Str) : sentenceLoop alnum true s = s.map asciiLower := by
  induction s with
  | nil => rfl
  | cons c s ih => simp [sentenceLoop, ih]

open Classical in
/-- C127: `to_sentence_case` writes the first letter or digit in capitals and everything else in small letters. -/
theorem C127_sentence (alnum : Char → Bool) (s : Str) (i : Nat) :
    (toSentenceCase alnum s)[i]? = s[i]?.map fun c =>
      if alnum c = true ∧ (∀ j d, j < i → s[j]? = some d → alnum d = false) then asciiUpper c else asciiLower c := by
  unfold toSentenceCase
  induction s generalizing i with
  | nil => simp [sentenceLoop]
  | cons c s ih =>
    by_cases h : alnum c = true
    · simp only [sentenceLoop, Bool.not_false, Bool.true_and, h, if_true, sentenceLoop_done]
      cases i with
      | zero => simp [h]
      | succ i =>
        have : ¬ ∀ (j : Nat) (d : Char), j < i + 1 → (c :: s)[j]? = some d → alnum d = false := fun hh => by
          have := hh 0 c (by omega) rfl
          rw [h] at this; cases this
        simp only [List.getElem?_cons_succ, this, and_false, if_false, List.getElem?_map]
    · simp only [sentenceLoop, h, Bool.and_false, Bool.false_eq_true, if_false]
      cases i with
      | zero => simp [h]
      | succ i =>
        rw [List.getElem?_cons_succ, ih i, List.getElem?_cons_succ]
        congr 1
        funext x
        have : (∀ (j : Nat) (d : Char), j < i → s[j]? = some d → alnum d = false) ↔
            ∀ (j : Nat) (d : Char), j < i + 1 → (c :: s)[j]? = some d → alnum d = false := by
          constructor
          · intro hh j d hj hd
            cases j with
            | zero => simp only [List.getElem?_cons_zero, Option.some.injEq] at hd; subst hd; simpa using h
            | succ j => exact hh j d (by omega) (by simpa using hd)
          · intro hh j d hj hd
            exact hh (j + 1) d (by omega) (by simpa using hd)
        rw [this]

theorem lower_space (c : Char) (h : isWhitespace c = true) : asciiLower c = c := by
  unfold asciiLower
  rw [if_neg]
  intro hc
  simp [isWhitespace] at h
  omega

/-- The position `i` of `s` is in the first part of a word: no letter or digit stands between it and the last white space before it (or the start). -/
def FirstOfWord (alnum : Char → Bool) (s : Str) (i : Nat) : Prop :=
  ∀ j d, j < i → s[j]? = some d → alnum d = true → ∃ k e, j < k ∧ k < i ∧ s[k]? = some e ∧ isWhitespace e = true

open Classical in
/-- C127: `to_capital_case` writes the first letter or digit of each word in capitals, and everything else in small letters. Words are separated by
white space. White space is no letter or digit. -/
theorem C127_capital (alnum : Char → Bool) (hw : ∀ c, isWhitespace c = true → alnum c = false) (s : Str) (i : Nat) :
    (toCapitalCase alnum s)[i]? = s[i]?.map fun c => if alnum c = true ∧ FirstOfWord alnum s i then asciiUpper c else asciiLower c := by
  -- the flag: whether the last letter or digit is behind white space
  have key : ∀ (s : Str) (b : Bool) (i : Nat), (capitalLoop alnum b s)[i]? = s[i]?.map fun c =>
      if alnum c = true ∧ (FirstOfWord alnum s i ∧ (b = true ∨ ∃ k e, k < i ∧ s[k]? = some e ∧ isWhitespace e = true)) then asciiUpper c
      else asciiLower c := by
    intro s
    induction s with
    | nil => simp [capitalLoop]
    | cons c s ih =>
      intro b i
      have first : ∀ i, FirstOfWord alnum (c :: s) (i + 1) ↔
          FirstOfWord alnum s i ∧ (alnum c = true → ∃ k e, k < i ∧ s[k]? = some e ∧ isWhitespace e = true) := by
        intro i
        constructor
        · intro h
          refine ⟨fun j d hj hd ha => ?_, fun ha => ?_⟩
          · obtain ⟨k, e, h1, h2, h3, h4⟩ := h (j + 1) d (by omega) (by simpa using hd) ha
            obtain ⟨k, rfl⟩ : ∃ m, k = m + 1 := ⟨k - 1, by omega⟩
            exact ⟨k, e, by omega, by omega, by simpa using h3, h4⟩
          · obtain ⟨k, e, h1, h2, h3, h4⟩ := h 0 c (by omega) rfl ha
            obtain ⟨k, rfl⟩ : ∃ m, k = m + 1 := ⟨k - 1, by omega⟩
            exact ⟨k, e, by omega, by simpa using h3, h4⟩
        · intro ⟨h, h'⟩ j d hj hd ha
          cases j with
          | zero =>
            simp only [List.getElem?_cons_zero, Option.some.injEq] at hd
            subst hd
            obtain ⟨k, e, h1, h2, h3⟩ := h' ha
            exact ⟨k + 1, e, by omega, by omega, by simpa using h2, h3⟩
          | succ j =>
            obtain ⟨k, e, h1, h2, h3, h4⟩ := h j d (by omega) (by simpa using hd) ha
            exact ⟨k + 1, e, by omega, by omega, by simpa using h3, h4⟩
      have space : ∀ i, (∃ k e, k < i + 1 ∧ (c :: s)[k]? = some e ∧ isWhitespace e = true) ↔
          isWhitespace c = true ∨ ∃ k e, k < i ∧ s[k]? = some e ∧ isWhitespace e = true := by
        intro i
        constructor
        · rintro ⟨k, e, h1, h2, h3⟩
          cases k with
          | zero => simp only [List.getElem?_cons_zero, Option.some.injEq] at h2; subst h2; exact .inl h3
          | succ k => exact .inr ⟨k, e, by omega, by simpa using h2, h3⟩
        · rintro (h | ⟨k, e, h1, h2, h3⟩)
          · exact ⟨0, c, by omega, rfl, h⟩
          · exact ⟨k + 1, e, by omega, by simpa using h2, h3⟩
      have zero : FirstOfWord alnum (c :: s) 0 := fun j d hj => absurd hj (by omega)
      by_cases h1 : (b && alnum c) = true
      · simp only [capitalLoop, h1, if_true]
        simp only [Bool.and_eq_true] at h1
        cases i with
        | zero => simp [h1, zero]
        | succ i =>
          rw [List.getElem?_cons_succ, ih, List.getElem?_cons_succ]
          congr 1
          funext x
          have hc : isWhitespace c = false := by
            cases e : isWhitespace c with
            | false => rfl
            | true => rw [hw c e] at h1; simp at h1
          simp only [first, space, h1, hc, Bool.false_eq_true, false_or, true_or, and_true, true_imp_iff]
      · simp only [capitalLoop, h1, Bool.false_eq_true, if_false]
        by_cases h2 : isWhitespace c = true
        · simp only [h2, if_true]
          cases i with
          | zero => simp [hw c h2, lower_space c h2]
          | succ i =>
            rw [List.getElem?_cons_succ, ih, List.getElem?_cons_succ]
            congr 1
            funext x
            simp only [first, space, hw c h2, h2, Bool.false_eq_true, false_imp_iff, and_true, true_or, or_true]
        · simp only [h2, Bool.false_eq_true, if_false]
          cases i with
          | zero =>
            simp only [List.getElem?_cons_zero, Option.map_some, Option.some.injEq]
            rw [if_neg]
            rintro ⟨ha, -, hb | ⟨k, _, hk, _⟩⟩
            · simp [ha, hb] at h1
            · omega
          | succ i =>
            rw [List.getElem?_cons_succ, ih, List.getElem?_cons_succ]
            congr 1
            funext x
            simp only [first, space, h2, Bool.false_eq_true, false_or]
            by_cases ha : alnum c = true
            · have hb : b = false := by simpa [ha] using h1
              simp only [ha, hb, Bool.false_eq_true, false_or, true_imp_iff]
              congr 1
              simp only [eq_iff_iff]
              exact ⟨fun ⟨a, b, c⟩ => ⟨a, ⟨b, c⟩, c⟩, fun ⟨a, ⟨b, _⟩, c⟩ => ⟨a, b, c⟩⟩
            · simp only [ha, Bool.false_eq_true, false_imp_iff, and_true]
  unfold toCapitalCase
  rw [key]
  congr 1
  funext x
  simp

/-- The letters and digits of ASCII. -/
def Demo.alnum (c : Char) : Bool := isLetter c || isDigit c

example : toSentenceCase Demo.alnum (str "  hELLO world") = str "  Hello world" ∧ toCapitalCase Demo.alnum (str " hELLO \"wORLD\"") = str " Hello \"World\"" := by
  decide

end Prexel
