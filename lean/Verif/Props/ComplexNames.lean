import Verif.Props.ComplexDoubles
import Verif.Props.NumberNames
/-!
# Names that are complex numbers (C134)
-/

set_option linter.unusedVariables false

namespace Prexel
open B64

/-- The names that are read as complex numbers: `i` and `j`; `nan`, `inf` and `infinity` in any case, alone or followed by `i` or `j`. -/
def ComplexName (s : Str) : Prop :=
  s = ['i'] ∨ s = ['j'] ∨ ∃ w, w.map Char.toLower ∈ numberNames ∧ (s = w ∨ s = w ++ ['i'] ∨ s = w ++ ['j'])

theorem identifier_free {s : Str} (h : Identifier s) {c : Char} (h1 : isLetter c = false) (h2 : isDigit c = false) (h3 : c ≠ '_') : c ∉ s := by
  obtain ⟨d, r, rfl, hd, hr⟩ := h
  intro hc
  have key : ((('a' ≤ c ∧ c ≤ 'z') ∨ ('A' ≤ c ∧ c ≤ 'Z')) ∨ ('0' ≤ c ∧ c ≤ '9') ∨ c = '_') := by
    rcases List.mem_cons.1 hc with rfl | hc
    · exact .inl hd
    · exact hr c hc
  rcases key with h | h | h
  · rw [isLetter_iff.2 h] at h1; cases h1
  · rw [isDigit_iff.2 h] at h2; cases h2
  · exact h3 h

theorem identifier_init {s : Str} {c : Char} (h : Identifier (s ++ [c])) (hne : s ≠ []) : Identifier s := by
  obtain ⟨d, r, e, hd, hr⟩ := h
  cases s with
  | nil => exact absurd rfl hne
  | cons a s =>
    rw [List.cons_append] at e
    injection e with e1 e2
    exact ⟨a, s, rfl, e1 ▸ hd, fun x hx => hr x (by rw [← e2]; simp [hx])⟩

/-- Which identifiers are read as complex numbers. -/
theorem read_identifier {s : Str} (h : Identifier s) (hs : ¬ ComplexName s) : C64.read s = none := by
  have hplus := identifier_free h (c := '+') (by decide) (by decide) (by decide)
  have hdash := identifier_free h (c := '-') (by decide) (by decide) (by decide)
  rw [C64.read_plain ⟨hplus, hdash⟩]
  have hcn : s.map Char.toLower ∉ numberNames := fun hm => hs (.inr (.inr ⟨s, hm, .inl rfl⟩))
  generalize hd : (if 'j' ∈ s then 'j' else 'i') = d
  by_cases hl : s.getLast? = some d
  · rw [if_pos hl]
    have hdd : d = 'i' ∨ d = 'j' := by rw [← hd]; split <;> simp
    obtain ⟨w, rfl⟩ : ∃ w, s = w ++ [d] := by
      rw [List.getLast?_eq_some_iff] at hl
      exact hl
    have hw : w ≠ [] := by
      rintro rfl
      rcases hdd with rfl | rfl
      · exact hs (.inl rfl)
      · exact hs (.inr (.inl rfl))
    have hwn : w.map Char.toLower ∉ numberNames := by
      intro hm
      refine hs (.inr (.inr ⟨w, hm, .inr ?_⟩))
      rcases hdd with rfl | rfl
      · exact .inl rfl
      · exact .inr rfl
    have e1 : w ≠ ['+'] := by rintro rfl; exact hplus (by simp)
    have e2 : w ≠ ['-'] := by rintro rfl; exact hdash (by simp)
    rw [List.dropLast_concat]
    have hf : C64.factor w = w := by simp [C64.factor, hw, e1, e2]
    rw [hf, (fromStr_identifier (identifier_init h hw)).2 hwn]
    rfl
  · rw [if_neg hl]
    split
    · rfl
    · rw [(fromStr_identifier h).2 hcn]; rfl

theorem letters_of_lower {w : Str} (hm : w.map Char.toLower ∈ numberNames) : w ≠ [] ∧ ∀ c ∈ w, ('a' ≤ c ∧ c ≤ 'z') ∨ ('A' ≤ c ∧ c ≤ 'Z') := by
  refine ⟨by rintro rfl; revert hm; decide, fun c hc => ?_⟩
  have h1 : c.toLower ∈ w.map Char.toLower := List.mem_map_of_mem hc
  have h2 : 'a' ≤ c.toLower ∧ c.toLower ≤ 'z' := by
    have key : ∀ w ∈ numberNames, ∀ x ∈ w, 'a' ≤ x ∧ x ≤ 'z' := by decide
    exact key _ hm _ h1
  by_cases hup : 'A' ≤ c ∧ c ≤ 'Z'
  · exact .inr hup
  · left
    have : c.toLower = c := by
      unfold Char.toLower
      rw [dif_neg]
      intro hh
      exact hup ⟨hh.1, hh.2⟩
    rwa [this] at h2

theorem name_free {w : Str} (hm : w.map Char.toLower ∈ numberNames) : 'j' ∉ w ∧ '+' ∉ w ∧ '-' ∉ w ∧ w.getLast? ≠ some 'i' := by
  have key : ∀ v ∈ numberNames, 'j' ∉ v ∧ '+' ∉ v ∧ '-' ∉ v ∧ v.getLast? ≠ some 'i' := by decide
  obtain ⟨h1, h2, h3, h4⟩ := key _ hm
  refine ⟨fun h => h1 ?_, fun h => h2 ?_, fun h => h3 ?_, fun h => h4 ?_⟩
  · exact List.mem_map.2 ⟨_, h, by decide⟩
  · exact List.mem_map.2 ⟨_, h, by decide⟩
  · exact List.mem_map.2 ⟨_, h, by decide⟩
  · rw [List.getLast?_map, h]; rfl

theorem name_number {w : Str} (hm : w.map Char.toLower ∈ numberNames) : ∃ x, fromStr w = some x ∧ ¬ x.isFin := by
  obtain ⟨hne, hl⟩ := letters_of_lower hm
  have hid : Identifier w := by
    cases w with
    | nil => exact absurd rfl hne
    | cons c r => exact ⟨c, r, rfl, hl c (by simp), fun x hx => .inl (hl x (by simp [hx]))⟩
  exact (fromStr_identifier hid).1 hm

/-- Each of these names is read as a number. -/
theorem read_complexName {s : Str} (h : ComplexName s) : NumberWord s ∧ ∃ z, C64.read s = some z ∧
    (s = ['i'] ∨ s = ['j'] → z = ⟨zero false, lit 1⟩) ∧ (s ≠ ['i'] → s ≠ ['j'] → ¬ (z.re.isFin ∧ z.im.isFin)) := by
  rcases h with rfl | rfl | ⟨w, hm, hs⟩
  · exact ⟨.letters (by decide) (by decide), _, by decide +kernel, fun _ => rfl, fun h => absurd rfl h⟩
  · exact ⟨.letters (by decide) (by decide), _, by decide +kernel, fun _ => rfl, fun _ h => absurd rfl h⟩
  · obtain ⟨hne, hl⟩ := letters_of_lower hm
    obtain ⟨f1, f2, f3, f4⟩ := name_free hm
    obtain ⟨x, hx, hfin⟩ := name_number hm
    have e1 : w ≠ ['+'] := by rintro rfl; exact f2 (by simp)
    have e2 : w ≠ ['-'] := by rintro rfl; exact f3 (by simp)
    have hf : C64.factor w = w := by simp [C64.factor, hne, e1, e2]
    rcases hs with rfl | rfl | rfl
    · have hi : s ≠ ['i'] := by rintro rfl; exact f4 rfl
      have hj : s ≠ ['j'] := by rintro rfl; exact f1 (by simp)
      refine ⟨.letters hne hl, ⟨x, zero false⟩, ?_, fun h => (h.elim hi hj).elim, fun _ _ h => hfin h.1⟩
      rw [C64.read_plain ⟨f2, f3⟩]
      simp [f1, f4, hx]
    · refine ⟨.letters (by simp) ?_, ⟨zero false, x⟩, ?_, fun h => ?_, fun _ _ h => hfin h.2⟩
      · intro c hc
        simp only [List.mem_append, List.mem_singleton] at hc
        rcases hc with hc | rfl
        · exact hl c hc
        · decide
      · rw [C64.read_plain ⟨by simp [f2], by simp [f3]⟩]
        simp [f1, hf, hx]
      · rcases h with h | h
        · exact absurd (by simpa using h) hne
        · have := congrArg List.getLast? h; simp at this
    · refine ⟨.letters (by simp) ?_, ⟨zero false, x⟩, ?_, fun h => ?_, fun _ _ h => hfin h.2⟩
      · intro c hc
        simp only [List.mem_append, List.mem_singleton] at hc
        rcases hc with hc | rfl
        · exact hl c hc
        · decide
      · rw [C64.read_plain ⟨by simp [f2], by simp [f3]⟩]
        simp [hf, hx]
      · rcases h with h | h
        · have := congrArg List.getLast? h; simp at this
        · exact absurd (by simpa using h) hne

/-- C134 for complex numbers, the part that holds. Missing: `i`, `j`, and `nan`, `inf` and `infinity` in any case, alone or followed by `i` or `j`. -/
theorem C134_complex_partial {rules : List Rule} (hr : rules = defaultRules ∨ rules = replRules false) (ctx : Ctx (Cplx B64)) {s : Str} (h : Identifier s)
    (hs : ¬ ComplexName s) {v : Cplx B64} (hv : ctx.getVariable s = some v) : eval C64.read (split rules) ctx s = .ok v :=
  eval_identifier _ (plain_of hr) ctx h (read_identifier h hs) hv

/-- C134 fails for each of these names: whatever is registered under it, and in every context, `i` and `j` are the imaginary unit and the others
have a part that is infinite or not a number. -/
theorem C134_complex_counterexample {rules : List Rule} (hr : rules = defaultRules ∨ rules = replRules false) (ctx : Ctx (Cplx B64)) {s : Str}
    (hs : ComplexName s) : ∃ z, eval C64.read (split rules) ctx s = .ok z ∧
      (s = ['i'] ∨ s = ['j'] → z = ⟨zero false, lit 1⟩) ∧ (s ≠ ['i'] → s ≠ ['j'] → ¬ (z.re.isFin ∧ z.im.isFin)) := by
  obtain ⟨hw, z, hz, h1, h2⟩ := read_complexName hs
  exact ⟨z, eval_word _ (plain_of hr) ctx hw hz, h1, h2⟩

/-- At the server: the variable `j` is set to 7, and `j` is the imaginary unit; `k` is 7. -/
example : Demo.complexWorld.evalExpression (Demo.request .complex "j" [("j", "7")]) = .result (str "0+1i") ∧
    Demo.complexWorld.evalExpression (Demo.request .complex "k" [("k", "7")]) = .result (str "7+0i") := by
  constructor <;> decide +kernel

/-- The hypotheses hold for `ji`; and `Infj` is one of the missing names. -/
example : Identifier (str "ji") ∧ C64.read (str "ji") = none ∧ ComplexName (str "Infj") :=
  ⟨⟨'j', ['i'], rfl, by decide, by decide⟩, by decide +kernel, .inr (.inr ⟨str "Inf", by decide, .inr (.inr rfl)⟩)⟩

end Prexel
