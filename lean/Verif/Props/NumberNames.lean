import Verif.Props.Literals
/-!
# Variables by their names, and names that are numbers (C134)
-/

set_option linter.unusedVariables false

namespace Prexel
open B64
variable {N : Type}

/-- A letter, then letters, digits and underscores. -/
def Identifier (s : Str) : Prop :=
  ∃ c r, s = c :: r ∧ (('a' ≤ c ∧ c ≤ 'z') ∨ ('A' ≤ c ∧ c ≤ 'Z')) ∧
    ∀ x ∈ r, (('a' ≤ x ∧ x ≤ 'z') ∨ ('A' ≤ x ∧ x ≤ 'Z')) ∨ ('0' ≤ x ∧ x ≤ '9') ∨ x = '_'

theorem split_identifier {rules : List Rule} (hr : PlainRules rules) {s : Str} (h : Identifier s) : split rules s = [s] := by
  obtain ⟨c, r, rfl, hc, hall⟩ := h
  have : (r.takeWhile fun x => isLetter x || isDigit x || x == '_') = r := takeWhile_every r _ fun x hx => by
    rcases hall x hx with h | h | h
    · simp [isLetter_iff.2 h]
    · simp [isDigit_iff.2 h]
    · simp [h]
  rw [split_cons, hr.letter c r (isLetter_iff.2 hc), this]
  simp

/-- The text of an identifier that is not a number and that is bound to a value evaluates to the value. -/
theorem eval_identifier (parse : Str → Option N) {rules : List Rule} (hr : PlainRules rules) (ctx : Ctx N) {s : Str} (h : Identifier s)
    (hp : parse s = none) {v : N} (hv : ctx.getVariable s = some v) : eval parse (split rules) ctx s = .ok v := by
  have hsplit := split_identifier hr h
  obtain ⟨c, r, rfl, hc, hall⟩ := h
  have hw : isWhitespace c = false := by
    rw [Bool.eq_false_iff]
    intro hw
    have := isLetter_iff.2 hc
    rw [ws_not_letter hw] at this
    cases this
  have hb : (c :: r).all isWhitespace = false := notBlank_of hw
  have hvar : ctx.isVariable (c :: r) = true := by simp [Ctx.isVariable, hv]
  simp only [eval, tokenize, hb, Bool.false_eq_true, if_false, hsplit, tokenizeLoop, hp, hvar, if_true, Res.bind_ok]
  have := C01_eval_eq_denote ctx (.atom (.var (c :: r))) (by simp [Expr.WF])
  simpa [Expr.render, Expr.denote, Atom.token, Atom.denote, Res.ofOption, hv] using this

theorem parse_identifier (w : Width) {s : Str} (h : Identifier s) : SInt.parse w s = none := by
  obtain ⟨c, r, rfl, hc, hall⟩ := h
  have hl := isLetter_iff.2 hc
  have hd := (letter_not_digit hl).1
  have h1 : c ≠ '+' := by rintro rfl; revert hl; decide
  have h2 : c ≠ '-' := by rintro rfl; revert hl; decide
  have : SInt.parse w (c :: r) = SInt.signed w 10 false (c :: r) := by
    unfold SInt.parse SInt.fromStrRadix
    split
    · rename_i heq; injection heq with h _; exact absurd h h1
    · rename_i heq; injection heq with h _; exact absurd h h2
    · rfl
  have hdig : SInt.digit 10 c = none := by
    unfold SInt.digit
    rw [if_neg]
    rw [Bool.eq_false_iff, ne_eq, isDigit_iff] at hd
    simp only [Char.le_def, UInt32.le_iff_toNat_le] at hd
    simp at hd
    rintro ⟨h3, h4⟩
    exact absurd (hd h3) (by omega)
  rw [this]
  simp [SInt.signed, SInt.digits, hdig]

/-- C134 for integers of every width: the text of an identifier that is bound to a value evaluates to the value, in every context. -/
theorem C134_integers (w : Width) {rules : List Rule} (hr : rules = defaultRules ∨ rules = replRules false) (ctx : Ctx (SInt w)) {s : Str} (h : Identifier s)
    {v : SInt w} (hv : ctx.getVariable s = some v) : eval (SInt.parse w) (split rules) ctx s = .ok v :=
  eval_identifier _ (plain_of hr) ctx h (parse_identifier w h) hv

/-- The words that `f64::from_str` reads. -/
def numberNames : List Str := [str "nan", str "inf", str "infinity"]

theorem fromStr_identifier {s : Str} (h : Identifier s) :
    (s.map Char.toLower ∈ numberNames → ∃ x, fromStr s = some x ∧ ¬ x.isFin) ∧ (s.map Char.toLower ∉ numberNames → fromStr s = none) := by
  obtain ⟨c, r, rfl, hc, hall⟩ := h
  have hl := isLetter_iff.2 hc
  have hd := (letter_not_digit hl).1
  have h1 : c ≠ '+' := by rintro rfl; revert hl; decide
  have h2 : c ≠ '-' := by rintro rfl; revert hl; decide
  have h3 : c ≠ '.' := by rintro rfl; revert hl; decide
  have hu : fromStr (c :: r) = unsigned false (c :: r) := by
    unfold fromStr
    split
    · rename_i heq; injection heq with h _; exact absurd h h2
    · rename_i heq; injection heq with h _; exact absurd h h1
    · rfl
  have hnum : numberOf (c :: r) = none := by
    have e1 : (c :: r).takeWhile isDigit = [] := by rw [List.takeWhile_cons, hd]; rfl
    have e2 : (c :: r).dropWhile isDigit = c :: r := by rw [List.dropWhile_cons, hd]; rfl
    have e3 : fractionOf (c :: r) = ([], c :: r) := by
      unfold fractionOf
      split
      · rename_i heq; injection heq with h _; exact absurd h h3
      · rfl
    unfold numberOf
    rw [e1, e2, e3]
    simp
  rw [hu]
  unfold unsigned
  simp only [numberNames, List.mem_cons, List.not_mem_nil, or_false, hnum, Option.map_none]
  constructor
  · rintro (h | h | h)
    · exact ⟨.nan, by rw [if_pos h], fun hf => by cases hf.1⟩
    · exact ⟨.inf false, by rw [h, if_neg (by decide), if_pos (.inl rfl)], fun hf => by cases hf.2⟩
    · exact ⟨.inf false, by rw [h, if_neg (by decide), if_pos (.inr rfl)], fun hf => by cases hf.2⟩
  · intro h
    rw [not_or] at h
    rw [if_neg h.1, if_neg h.2]

/-- C134 for floats, the part that holds: the names `nan`, `inf` and `infinity`, in any case, are missing. -/
theorem C134_floats_partial {rules : List Rule} (hr : rules = defaultRules ∨ rules = replRules false) (ctx : Ctx B64) {s : Str} (h : Identifier s)
    (hs : s.map Char.toLower ∉ numberNames) {v : B64} (hv : ctx.getVariable s = some v) : eval fromStr (split rules) ctx s = .ok v :=
  eval_identifier _ (plain_of hr) ctx h ((fromStr_identifier h).2 hs) hv

/-- C134 fails over floats for each of these names: whatever is registered under it, and in every context, it is infinite or not a number. -/
theorem C134_floats_counterexample {rules : List Rule} (hr : rules = defaultRules ∨ rules = replRules false) (ctx : Ctx B64) {s : Str}
    (hs : s.map Char.toLower ∈ numberNames) : ∃ x, eval fromStr (split rules) ctx s = .ok x ∧ ¬ x.isFin := by
  have letters : ∀ c ∈ s, ('a' ≤ c ∧ c ≤ 'z') ∨ ('A' ≤ c ∧ c ≤ 'Z') := by
    intro c hc
    have h1 : c.toLower ∈ s.map Char.toLower := List.mem_map_of_mem hc
    have h2 : 'a' ≤ c.toLower ∧ c.toLower ≤ 'z' := by
      have key : ∀ w ∈ numberNames, ∀ x ∈ w, 'a' ≤ x ∧ x ≤ 'z' := by decide
      exact key _ hs _ h1
    by_cases hup : 'A' ≤ c ∧ c ≤ 'Z'
    · exact .inr hup
    · left
      have : c.toLower = c := by
        unfold Char.toLower
        rw [dif_neg]
        intro hh
        apply hup
        constructor
        · exact hh.1
        · exact hh.2
      rwa [this] at h2
  have hne : s ≠ [] := by rintro rfl; revert hs; decide
  have hid : Identifier s := by
    cases s with
    | nil => exact absurd rfl hne
    | cons c r => exact ⟨c, r, rfl, letters c (by simp), fun x hx => .inl (letters x (by simp [hx]))⟩
  obtain ⟨x, hx, hf⟩ := (fromStr_identifier hid).1 hs
  exact ⟨x, eval_word _ (plain_of hr) ctx (.letters hne letters) hx, hf⟩

/-- C134 fails over binary numbers for names such as `b1`: the variable is set, and the name is read as the number 1. -/
theorem C134_binary_counterexample :
    (Demo.world true).evalExpression (Demo.request .binary "b1" [("b1", "12")]) = .result (str "1") ∧
    (Demo.world true).evalExpression (Demo.request .binary "c1" [("c1", "12")]) = .result (str "1100") := by
  constructor <;> decide +kernel

/-- The hypotheses hold for `speed_2` in a context with this variable; and `Inf` is one of the missing names. -/
example : Identifier (str "speed_2") ∧ (str "speed_2").map Char.toLower ∉ numberNames ∧ (str "Inf").map Char.toLower ∈ numberNames := by
  refine ⟨⟨'s', str "peed_2", rfl, by decide, by decide⟩, by decide, by decide⟩

end Prexel
