import Verif.Props.ReadBack
/-!
# Which texts are integers (C137)
-/

namespace Prexel

/-- The texts of integers: one or more digits, with a plus or a minus sign before them or without. -/
inductive IntegerText : Str → Int → Prop
  | plain {d : Str} (h : Digits d) : IntegerText d (digitsValue d)
  | plus {d : Str} (h : Digits d) : IntegerText ('+' :: d) (digitsValue d)
  | minus {d : Str} (h : Digits d) : IntegerText ('-' :: d) (-(digitsValue d : Int))

theorem digits_iff (acc : Nat) (s : Str) (n : Nat) (h : SInt.digits 10 acc s = some n) : ∀ c ∈ s, isDigit c = true := by
  induction s generalizing acc with
  | nil => intro c hc; cases hc
  | cons c s ih =>
    simp only [SInt.digits] at h
    cases hd : SInt.digit 10 c with
    | none => rw [hd] at h; cases h
    | some d =>
      rw [hd] at h
      intro x hx
      rcases List.mem_cons.1 hx with rfl | hx
      · unfold SInt.digit at hd
        split at hd
        · rename_i hr
          rw [isDigit_iff]
          simp only [Char.le_def, UInt32.le_iff_toNat_le]
          simp
          omega
        · cases hd
      · exact ih _ h x hx

theorem signed_iff (w : Width) (neg : Bool) (s : Str) (x : SInt w) :
    SInt.signed w 10 neg s = some x ↔ Digits s ∧ x.1 = if neg then -(digitsValue s : Int) else digitsValue s := by
  unfold SInt.signed
  constructor
  · intro h
    split at h
    · cases h
    · rename_i hne
      cases hd : SInt.digits 10 0 s with
      | none => rw [hd] at h; cases h
      | some n =>
        rw [hd] at h
        have hall := digits_iff 0 s n hd
        rw [digits_value 0 s hall] at hd
        have hn : digitsValue s = n := by simpa [digitsValue] using hd
        refine ⟨⟨hne, fun c hc => isDigit_iff.1 (hall c hc)⟩, ?_⟩
        rw [hn]
        change SInt.of? (if neg then -(n : Int) else n) = some x at h
        generalize (if neg then -(n : Int) else n) = v at h
        simp only [SInt.of?] at h
        split at h
        · injection h with h; rw [← h]
        · cases h
  · rintro ⟨hs, hx⟩
    rw [if_neg hs.1, digits_value 0 s fun c hc => isDigit_iff.2 (hs.2 c hc)]
    show SInt.of? (if neg then -(digitsValue s : Int) else digitsValue s) = some x
    rw [← hx]
    exact of?_val x

/-- C137 for values. A text is read as an integer, as the value of a variable, exactly if it consists of digits with a sign or without and the
number fits; it is read as that number. -/
theorem C137_values {D F T : Type} (W : World D F T) (s : Str) (x : SInt i128) : W.integerBackend.readVariable s = some x ↔ IntegerText s x.1 := by
  show SInt.fromStrRadix i128 10 s = some x ↔ _
  have digit_ne : ∀ {c : Char} {r : Str}, Digits (c :: r) → c ≠ '+' ∧ c ≠ '-' := by
    intro c r h
    have hc := h.2 c (by simp)
    exact ⟨by rintro rfl; revert hc; decide, by rintro rfl; revert hc; decide⟩
  unfold SInt.fromStrRadix
  split
  · rename_i r
    rw [signed_iff]
    constructor
    · rintro ⟨h1, h2⟩; rw [h2]; exact .plus h1
    · intro h
      generalize ht : '+' :: r = t at h
      generalize hv : x.1 = v at h
      cases h with
      | plain h => rw [← ht] at h; exact absurd rfl (digit_ne h).1
      | plus h => injection ht with _ ht; subst ht; exact ⟨h, by simp⟩
      | minus h => injection ht with ht _; exact absurd ht (by decide)
  · rename_i r
    rw [signed_iff]
    constructor
    · rintro ⟨h1, h2⟩; rw [h2]; exact .minus h1
    · intro h
      generalize ht : '-' :: r = t at h
      generalize hv : x.1 = v at h
      cases h with
      | plain h => rw [← ht] at h; exact absurd rfl (digit_ne h).2
      | plus h => injection ht with ht _; exact absurd ht (by decide)
      | minus h => injection ht with _ ht; subst ht; exact ⟨h, by simp⟩
  · rename_i h1 h2
    rw [signed_iff]
    constructor
    · rintro ⟨h1, h2⟩; rw [h2]; exact .plain h1
    · intro h
      generalize hv : x.1 = v at h
      cases h with
      | plain h => exact ⟨h, by simp⟩
      | plus h => exact absurd rfl (h1 _)
      | minus h => exact absurd rfl (h2 _)

/-- C137 for literals. Digits evaluate to the number they stand for, in every width and context; if the number does not fit and nothing has this name,
they are refused: the number never wraps. -/
theorem C137_literal (w : Width) {rules : List Rule} (hr : rules = defaultRules ∨ rules = replRules false) (ctx : Ctx (SInt w)) {s : Str} (h : Digits s) :
    (∀ hf : w.Fits (digitsValue s), eval (SInt.parse w) (split rules) ctx s = .ok ⟨digitsValue s, hf⟩) ∧
    (¬ w.Fits (digitsValue s) → (∀ look ∈ [ctx.isVariable, ctx.isConstant, ctx.isFunction, ctx.isBinary, ctx.isUnary], look s = false) →
      eval (SInt.parse w) (split rules) ctx s = .err .invalidInput) := by
  have hp := parse_digits w h
  constructor
  · intro hf
    refine eval_word _ (plain_of hr) ctx (.numeral (.whole h)) ?_
    rw [hp]
    simp [SInt.of?, hf]
  · intro hf hl
    have hp' : SInt.parse w s = none := by rw [hp]; simp [SInt.of?, hf]
    simp only [List.mem_cons, List.not_mem_nil, or_false, forall_eq_or_imp, forall_eq] at hl
    obtain ⟨l1, l2, l3, l4, l5⟩ := hl
    have hsplit := split_numberWord (plain_of hr) (.numeral (.whole h))
    obtain ⟨hne, hd⟩ := h
    have hother : otherToken ctx s = some (.unknown s) := by
      cases s with
      | nil => exact absurd rfl hne
      | cons c r =>
        have hc := hd c (by simp)
        have n1 : c ≠ ',' := by rintro rfl; revert hc; decide
        have n2 : c ≠ ' ' := by rintro rfl; revert hc; decide
        have n3 : Grouping.new c = none := by
          unfold Grouping.new
          rw [if_neg, if_neg, if_neg]
          all_goals rintro (rfl | rfl) <;> revert hc <;> decide
        cases r with
        | nil => simp [otherToken, n1, n2, Config.getGroupSymbol, n3]
        | cons d r => simp [otherToken]
    have hb : s.all isWhitespace = false := by
      cases s with
      | nil => exact absurd rfl hne
      | cons c r =>
        apply notBlank_of
        rw [Bool.eq_false_iff]
        intro hw
        have := isDigit_iff.2 (hd c (by simp))
        rw [ws_not_digit hw] at this
        cases this
    simp only [eval, tokenize, hb, Bool.false_eq_true, if_false, hsplit, tokenizeLoop, hp', l1, l2, l3, l4, l5, Bool.or_self, hother, Res.bind_ok]
    simp [evalTokens, infixToRpn, syLoop, syStep, dispatch]

/-- `+12` and `-12` are values; `1x`, `+` and the empty text are not. Over `i64` the largest number is 9223372036854775807, the next is refused. -/
example : IntegerText (str "+12") 12 ∧ IntegerText (str "-12") (-12) ∧ Digits (str "9223372036854775808") ∧ ¬ i64.Fits (digitsValue (str "9223372036854775808")) ∧
    SInt.parse i128 (str "1x") = none ∧ SInt.parse i128 (str "+") = none ∧ SInt.parse i128 (str "") = none := by
  refine ⟨.plus (d := str "12") ⟨by decide, by decide⟩, .minus (d := str "12") ⟨by decide, by decide⟩, ⟨by decide, by decide⟩, by decide +kernel, by decide, by decide, by decide⟩

end Prexel
