import Verif.Spec.Numerals
import Verif.Lemmas.Text
import Verif.Model.Numeric
import Verif.Lemmas.Calls

/-!
# Numbers as texts: splitting, reading and printing
-/
namespace Prexel
variable {N : Type}

theorem isDigit_iff {c : Char} : isDigit c = true ↔ '0' ≤ c ∧ c ≤ '9' := by simp [isDigit]
theorem isLetter_iff {c : Char} : isLetter c = true ↔ ('a' ≤ c ∧ c ≤ 'z') ∨ ('A' ≤ c ∧ c ≤ 'Z') := by simp [isLetter]

theorem numericLoop_digits (b : Bool) (s : Str) (h : ∀ c ∈ s, isDigit c = true) : numericLoop b s = (s, s.length) := by
  induction s with
  | nil => rfl
  | cons c s ih => simp [numericLoop, h c (by simp), ih (fun x hx => h x (by simp [hx]))]

theorem numericLoop_pointed (a b : Str) (ha : ∀ c ∈ a, isDigit c = true) (hb : ∀ c ∈ b, isDigit c = true) :
    numericLoop false (a ++ '.' :: b) = (a ++ '.' :: b, (a ++ '.' :: b).length) := by
  induction a with
  | nil => simp [numericLoop, isDigit, numericLoop_digits true b hb]
  | cons c a ih => simp [numericLoop, ha c (by simp), ih (fun x hx => ha x (by simp [hx]))]

/-- Rules that leave digits and letters to `SplitNumeric` and `SplitIdentifier`, and take a minus sign alone. -/
structure PlainRules (rules : List Rule) : Prop where
  digit : ∀ c rest, isDigit c = true → runRules rules c rest = (.data (c :: (numericLoop false rest).1), rest.drop (numericLoop false rest).2)
  letter : ∀ c rest, isLetter c = true →
    runRules rules c rest = (.data (c :: rest.takeWhile fun x => isLetter x || isDigit x || x == '_'), rest.drop (rest.takeWhile fun x => isLetter x || isDigit x || x == '_').length)
  dash : ∀ c rest, isDigit c = true ∨ isLetter c = true → runRules rules '-' (c :: rest) = (.data ['-'], c :: rest)

theorem digit_not_letter {c : Char} (h : isDigit c = true) : isLetter c = false ∧ operatorChars.contains c = false ∧ c ≠ '_' ∧ c ≠ '$' := by
  rw [isDigit_iff] at h
  simp only [Char.le_def, UInt32.le_iff_toNat_le] at h
  have e : ∀ d : Char, c = d → c.val.toNat = d.val.toNat := fun d h => by rw [h]
  refine ⟨?_, ?_, fun hd => ?_, fun hd => ?_⟩
  · rw [Bool.eq_false_iff, ne_eq, isLetter_iff]
    simp only [Char.le_def, UInt32.le_iff_toNat_le]
    simp at h ⊢
    omega
  · rw [Bool.eq_false_iff, ne_eq, List.contains_iff_mem]
    intro hm
    simp only [operatorChars, List.mem_cons, List.not_mem_nil, or_false] at hm
    simp at h
    rcases hm with hm | hm | hm | hm | hm | hm | hm | hm | hm | hm | hm | hm | hm | hm | hm | hm | hm | hm | hm | hm | hm | hm | hm | hm | hm | hm <;>
      (have := e _ hm; simp at this; omega)
  · have := e _ hd; simp at h this; omega
  · have := e _ hd; simp at h this; omega

theorem letter_not_digit {c : Char} (h : isLetter c = true) : isDigit c = false ∧ operatorChars.contains c = false ∧ c ≠ '_' ∧ c ≠ '$' := by
  rw [isLetter_iff] at h
  simp only [Char.le_def, UInt32.le_iff_toNat_le] at h
  have e : ∀ d : Char, c = d → c.val.toNat = d.val.toNat := fun d h => by rw [h]
  refine ⟨?_, ?_, fun hd => ?_, fun hd => ?_⟩
  · rw [Bool.eq_false_iff, ne_eq, isDigit_iff]
    simp only [Char.le_def, UInt32.le_iff_toNat_le]
    simp at h ⊢
    omega
  · rw [Bool.eq_false_iff, ne_eq, List.contains_iff_mem]
    intro hm
    simp only [operatorChars, List.mem_cons, List.not_mem_nil, or_false] at hm
    simp at h
    rcases hm with hm | hm | hm | hm | hm | hm | hm | hm | hm | hm | hm | hm | hm | hm | hm | hm | hm | hm | hm | hm | hm | hm | hm | hm | hm | hm <;>
      (have := e _ hm; simp at this; omega)
  · have := e _ hd; simp at h this; omega
  · have := e _ hd; simp at h this; omega

theorem dash_alone {ops : List Char} (h : ops.contains '-' = true) {c : Char} (hc : ops.contains c = false) (rest : Str) :
    splitWithOperators ops '-' (c :: rest) = (.data ['-'], 0) := by
  have h5 : (c :: rest).takeWhile (fun c => ops.contains c) = [] := by rw [List.takeWhile_cons, hc]; rfl
  unfold splitWithOperators spanRule
  rw [h5, if_pos h]
  rfl

theorem defaultRules_plain : PlainRules defaultRules where
  digit c rest h := by simp [defaultRules, splitterNew, runRules, splitNumeric, h]
  letter c rest h := by
    simp [defaultRules, splitterNew, runRules, splitNumeric, splitIdentifier, spanRule, h, (letter_not_digit h).1]
  dash c rest h := by
    have hc : operatorChars.contains c = false := h.elim (fun h => (digit_not_letter h).2.1) fun h => (letter_not_digit h).2.1
    have h1 : isDigit '-' = false := by decide
    have h2 : isLetter '-' = false := by decide
    have h3 : operatorChars.contains '-' = true := by decide
    have h5 := dash_alone h3 hc rest
    simp [defaultRules, splitterNew, runRules, splitNumeric, splitIdentifier, splitOperator, h5, spanRule, h1, h2]

theorem replRules_plain : PlainRules (replRules false) where
  digit c rest h := by simp [replRules, runRules, splitRepl, spanRule, splitNumeric, h, (digit_not_letter h).2.2.2]
  letter c rest h := by
    simp [replRules, runRules, splitRepl, splitNumeric, splitIdentifier, spanRule, h, (letter_not_digit h).1, (letter_not_digit h).2.2.2]
  dash c rest h := by
    have hc : operatorChars.contains c = false := h.elim (fun h => (digit_not_letter h).2.1) fun h => (letter_not_digit h).2.1
    have hc' : (operatorChars.filter (· != '$')).contains c = false := by
      rw [Bool.eq_false_iff, ne_eq, List.contains_iff_mem] at hc ⊢
      exact fun hm => hc (List.mem_filter.1 hm).1
    have h1 : isDigit '-' = false := by decide
    have h2 : isLetter '-' = false := by decide
    have h3 : (operatorChars.filter (· != '$')).contains '-' = true := by decide
    have h4 : ('-' == '$') = false := by decide
    have h5 := dash_alone h3 hc' rest
    simp [replRules, runRules, splitRepl, splitNumeric, splitIdentifier, h5, spanRule, h1, h2]

theorem takeWhile_every (r : Str) (p : Char → Bool) (h : ∀ x ∈ r, p x = true) : r.takeWhile p = r := by
  induction r with
  | nil => rfl
  | cons c r ih => rw [List.takeWhile_cons, h c (by simp), ih fun x hx => h x (by simp [hx])]; rfl

theorem split_numberWord {rules : List Rule} (hr : PlainRules rules) {s : Str} (h : NumberWord s) : split rules s = [s] := by
  cases h with
  | numeral h =>
    cases h with
    | whole h =>
      obtain ⟨hne, hd⟩ := h
      cases s with
      | nil => exact absurd rfl hne
      | cons c r =>
        rw [split_cons, hr.digit c r (isDigit_iff.2 (hd c (by simp))), numericLoop_digits false r fun x hx => isDigit_iff.2 (hd x (by simp [hx]))]
        simp
    | @pointed a b ha hb =>
      obtain ⟨hne, hd⟩ := ha
      cases a with
      | nil => exact absurd rfl hne
      | cons c r =>
        rw [List.cons_append, split_cons, hr.digit c _ (isDigit_iff.2 (hd c (by simp))),
          numericLoop_pointed r b (fun x hx => isDigit_iff.2 (hd x (by simp [hx]))) fun x hx => isDigit_iff.2 (hb.2 x hx)]
        simp
  | letters hne hl =>
    cases s with
    | nil => exact absurd rfl hne
    | cons c r =>
      have : (r.takeWhile fun x => isLetter x || isDigit x || x == '_') = r :=
        (takeWhile_every r _ fun x hx => by simp [isLetter_iff.2 (hl x (by simp [hx]))])
      rw [split_cons, hr.letter c r (isLetter_iff.2 (hl c (by simp))), this]
      simp

theorem NumberWord.head {s : Str} (h : NumberWord s) : ∃ c r, s = c :: r ∧ (isDigit c = true ∨ isLetter c = true) := by
  cases h with
  | numeral h =>
    cases h with
    | whole h =>
      cases s with
      | nil => exact absurd rfl h.1
      | cons c r => exact ⟨c, r, rfl, .inl (isDigit_iff.2 (h.2 c (by simp)))⟩
    | @pointed a b ha hb =>
      cases a with
      | nil => exact absurd rfl ha.1
      | cons c r => exact ⟨c, r ++ '.' :: b, rfl, .inl (isDigit_iff.2 (ha.2 c (by simp)))⟩
  | letters hne hl =>
    cases s with
    | nil => exact absurd rfl hne
    | cons c r => exact ⟨c, r, rfl, .inr (isLetter_iff.2 (hl c (by simp)))⟩

theorem split_dash {rules : List Rule} (hr : PlainRules rules) {s : Str} (h : NumberWord s) : split rules ('-' :: s) = [['-'], s] := by
  have hs := split_numberWord hr h
  obtain ⟨c, r, rfl, hc⟩ := h.head
  rw [split_cons, hr.dash c r hc]
  simp [hs]

theorem notBlank_of {c : Char} {r : Str} (h : isWhitespace c = false) : (c :: r).all isWhitespace = false := by simp [h]

theorem eval_word (parse : Str → Option N) {rules : List Rule} (hr : PlainRules rules) (ctx : Ctx N) {s : Str} (h : NumberWord s) {n : N}
    (hp : parse s = some n) : eval parse (split rules) ctx s = .ok n := by
  obtain ⟨c, r, hs, hc⟩ := h.head
  have hw : isWhitespace c = false := by
    rw [Bool.eq_false_iff]
    intro hw
    rcases hc with hc | hc
    · rw [ws_not_digit hw] at hc; exact absurd hc (by simp)
    · rw [ws_not_letter hw] at hc; exact absurd hc (by simp)
  have hb : s.all isWhitespace = false := by rw [hs]; exact notBlank_of hw
  simp only [eval, tokenize, hb, Bool.false_eq_true, if_false, split_numberWord hr h, tokenizeLoop, hp, Res.bind_ok]
  exact C01_eval_eq_denote ctx (.atom (.num n)) trivial

/-- Nothing but an operator is named `-`. -/
def DashFree (ctx : Ctx N) : Prop := ctx.getVariable ['-'] = none ∧ ctx.getConstant ['-'] = none ∧ ctx.getFunction ['-'] = none

theorem eval_dash (parse : Str → Option N) {rules : List Rule} (hr : PlainRules rules) (ctx : Ctx N) {s : Str} (h : NumberWord s) {n : N}
    (hp : parse s = some n) (hd : parse ['-'] = none) (hf : DashFree ctx) {f : UnFn N} (hu : ctx.getUnary ['-'] = some f)
    (hn : f.notation_ = .pre) : eval parse (split rules) ctx ('-' :: s) = f.call n := by
  have hb : ('-' :: s).all isWhitespace = false := notBlank_of (by decide)
  have hop : operatorToken parse ctx none ['-'] false = .ok (.unary ['-']) := by
    simp [operatorToken, isUnaryOp, hu, hn]
  simp only [eval, tokenize, hb, Bool.false_eq_true, if_false, split_dash hr h, tokenizeLoop, hp, hd, Ctx.isVariable, hf.1, Ctx.isConstant, hf.2.1,
    Ctx.isFunction, hf.2.2, Option.isSome_none, Ctx.isUnary, hu, Option.isSome_some, Bool.or_true, if_true, List.isEmpty_cons, hop, Res.bind_ok]
  exact eval_prefix ctx hu hn n

/-! ## Integers -/

theorem digits_value (acc : Nat) (s : Str) (h : ∀ c ∈ s, isDigit c = true) :
    SInt.digits 10 acc s = some (s.foldl (fun a c => 10 * a + (c.toNat - 48)) acc) := by
  induction s generalizing acc with
  | nil => rfl
  | cons c s ih =>
    have hc := isDigit_iff.1 (h c (by simp))
    simp only [Char.le_def, UInt32.le_iff_toNat_le] at hc
    simp at hc
    have : SInt.digit 10 c = some (c.toNat - 48) := by
      unfold SInt.digit
      rw [if_pos]
      omega
    simp only [SInt.digits, this, List.foldl_cons]
    rw [ih _ fun x hx => h x (by simp [hx]), Nat.mul_comm]

theorem parse_digits (w : Width) {s : Str} (h : Digits s) : SInt.parse w s = SInt.of? (digitsValue s) := by
  obtain ⟨hne, hd⟩ := h
  cases s with
  | nil => exact absurd rfl hne
  | cons c r =>
    have hc := hd c (by simp)
    have h1 : c ≠ '+' := by rintro rfl; revert hc; decide
    have h2 : c ≠ '-' := by rintro rfl; revert hc; decide
    have : SInt.parse w (c :: r) = SInt.signed w 10 false (c :: r) := by
      unfold SInt.parse SInt.fromStrRadix
      split
      · rename_i heq; injection heq with h _; exact absurd h h1
      · rename_i heq; injection heq with h _; exact absurd h h2
      · rfl
    rw [this]
    simp [SInt.signed, digits_value 0 (c :: r) fun x hx => isDigit_iff.2 (hd x hx), digitsValue]

theorem toDigits_digits (n : Nat) : Digits (Nat.toDigits 10 n) := by
  refine ⟨Nat.toDigits_ne_nil, fun c hc => ?_⟩
  have := Nat.isDigit_of_mem_toDigits (by decide) (by decide) hc
  simp [Char.isDigit] at this
  simpa [Char.le_def, UInt32.le_iff_toNat_le] using this

theorem toDigits_value (n : Nat) : digitsValue (Nat.toDigits 10 n) = n := by
  have := @Nat.ofDigitChars_ten_toDigits n
  rwa [Nat.ofDigitChars_eq_foldl] at this

/-- `Display` of an integer: the digits, with a minus sign if it is negative. -/
theorem toString_int (x : Int) :
    (toString x).toList = if 0 ≤ x then Nat.toDigits 10 x.toNat else '-' :: Nat.toDigits 10 (-x).toNat := by
  rw [Int.toString_eq_repr, Int.repr_eq_if]
  split <;> simp [Nat.toList_repr]

end Prexel
