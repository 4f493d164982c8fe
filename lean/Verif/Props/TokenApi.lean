import Verif.Model.TokenApi
import Verif.Lemmas.Numerals
/-!
# Tokens and errors as values (C139, C140)
-/

namespace Prexel
variable {N : Type}

theorem wrap_inj {p : Str} {a b q : Str} (h : p ++ a ++ q = p ++ b ++ q) : a = b := by
  rw [List.append_assoc, List.append_assoc] at h
  exact List.append_cancel_right (List.append_cancel_left h)

/-- The first and the third letter of the text of a token. -/
def Token.letters : Token N → Char × Char
  | .number _ => ('N', 'm')
  | .variable_ _ => ('V', 'r')
  | .constant _ => ('C', 'n')
  | .function _ => ('F', 'n')
  | .binary _ => ('B', 'n')
  | .unary _ => ('U', 'a')
  | .argCount _ => ('A', 'g')
  | .gopen _ => ('P', 'r')
  | .gclose _ => ('P', 'r')
  | .unknown _ => ('U', 'k')
  | .comma => ('C', 'm')

theorem show_letters (number : N → Str) (t : Token N) : (t.show_ number)[0]? = some t.letters.1 ∧ (t.show_ number)[2]? = some t.letters.2 := by
  cases t <;> exact ⟨rfl, rfl⟩

/-- C139 for `Display`. Different tokens have different texts, if different numbers have. -/
theorem C139_display (number : N → Str) (hn : ∀ x y, number x = number y → x = y) (s t : Token N) (h : s.show_ number = t.show_ number) : s = t := by
  have hl : s.letters = t.letters := by
    obtain ⟨a1, a2⟩ := show_letters number s
    obtain ⟨b1, b2⟩ := show_letters number t
    rw [h, b1] at a1
    rw [h, b2] at a2
    exact Prod.ext (Option.some.inj a1).symm (Option.some.inj a2).symm
  have h11 : (s.show_ number)[11]? = (t.show_ number)[11]? := by rw [h]
  cases s <;> cases t <;> first | (exfalso; simp [Token.letters] at hl; done) | skip
  case number.number => exact congrArg _ (hn _ _ (wrap_inj h))
  case argCount.argCount m n =>
    have := congrArg digitsValue (wrap_inj h)
    rw [toDigits_value, toDigits_value] at this
    rw [this]
  case gopen.gopen => exact congrArg _ (List.cons.inj (wrap_inj h)).1
  case gclose.gclose => exact congrArg _ (List.cons.inj (wrap_inj h)).1
  case gopen.gclose => exact absurd h11 (show ¬ (some 'O' = some 'C') by decide)
  case gclose.gopen => exact absurd h11 (show ¬ (some 'C' = some 'O') by decide)
  case comma.comma => rfl
  all_goals exact congrArg _ (wrap_inj h)

/-- What a token is, by the eleven methods. -/
def Token.methods (t : Token N) : List Bool :=
  [t.isNumber, t.isVariable, t.isConstant, t.isFunction, t.isBinaryOperator, t.isUnaryOperator, t.isCount, t.isGopen, t.isGclose, t.isUnknown, t.isComma]

/-- C139 for the methods. Exactly one of the eleven methods holds for a token, and two tokens for which the same one holds are of the same kind. -/
theorem C139_methods (t : Token N) : t.methods.count true = 1 ∧
    (t.isNumber = true ↔ ∃ n, t = .number n) ∧ (t.isVariable = true ↔ ∃ s, t = .variable_ s) ∧ (t.isConstant = true ↔ ∃ s, t = .constant s) ∧
    (t.isFunction = true ↔ ∃ s, t = .function s) ∧ (t.isBinaryOperator = true ↔ ∃ s, t = .binary s) ∧ (t.isUnaryOperator = true ↔ ∃ s, t = .unary s) ∧
    (t.isCount = true ↔ ∃ n, t = .argCount n) ∧ (t.isGopen = true ↔ ∃ c, t = .gopen c) ∧ (t.isGclose = true ↔ ∃ c, t = .gclose c) ∧
    (t.isUnknown = true ↔ ∃ s, t = .unknown s) ∧ (t.isComma = true ↔ t = .comma) := by
  cases t <;> simp [Token.methods, Token.isNumber, Token.isVariable, Token.isConstant, Token.isFunction, Token.isBinaryOperator, Token.isUnaryOperator,
    Token.isCount, Token.isGopen, Token.isGclose, Token.isUnknown, Token.isComma]

/-- C139 for `contains_symbol`, the part that holds: it recognises the symbols of brackets. Missing: the operators, see the counterexample. -/
theorem C139_symbol_partial (t : Token N) (c : Char) : t.containsSymbol c = true ↔ t = .gopen c ∨ t = .gclose c := by
  cases t <;> simp [Token.containsSymbol]

/-- C139 fails for operators: the documentation of `contains_symbol` says that the symbols of operators are compared too, but it is false for each. -/
theorem C139_symbol_counterexample (c d : Char) : (Token.binary [c] : Token N).containsSymbol d = false ∧ (Token.unary [c] : Token N).containsSymbol d = false :=
  ⟨rfl, rfl⟩

/-! ## Errors -/

/-- C140. Two errors are equal exactly if their kinds are, whatever they say. An error made with a message says the message and gives it back; an error made
from a kind alone says the text of the kind, which no other kind has, and contains nothing; `Error::other` has the kind `Unknown`. -/
theorem C140_errors (a b : Fault) (k l : ErrorKind) (m : Str) :
    (a.same b = true ↔ a.kind = b.kind) ∧
    ((Fault.new k m).kind = k ∧ (Fault.new k m).text = m ∧ (Fault.new k m).inner = some m) ∧
    ((Fault.simple k).kind = k ∧ (Fault.simple k).inner = none ∧ ((Fault.simple k).text = (Fault.simple l).text ↔ k = l)) ∧
    ((Fault.other m).kind = .unknown ∧ (Fault.other m).text = m) := by
  refine ⟨by simp [Fault.same], ⟨rfl, rfl, rfl⟩, ⟨rfl, rfl, ?_⟩, rfl, rfl⟩
  constructor
  · intro h
    revert h
    cases k <;> cases l <;> decide
  · rintro rfl; rfl

/-- Different integers have different texts, so `C139_display` applies to them; `+` and `(` are told apart. -/
example : (Token.binary ['+'] : Token Nat).show_ (Nat.toDigits 10) = str "BinaryOperator('+')" ∧ ∀ x y, Nat.toDigits 10 x = Nat.toDigits 10 y → x = y := by
  refine ⟨rfl, fun x y h => ?_⟩
  have := congrArg digitsValue h
  rwa [toDigits_value, toDigits_value] at this

end Prexel
