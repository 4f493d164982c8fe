import Verif.Spec.Brackets
/-!
# Specification: token lists that differ in the kinds of their brackets only
-/

namespace Prexel
variable {N : Type}

/-- The token with every kind of bracket made round. -/
def Token.round : Token N → Token N
  | .gopen _ => .gopen '('
  | .gclose _ => .gclose ')'
  | t => t

/-- Opening brackets are opening symbols. -/
def Opening (ts : List (Token N)) : Prop := ∀ o, .gopen o ∈ ts → o = '(' ∨ o = '[' ∨ o = '{'

/-- Brackets directly after the name of a function are parentheses. -/
def RoundCalls (ts : List (Token N)) : Prop := ∀ l r f o, ts = l ++ .function f :: .gopen o :: r → o = '('

/-- The character with every kind of bracket made round. -/
def roundChar (c : Char) : Char :=
  if c = '[' ∨ c = '{' then '(' else if c = ']' ∨ c = '}' then ')' else c

/-- No bracket is a number or the name of anything. -/
def BracketsFree (parse : Str → Option N) (ctx : Ctx N) : Prop :=
  ∀ b ∈ ['(', ')', '[', ']', '{', '}'], parse [b] = none ∧ ctx.getVariable [b] = none ∧ ctx.getConstant [b] = none ∧ ctx.getFunction [b] = none ∧
    ctx.getBinary [b] = none ∧ ctx.getUnary [b] = none

end Prexel
