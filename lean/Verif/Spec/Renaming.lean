import Verif.Model.Tokenizer
import Verif.Spec.Simulation
/-!
# Specification: the same expression under other names
-/

namespace Prexel
variable {N : Type}

/-- The token `u` is the token `t`, or another name of what `t` names. -/
inductive Renamed (ctx : Ctx N) : Token N → Token N → Prop
  | number (n : N) : Renamed ctx (.number n) (.number n)
  | variable_ {s s' : Str} (h : ctx.getVariable s = ctx.getVariable s') : Renamed ctx (.variable_ s) (.variable_ s')
  | constant {s s' : Str} (h : ctx.getConstant s = ctx.getConstant s') : Renamed ctx (.constant s) (.constant s')
  | function {s s' : Str} (h : ctx.getFunction s = ctx.getFunction s') : Renamed ctx (.function s) (.function s')
  | binary {s s' : Str} (h : ctx.getBinary s = ctx.getBinary s') : Renamed ctx (.binary s) (.binary s')
  | unary {s s' : Str} (h : ctx.getUnary s = ctx.getUnary s') : Renamed ctx (.unary s) (.unary s')
  | argCount (n : Nat) : Renamed ctx (.argCount n) (.argCount n)
  | gopen (c : Char) : Renamed ctx (.gopen c) (.gopen c)
  | gclose (c : Char) : Renamed ctx (.gclose c) (.gclose c)
  | unknown (s : Str) : Renamed ctx (.unknown s) (.unknown s)
  | comma : Renamed ctx .comma .comma

/-- A word of an ordinary form for a function or an operator: it begins with an ASCII character that is not itself a unary operator only, and it is
longer than one character or a punctuation mark (that closes nothing). -/
structure CommonWord (parse : Str → Option N) (ctx : Ctx N) (w : Str) : Prop where
  number : parse w = none
  first : ∃ c r, w = c :: r ∧ c.toNat < 128 ∧ (ctx.getUnary [c] = none ∨ ctx.getBinary [c] ≠ none)
  long : 2 ≤ w.length ∨ ∃ c, w = [c] ∧ isAsciiPunctuation c = true ∧ ctx.config.isGroupClose c = false

/-- The words name the same thing. Where imaginary units can follow numbers, `i` is special. -/
inductive SameWord (parse : Str → Option N) (ctx : Ctx N) : Str → Str → Prop
  | refl (w : Str) : SameWord parse ctx w w
  | variable_ {w w' : Str} (n : parse w = none) (n' : parse w' = none) (v : N) (h : ctx.getVariable w = some v) (h' : ctx.getVariable w' = some v)
      (i : ctx.config.complexNumber = true → w ≠ ['i'] ∧ w' ≠ ['i']) : SameWord parse ctx w w'
  | constant {w w' : Str} (n : parse w = none) (n' : parse w' = none) (v : ctx.getVariable w = none) (v' : ctx.getVariable w' = none)
      (x : N) (h : ctx.getConstant w = some x) (h' : ctx.getConstant w' = some x)
      (i : ctx.config.complexNumber = true → w ≠ ['i'] ∧ w' ≠ ['i']) : SameWord parse ctx w w'
  | function {w w' : Str} (p : CommonWord parse ctx w) (p' : CommonWord parse ctx w') (v : ctx.getVariable w = none) (v' : ctx.getVariable w' = none)
      (c : ctx.getConstant w = none) (c' : ctx.getConstant w' = none) (f : Fn N) (h : ctx.getFunction w = some f) (h' : ctx.getFunction w' = some f) :
      SameWord parse ctx w w'
  | operator {w w' : Str} (p : CommonWord parse ctx w) (p' : CommonWord parse ctx w') (v : ctx.getVariable w = none) (v' : ctx.getVariable w' = none)
      (c : ctx.getConstant w = none) (c' : ctx.getConstant w' = none) (f : ctx.getFunction w = none) (f' : ctx.getFunction w' = none)
      (hb : ctx.getBinary w = ctx.getBinary w') (hu : ctx.getUnary w = ctx.getUnary w') (some_ : ctx.getBinary w ≠ none ∨ ctx.getUnary w ≠ none) :
      SameWord parse ctx w w'

end Prexel
