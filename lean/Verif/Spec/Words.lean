import Verif.Model.Tokenizer
import Verif.Spec.Syntax
import Verif.Spec.Relations
/-!
# Specification: words, white space, what a word stands for
-/

namespace Prexel
variable {N : Type}

/-- Only white space. -/
def Blank (s : Str) : Prop := ∀ c ∈ s, isWhitespace c = true

instance (s : Str) : Decidable (Blank s) := inferInstanceAs (Decidable (∀ c ∈ s, isWhitespace c = true))

/-- `Spaced ws s`: the text `s` consists of the words `ws` with white space between them, and possibly before and after them. -/
inductive Spaced : List Str → Str → Prop
  | nil (pre : Str) (h : Blank pre) : Spaced [] pre
  | last (pre w post : Str) (h : Blank pre) (h' : Blank post) : Spaced [w] (pre ++ (w ++ post))
  | cons (pre w : Str) (sp : Char) (w' : Str) (ws : List Str) (s : Str) (h : Blank pre) (hsp : isWhitespace sp = true)
      (hs : Spaced (w' :: ws) s) : Spaced (w :: w' :: ws) (pre ++ (w ++ sp :: s))

/-- The word is not a number, variable, constant or function. -/
def NotValue (parse : Str → Option N) (ctx : Ctx N) (w : Str) : Prop :=
  parse w = none ∧ ctx.getVariable w = none ∧ ctx.getConstant w = none ∧ ctx.getFunction w = none

/-- The word is not a number or a registered name. -/
def NoName (parse : Str → Option N) (ctx : Ctx N) (w : Str) : Prop :=
  NotValue parse ctx w ∧ ctx.getUnary w = none ∧ ctx.getBinary w = none

/-- What a word stands for: a number if it parses, otherwise a variable, otherwise a constant, otherwise a function, otherwise an
operator, otherwise a comma, a bracket or unknown text. -/
def StandsFor (parse : Str → Option N) (ctx : Ctx N) (w : Str) : Token N → Prop
  | .number n => parse w = some n
  | .variable_ s => s = w ∧ parse w = none ∧ ctx.getVariable w ≠ none
  | .constant s => s = w ∧ parse w = none ∧ ctx.getVariable w = none ∧ ctx.getConstant w ≠ none
  | .function s => s = w ∧ parse w = none ∧ ctx.getVariable w = none ∧ ctx.getConstant w = none ∧ ctx.getFunction w ≠ none
  | .unary s => s = w ∧ NotValue parse ctx w ∧ ctx.getUnary w ≠ none
  | .binary s => s = w ∧ NotValue parse ctx w ∧ (ctx.getBinary w ≠ none ∨ ctx.getUnary w ≠ none)
  | .comma => w = [','] ∧ NoName parse ctx w
  | .gopen c => w = [c] ∧ c ∈ ['(', '[', '{'] ∧ NoName parse ctx w
  | .gclose c => w = [c] ∧ c ∈ [')', ']', '}'] ∧ NoName parse ctx w
  | .unknown s => s = w ∧ NoName parse ctx w ∧ (∀ c, w = [c] → c ∉ [',', ' ', '(', '[', '{', ')', ']', '}'])
  | .argCount _ => False

/-- The words with a number and a following `i` joined, as in `2 i`. -/
def joinImaginary (parse : Str → Option N) : List Str → List Str
  | w :: w' :: rest =>
    if (parse w).isSome ∧ w' = ['i'] then (w ++ w') :: joinImaginary parse rest else w :: joinImaginary parse (w' :: rest)
  | [w] => [w]
  | [] => []

/-- The words that tokens stand for: with complex numbers, a number and a following `i` are one word. -/
def wordsFor (parse : Str → Option N) (ctx : Ctx N) (ws : List Str) : List Str :=
  if ctx.config.complexNumber then joinImaginary parse ws else ws

/-- The shape of a word of the default splitter: a number (digits with at most one point after the first digit), an identifier, a run of
operator characters that does not begin with an underscore, or any other single character that is not white space. -/
inductive Shape : Str → Prop
  | integer (c : Char) (t : Str) (hc : isDigit c = true) (h : t.all isDigit = true) : Shape (c :: t)
  | decimal (c : Char) (t t' : Str) (hc : isDigit c = true) (h : t.all isDigit = true) (h' : t'.all isDigit = true) :
      Shape (c :: (t ++ '.' :: t'))
  | ident (c : Char) (t : Str) (hc : isLetter c = true ∨ c = '_')
      (h : ∀ x ∈ t, isLetter x = true ∨ isDigit x = true ∨ x = '_') : Shape (c :: t)
  | operator (c : Char) (t : Str) (hc : c ≠ '_') (h : ∀ x ∈ c :: t, x ∈ operatorChars) : Shape (c :: t)
  | other (c : Char) (hw : isWhitespace c = false) (hd : isDigit c = false) (hl : isLetter c = false) (ho : c ∉ operatorChars) : Shape [c]

/-- The operator names of the context can be told apart by the tokenizer: they begin with an ASCII character, one-character names are
punctuation and not closing brackets, no binary operator begins with a character that is itself a name of a unary operator only, whereas
the postfix operators do and are not binary. -/
structure Lexical (ctx : Ctx N) : Prop where
  ascii : ∀ s, (ctx.getUnary s ≠ none ∨ ctx.getBinary s ≠ none) → ∃ c t, s = c :: t ∧ c.toNat < 128
  punct : ∀ c, (ctx.getUnary [c] ≠ none ∨ ctx.getBinary [c] ≠ none) → isAsciiPunctuation c = true ∧ c ∉ [')', ']', '}']
  binary : ∀ c t, ctx.getBinary (c :: t) ≠ none → (ctx.getUnary [c] = none ∨ ctx.getBinary [c] ≠ none)
  postfix_ : ∀ c t f, ctx.getUnary (c :: t) = some f → f.notation_ = .post →
    ctx.getUnary [c] ≠ none ∧ ctx.getBinary [c] = none ∧ ctx.getBinary (c :: t) = none

/-- The expression does not begin with an operator. -/
def Expr.noSign : Expr N → Prop
  | .signed _ _ => False
  | .prefixed _ _ => False
  | .postfixed _ e => e.noSign
  | .bin _ l _ => l.noSign
  | .imp l _ => l.noSign
  | _ => True

mutual
/-- No postfix operator is applied directly to a postfix operator, as in `3 ! !`, and no prefix operator whose first character is the name
of a unary operator only is directly followed by a prefix operator, as in `~ ~ 3`. -/
def Expr.Plain (ctx : Ctx N) : Expr N → Prop
  | .atom _ => True
  | .signed _ _ => True
  | .prefixed u e => (e.noSign ∨ ∀ c t, u = c :: t → (ctx.getUnary [c] = none ∨ ctx.getBinary [c] ≠ none)) ∧ e.Plain ctx
  | .postfixed _ e => (∀ p e', e ≠ .postfixed p e') ∧ e.Plain ctx
  | .paren _ e => e.Plain ctx
  | .call _ _ args => args.Plain ctx
  | .bin _ l r => l.Plain ctx ∧ r.Plain ctx
  | .imp l r => l.Plain ctx ∧ r.Plain ctx
def Args.Plain (ctx : Ctx N) : Args N → Prop
  | .one e => e.Plain ctx
  | .more e rest => e.Plain ctx ∧ rest.Plain ctx
end

end Prexel
