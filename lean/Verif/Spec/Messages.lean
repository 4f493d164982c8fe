import Verif.Model.Messages
import Verif.Spec.Brackets
import Verif.Spec.Tokens
import Verif.Spec.Words
import Verif.Spec.History
/-!
# Specification: what error messages say, and when that is true
-/

namespace Prexel
variable {N : Type}

/-- The error of reading the words `ws`, and what it says. -/
inductive ReadFault (D : Debugs N) (parse : Str → Option N) (ctx : Ctx N) (ws : List Str) : Fault → Prop
  /-- With complex numbers, the word `w` is a number and `i` comes next, but `wi` is not a number. -/
  | imaginary (l r : List Str) (w : Str) (hc : ctx.config.complexNumber = true) (hw : ws = l ++ w :: ['i'] :: r) (hp : (parse w).isSome)
      (hn : parse (w ++ ['i']) = none) :
      ReadFault D parse ctx ws (.new .invalidInput (str "failed to parse `" ++ (w ++ ['i']) ++ str "` to `" ++ D.typeName ++ str "`."))
  /-- The first or the last word `w` is an operator. The message shows the word before it and then, unless it is the last word, the operator itself
  again: it does not show the word after it. -/
  | operands (l r : List Str) (w : Str) (hw : ws = l ++ w :: r) (he : l = [] ∨ r = []) (ho : ctx.getUnary w ≠ none ∨ ctx.getBinary w ≠ none) :
      ReadFault D parse ctx ws (.new .invalidExpression (str "Binary operations need 2 operands: " ++ debugOption D l.getLast? ++ str " " ++ w ++
        str " " ++ debugOption D (if r = [] then none else some w)))

/-- The error of evaluating the tokens `ts`, and what it says. `M` are the messages of the functions and operators of the context. -/
inductive EvalFault (D : Debugs N) (M : Inner N) (ctx : Ctx N) (ts : List (Token N)) : Fault → Prop
  /-- The comma comes first. -/
  | firstComma (h : ts.head? = some .comma) : EvalFault D M ctx ts (.new .invalidInput (str "Misplaced comma"))
  /-- The comma follows an opening bracket. -/
  | openComma (l r : List (Token N)) (o : Char) (h : ts = l ++ .gopen o :: .comma :: r) :
      EvalFault D M ctx ts (.new .invalidInput (str "Misplaced comma: `(,`"))
  /-- The comma is followed by a closing bracket. -/
  | commaClose (l r : List (Token N)) (c : Char) (h : ts = l ++ .comma :: .gclose c :: r) :
      EvalFault D M ctx ts (.new .invalidInput (str "Misplaced comma: `,)`"))
  /-- Before the comma a bracket was opened that does not belong to a function. -/
  | groupComma (l m r : List (Token N)) (o : Char) (h : ts = l ++ .gopen o :: m ++ .comma :: r) (hl : ∀ f, l.getLast? ≠ some (.function f)) :
      EvalFault D M ctx ts (.new .invalidInput (str "Misplaced comma"))
  /-- There is a comma. -/
  | noFunction (l r : List (Token N)) (h : ts = l ++ .comma :: r) :
      EvalFault D M ctx ts (.new .invalidExpression (str "Comma found but not function"))
  /-- At the comma, every bracket has been closed. -/
  | outsideComma (l r : List (Token N)) (h : ts = l ++ .comma :: r) (hl : Balanced l) :
      EvalFault D M ctx ts (.new .invalidExpression (str "Misplace comma"))
  /-- A closing bracket does not close the last open bracket. -/
  | brackets (c : Char) (h : .gclose c ∈ ts) (hb : ¬ Balanced ts) : EvalFault D M ctx ts (.new .invalidExpression (str "Misplace grouping symbol"))
  /-- An opening bracket is never closed. -/
  | unclosed (o : Char) (h : .gopen o ∈ ts) (hb : ¬ Balanced ts) :
      EvalFault D M ctx ts (.new .invalidInput (str "Unknown token: `" ++ (Token.gopen o : Token N).debug D ++ str "`"))
  /-- Nothing is between two brackets that do not belong to a function. -/
  | emptyBrackets (l r : List (Token N)) (o c : Char) (h : ts = l ++ .gopen o :: .gclose c :: r) (hc : Closes o c)
      (hl : ∀ f, l.getLast? ≠ some (.function f)) : EvalFault D M ctx ts (.new .invalidInput (str "Empty grouping symbols: " ++ [o, c]))
  /-- No operand comes before a postfix operator. -/
  | postfixFirst (l r : List (Token N)) (u : Str) (f : UnFn N) (h : ts = l ++ .unary u :: r) (hf : ctx.getUnary u = some f)
      (hn : f.notation_ = .post) (hl : ∀ t ∈ l, t.isAtom = false) : EvalFault D M ctx ts (.new .invalidExpression (str "Misplace unary operator"))
  /-- A unary operator is used between two operands. -/
  | notBinary (u : Str) (h : .binary u ∈ ts) (hf : ctx.getBinary u = none) :
      EvalFault D M ctx ts (.new .invalidInput (str "Binary function `" ++ u ++ str "` not found"))
  /-- The function `f` is not followed by a parenthesis. -/
  | noParentheses (l r : List (Token N)) (f : Str) (h : ts = l ++ .function f :: r) (hc : ctx.config.customFunctionCall = false)
      (hr : r.head? ≠ some (.gopen '(')) :
      EvalFault D M ctx ts (.new .invalidInput (str "Function arguments of `" ++ f ++ str "` are not within a parentheses"))
  /-- The first unknown word is `w`. -/
  | unknown (l r : List (Token N)) (w : Str) (h : ts = l ++ .unknown w :: r) (hl : ∀ v, .unknown v ∉ l) :
      EvalFault D M ctx ts (.new .invalidInput (str "Invalid token: Unknown(" ++ D.string w ++ str ")"))
  /-- The function `f` is not followed by arguments in parentheses. -/
  | noArguments (f : Str) (h : .function f ∈ ts) :
      EvalFault D M ctx ts (.new .invalidInput (str "Cannot evaluate function `" ++ f ++ str "`, unknown number of arguments"))
  /-- Products are implied but there is no operator `*`. -/
  | noProduct (hm : ctx.config.implicitMul = true) (hf : ctx.getBinary ['*'] = none) :
      EvalFault D M ctx ts (.new .invalidInput (str "Binary operator `*` not found"))
  /-- An operator lacks an operand; the message shows all tokens. -/
  | operands (w : Str) (h : .unary w ∈ ts ∨ .binary w ∈ ts ∨ ctx.config.implicitMul = true) :
      EvalFault D M ctx ts (.new .invalidExpression (debugTokens D ts))
  /-- Operands are left over. -/
  | leftover : EvalFault D M ctx ts (.simple .invalidExpression)
  /-- The function `f` returned the error. -/
  | function (f : Str) (h : .function f ∈ ts) (fn : List N → Res N) (hf : ctx.getFunction f = some fn) (xs : List N) (k : ErrorKind)
      (hk : fn xs = .err k) : EvalFault D M ctx ts ⟨k, M.function f xs⟩
  /-- The unary operator `u` returned the error. -/
  | unary (u : Str) (h : .unary u ∈ ts) (fn : UnFn N) (hf : ctx.getUnary u = some fn) (x : N) (k : ErrorKind) (hk : fn.call x = .err k) :
      EvalFault D M ctx ts ⟨k, M.unary u x⟩
  /-- The binary operator `b`, or an implied `*`, returned the error. -/
  | binary (b : Str) (h : .binary b ∈ ts ∨ ctx.config.implicitMul = true ∧ b = ['*']) (fn : BinFn N) (hf : ctx.getBinary b = some fn) (x y : N)
      (k : ErrorKind) (hk : fn.call x y = .err k) : EvalFault D M ctx ts ⟨k, M.binary b x y⟩

/-- What is registered. -/
def Op.what : Op N → Str
  | .addFunctionAs _ _ => str "Function"
  | .addUnaryFunctionAs _ _ => str "Operator"
  | .addBinaryFunctionAs _ _ => str "Operator"
  | .addConstant _ _ => str "Constant"
  | .setVariable _ _ => str "Variable"

/-- The name is in the way of something that is already there: of the same kind, or for a constant a variable and for a variable a constant. -/
def Op.Taken (K : Keys) (c : Context N) : Op N → Prop
  | .addFunctionAs _ name => (Map.get K.same c.functions name).isSome
  | .addUnaryFunctionAs _ name => (Map.get K.same c.unary name).isSome
  | .addBinaryFunctionAs _ name => (Map.get K.same c.binary name).isSome
  | .addConstant name _ => ∃ x ∈ c.variables, eqIgnoreCase K.L x.1 name = true
  | .setVariable name _ => ∃ x ∈ c.constants, eqIgnoreCase K.L x.1 name = true

/-- The message about a taken name. -/
def Op.takenText : Op N → Str
  | .addFunctionAs _ name => str "A function named '" ++ name ++ str "' already exists"
  | .addUnaryFunctionAs _ name => str "An unary function named '" ++ name ++ str "' already exists"
  | .addBinaryFunctionAs _ name => str "A binary function named '" ++ name ++ str "' already exists"
  | .addConstant name _ => str "Invalid constant name, a variable named `" ++ name ++ str "` exists"
  | .setVariable name _ => str "Invalid variable name, a constant named `" ++ name ++ str "` exists"

/-- The error of a registration, and what it says. -/
inductive NameFault (K : Keys) (debug : Bool) (c : Context N) (o : Op N) : Fault → Prop
  | blank (hd : debug = true) (h : Blank o.name) : NameFault K debug c o (.new .empty (o.what ++ str " name is empty"))
  | space (hd : debug = true) (h : ∃ x ∈ o.name, isWhitespace x = true) :
      NameFault K debug c o (.new .invalidInput (o.what ++ str " names cannot contain whitespaces: `" ++ o.name ++ str "`"))
  | control (hd : debug = true) (h : ∃ x ∈ o.name, isControl x = true) :
      NameFault K debug c o (.new .invalidInput (o.what ++ str " names cannot contain control characters: `" ++ o.name ++ str "`"))
  | taken (h : o.Taken K c) : NameFault K debug c o (.new .unknown o.takenText)

end Prexel
