import Verif.Model.Splitter
import Verif.Model.Evaluator
/-!
# The tokenizer

Models `prexel/src/tokenizer.rs` and `Evaluator::eval` of `prexel/src/evaluator.rs`.

`parse` stands for `N::from_str` (`some` for `Ok`); it is a parameter, so the theorems hold for every number type.
-/

namespace Prexel
variable {N : Type}

namespace Ctx
/-- `Context::is_variable`, prexel/src/context.rs 49-51. -/
def isVariable (c : Ctx N) (s : Str) : Bool := (c.getVariable s).isSome
/-- `Context::is_constant`, prexel/src/context.rs 55-57. -/
def isConstant (c : Ctx N) (s : Str) : Bool := (c.getConstant s).isSome
/-- `Context::is_function`, prexel/src/context.rs 61-63. -/
def isFunction (c : Ctx N) (s : Str) : Bool := (c.getFunction s).isSome
/-- `Context::is_unary_function`, prexel/src/context.rs 67-69. -/
def isUnary (c : Ctx N) (s : Str) : Bool := (c.getUnary s).isSome
/-- `Context::is_binary_function`, prexel/src/context.rs 73-75. -/
def isBinary (c : Ctx N) (s : Str) : Bool := (c.getBinary s).isSome
end Ctx

/-- `StrExt::single_char`, prexel/src/utils/extensions/str_ext.rs 31-39. -/
def singleChar : Str → Option Char
  | [c] => some c
  | _ => none

/-- `char::is_ascii_punctuation` of the Rust standard library. -/
def isAsciiPunctuation (c : Char) : Bool :=
  (33 ≤ c.toNat && c.toNat ≤ 47) || (58 ≤ c.toNat && c.toNat ≤ 64) || (91 ≤ c.toNat && c.toNat ≤ 96) ||
    (123 ≤ c.toNat && c.toNat ≤ 126)

/-- `&s[..1]` on a `str`: the first byte. Panics on the empty string and when the first character is not ASCII. -/
def firstByte : Str → Res Str
  | [] => .panic
  | c :: _ => if c.toNat < 128 then .ok [c] else .panic

/-- `is_unary`, prexel/src/tokenizer.rs 190-256. -/
def isUnaryOp (parse : Str → Option N) (ctx : Ctx N) (prev : Option Str) (cur : Str) (next : Option Str) : Res Bool :=
  match ctx.getUnary cur with
  | none => .ok false
  | some op =>
    match op.notation_ with
    | .post =>
      match prev with
      | none => .ok false
      | some s =>
        if (singleChar s).any (ctx.config.isGroupClose ·) then .ok true
        else .ok ((parse s).isSome || ctx.isConstant s || ctx.isVariable s)
    | .pre =>
      if next.isNone then .ok false
      else match prev with
        | none => .ok true
        | some p =>
          if (singleChar p).any (ctx.config.isGroupClose ·) then .ok false
          else if (parse p).isSome || ctx.isVariable p || ctx.isConstant p then .ok false
          else (firstByte p).bind fun b =>
            if ctx.isUnary b && !ctx.isBinary b then .ok false
            else match p with
              | [c] => .ok (isAsciiPunctuation c)
              | _ => .ok true

/-- The branch of `tokenize` for operators, prexel/src/tokenizer.rs 119-150. `next` of lines 125-129 is the current word itself
(`raw_tokens[pos]`), which does not matter because `is_unary` only asks whether it exists. -/
def operatorToken (parse : Str → Option N) (ctx : Ctx N) (prev : Option Str) (w : Str) (isLast : Bool) : Res (Token N) :=
  let next := if isLast then none else some w
  (isUnaryOp parse ctx prev w next).bind fun u =>
    if u then .ok (.unary w)
    else if prev.isNone || next.isNone then .err .invalidExpression
    else .ok (.binary w)

/-- The last branches of `tokenize`, prexel/src/tokenizer.rs 151-173. `string.len() == 1` counts bytes. `none` is a skipped word. -/
def otherToken (ctx : Ctx N) (w : Str) : Option (Token N) :=
  if w = [','] then some .comma
  else if w = [' '] then none
  else match w with
    | [c] =>
      if c.toNat < 128 then
        match ctx.config.getGroupSymbol c with
        | some (o, _) => if c = o then some (.gopen c) else some (.gclose c)
        | none => some (.unknown w)
      else some (.unknown w)
    | _ => some (.unknown w)

/-- The `while` loop of `tokenize`, prexel/src/tokenizer.rs 84-175, over the remaining words; `prev` is the word before them. -/
def tokenizeLoop (parse : Str → Option N) (ctx : Ctx N) : Option Str → List Str → Res (List (Token N))
  | _, [] => .ok []
  | prev, w :: rest =>
    match parse w with
    | some n =>
      match rest with
      | w' :: rest' =>
        if ctx.config.complexNumber && w' == ['i'] then
          match parse (w ++ w') with
          | none => .err .invalidInput
          | some m => (tokenizeLoop parse ctx (some w') rest').bind fun ts => .ok (.number m :: ts)
        else (tokenizeLoop parse ctx (some w) (w' :: rest')).bind fun ts => .ok (.number n :: ts)
      | [] => .ok [.number n]
    | none =>
      if ctx.isVariable w then (tokenizeLoop parse ctx (some w) rest).bind fun ts => .ok (.variable_ w :: ts)
      else if ctx.isConstant w then (tokenizeLoop parse ctx (some w) rest).bind fun ts => .ok (.constant w :: ts)
      else if ctx.isFunction w then (tokenizeLoop parse ctx (some w) rest).bind fun ts => .ok (.function w :: ts)
      else if ctx.isBinary w || ctx.isUnary w then
        (operatorToken parse ctx prev w rest.isEmpty).bind fun t =>
          (tokenizeLoop parse ctx (some w) rest).bind fun ts => .ok (t :: ts)
      else
        match otherToken ctx w with
        | some t => (tokenizeLoop parse ctx (some w) rest).bind fun ts => .ok (t :: ts)
        | none => tokenizeLoop parse ctx (some w) rest

/-- `Tokenizer::tokenize`, prexel/src/tokenizer.rs 69-178; `splitter` is `Splitter::split_into_tokens`. `trim().is_empty()` holds when all
characters are white space. -/
def tokenize (parse : Str → Option N) (splitter : Str → List Str) (ctx : Ctx N) (s : Str) : Res (List (Token N)) :=
  if s.all isWhitespace then .err .empty else tokenizeLoop parse ctx none (splitter s)

/-- `Evaluator::eval`, prexel/src/evaluator.rs 99-103. -/
def eval (parse : Str → Option N) (splitter : Str → List Str) (ctx : Ctx N) (s : Str) : Res N :=
  (tokenize parse splitter ctx s).bind (evalTokens ctx)

end Prexel
