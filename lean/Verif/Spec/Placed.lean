import Verif.Spec.Syntax
import Verif.Spec.Brackets
/-!
# Specification: token lists in which every token is in a possible place

Each token is compared with the one before it; brackets are matched with a stack, which also remembers whether a bracket belongs to a function. No trees, no
precedences.
-/

namespace Prexel
variable {N : Type}

/-- A number, a variable or a constant. -/
def Token.IsWord : Token N → Prop
  | .number _ => True
  | .variable_ _ => True
  | .constant _ => True
  | _ => False

/-- The name of a prefix operator. -/
def IsPrefix (ctx : Ctx N) (u : Str) : Prop := ∃ f, ctx.getUnary u = some f ∧ f.notation_ = .pre
/-- The name of a postfix operator. -/
def IsPostfix (ctx : Ctx N) (u : Str) : Prop := ∃ f, ctx.getUnary u = some f ∧ f.notation_ = .post

/-- Behind this token an operand has to come: at the beginning, behind an opening bracket, a comma, a binary or a prefix operator. -/
def WantsOperand (ctx : Ctx N) : Option (Token N) → Prop
  | none => True
  | some (.gopen _) => True
  | some .comma => True
  | some (.binary _) => True
  | some (.unary u) => IsPrefix ctx u
  | _ => False

/-- Behind this token an operand is complete: behind a word, a closing bracket, a postfix operator. -/
def EndsOperand (ctx : Ctx N) : Token N → Prop
  | .gclose _ => True
  | .unary u => IsPostfix ctx u
  | t => t.IsWord

/-- A token with which an operand begins: a word, a function, an opening bracket, a prefix operator. -/
def BeginsOperand (ctx : Ctx N) : Token N → Prop
  | .function _ => True
  | .gopen o => ∃ g : Grouping, o = g.opn
  | .unary u => IsPrefix ctx u
  | t => t.IsWord

/-- A token that comes behind a complete operand: a binary or postfix operator, a comma, a closing bracket. -/
def FollowsOperand (ctx : Ctx N) : Token N → Prop
  | .binary o => ∃ f, ctx.getBinary o = some f
  | .unary u => IsPostfix ctx u
  | .comma => True
  | .gclose _ => True
  | _ => False

/-- A product is written without a sign between these two tokens: a number and then a variable, a constant, a function or an opening bracket; or a closing bracket
and then any of these or a number. -/
def Product : Token N → Token N → Prop
  | .number _, .variable_ _ => True
  | .number _, .constant _ => True
  | .number _, .function _ => True
  | .number _, .gopen o => ∃ g : Grouping, o = g.opn
  | .gclose _, .number _ => True
  | .gclose _, .variable_ _ => True
  | .gclose _, .constant _ => True
  | .gclose _, .function _ => True
  | .gclose _, .gopen o => ∃ g : Grouping, o = g.opn
  | _, _ => False

/-- The token may come after the one before it. -/
inductive MayFollow (ctx : Ctx N) : Option (Token N) → Token N → Prop
  | operand (p : Option (Token N)) (t : Token N) (hp : WantsOperand ctx p) (ht : BeginsOperand ctx t) : MayFollow ctx p t
  /-- Behind a function there is an opening bracket, a parenthesis unless other brackets are allowed. -/
  | arguments (f : Str) (g : Grouping) (h : g = .parenthesis ∨ ctx.config.customFunctionCall = true) : MayFollow ctx (some (.function f)) (.gopen g.opn)
  | operator (p t : Token N) (hp : EndsOperand ctx p) (ht : FollowsOperand ctx t) : MayFollow ctx (some p) t
  | product (p t : Token N) (hm : ctx.config.implicitMul = true) (h : Product p t) : MayFollow ctx (some p) t

/-- The tokens are well placed: `open_` are the open brackets, innermost first, each with whether it belongs to a function; `before` is the token before. At the
end an operand is complete and no bracket is open. A comma is directly within the brackets of a function. -/
def WellPlaced (ctx : Ctx N) (open_ : List (Char × Bool)) (before : Option (Token N)) : List (Token N) → Prop
  | [] => open_ = [] ∧ ∃ t, before = some t ∧ EndsOperand ctx t
  | t :: ts => MayFollow ctx before t ∧
    match t with
    | .gopen o => WellPlaced ctx ((o, before.any Token.isFunction) :: open_) (some t) ts
    | .gclose c => ∃ o b rest, open_ = (o, b) :: rest ∧ Closes o c ∧ WellPlaced ctx rest (some t) ts
    | .comma => (∃ o rest, open_ = (o, true) :: rest) ∧ WellPlaced ctx open_ (some t) ts
    | t => WellPlaced ctx open_ (some t) ts

end Prexel
