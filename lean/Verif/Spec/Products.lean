import Verif.Spec.Syntax
/-!
# Specification: products without a multiplication sign, written out
-/

namespace Prexel
variable {N : Type}

mutual
/-- The same expression, where each product without `*` is written with `*` and parentheses around it. -/
def Expr.bracketed : Expr N → Expr N
  | .imp l r => .paren .parenthesis (.bin ['*'] l.bracketed r.bracketed)
  | .atom a => .atom a
  | .signed u a => .signed u a
  | .prefixed u e => .prefixed u e.bracketed
  | .postfixed p e => .postfixed p e.bracketed
  | .paren g e => .paren g e.bracketed
  | .call f g args => .call f g args.bracketed
  | .bin o l r => .bin o l.bracketed r.bracketed
def Args.bracketed : Args N → Args N
  | .one e => .one e.bracketed
  | .more e rest => .more e.bracketed rest.bracketed
end

mutual
/-- The same expression, where each product without `*` is written with `*`. -/
def Expr.starred : Expr N → Expr N
  | .imp l r => .bin ['*'] l.starred r.starred
  | .atom a => .atom a
  | .signed u a => .signed u a
  | .prefixed u e => .prefixed u e.starred
  | .postfixed p e => .postfixed p e.starred
  | .paren g e => .paren g e.starred
  | .call f g args => .call f g args.starred
  | .bin o l r => .bin o l.starred r.starred
def Args.starred : Args N → Args N
  | .one e => .one e.starred
  | .more e rest => .more e.starred rest.starred
end

/-- The first factor of the expression is the left factor of a product without `*`. -/
def Expr.startsWithImp : Expr N → Prop
  | .imp _ _ => True
  | .bin _ l _ => l.startsWithImp
  | _ => False

mutual
/-- No product without `*` stands directly to the right of an operator (or of another product without `*`) that groups left of `*`. -/
def Expr.Loose (ctx : Ctx N) : Expr N → Prop
  | .imp l r => (r.startsWithImp → ¬ GroupsLeft ctx ['*'] ['*']) ∧ l.Loose ctx ∧ r.Loose ctx
  | .atom _ => True
  | .signed _ _ => True
  | .prefixed _ e => e.Loose ctx
  | .postfixed _ e => e.Loose ctx
  | .paren _ e => e.Loose ctx
  | .call _ _ args => args.Loose ctx
  | .bin o l r => (r.startsWithImp → ¬ GroupsLeft ctx o ['*']) ∧ l.Loose ctx ∧ r.Loose ctx
def Args.Loose (ctx : Ctx N) : Args N → Prop
  | .one e => e.Loose ctx
  | .more e rest => e.Loose ctx ∧ rest.Loose ctx
end

end Prexel
