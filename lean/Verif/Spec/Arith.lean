import Verif.Model.Basic
/-!
# Specification: school arithmetic

Arithmetic trees, how they are written with the brackets that school rules require, and their value.
-/

namespace Prexel
variable {N : Type}

/-- The binary operators of the built-in contexts. -/
inductive ArOp where
  | add | sub | mul | div | mod | pow
  deriving DecidableEq

/-- Arithmetic trees. -/
inductive Arith (N : Type) where
  | num (n : N)
  | neg (e : Arith N)
  | fact (e : Arith N)
  | bin (o : ArOp) (l r : Arith N)

/-- How the operator is written. -/
def ArOp.symbol : ArOp → Str
  | .add => ['+']
  | .sub => ['-']
  | .mul => ['*']
  | .div => ['/']
  | .mod => ['m', 'o', 'd']
  | .pow => ['^']

/-- Sums bind loosest, then products, then signs, then powers. -/
def ArOp.level : ArOp → Nat
  | .add => 1
  | .sub => 1
  | .mul => 2
  | .div => 2
  | .mod => 2
  | .pow => 4

/-- The level of the left operand: one with a lower level needs brackets. Powers group to the right, the others to the left. -/
def ArOp.leftLevel : ArOp → Nat
  | .pow => 5
  | o => o.level
/-- The level of the right operand. -/
def ArOp.rightLevel : ArOp → Nat
  | .pow => 4
  | o => o.level + 1

/-- A number is 6, a factorial 5, a power 4, a number with a sign 3, products 2, sums 1. A sign in front of anything but a number always has
brackets around it. -/
def Arith.level : Arith N → Nat
  | .num _ => 6
  | .fact _ => 5
  | .neg (.num _) => 3
  | .neg _ => 6
  | .bin o _ _ => o.level

/-- Tokens in parentheses. -/
def bracketed (ts : List (Token N)) : List (Token N) := .gopen '(' :: (ts ++ [.gclose ')'])

/-- Tokens in parentheses if the level is too low. -/
def atLevel (need have_ : Nat) (ts : List (Token N)) : List (Token N) := if need ≤ have_ then ts else bracketed ts

/-- The tree as written, with the brackets that the levels require. -/
def Arith.tokens : Arith N → List (Token N)
  | .num n => [.number n]
  | .neg (.num n) => [.unary ['-'], .number n]
  | .neg e => bracketed (.unary ['-'] :: bracketed e.tokens)
  | .fact e => atLevel 6 e.level e.tokens ++ [.unary ['!']]
  | .bin o l r => atLevel o.leftLevel l.level l.tokens ++ .binary o.symbol :: atLevel o.rightLevel r.level r.tokens

/-- What the operators do. -/
structure Arithmetic (N : Type) where
  op : ArOp → N → N → Res N
  neg : N → Res N
  fact : N → Res N

/-- The value of a tree: operands from left to right, then the operator. -/
def Arith.value (A : Arithmetic N) : Arith N → Res N
  | .num n => .ok n
  | .neg e => (e.value A).bind A.neg
  | .fact e => (e.value A).bind A.fact
  | .bin o l r => (l.value A).bind fun x => (r.value A).bind fun y => A.op o x y

/-- A factorial occurs in the tree. -/
def Arith.hasFact : Arith N → Bool
  | .num _ => false
  | .neg e => e.hasFact
  | .fact _ => true
  | .bin _ l r => l.hasFact || r.hasFact

end Prexel
