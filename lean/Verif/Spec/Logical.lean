import Verif.Spec.Words
/-!
# Specification: logical expressions

Does not mention the evaluator or the operators of the example.
-/

namespace Prexel
variable {N : Type}

inductive Connective
  | and | xor | or
  deriving DecidableEq

/-- How it is written. -/
def Connective.word : Connective → Str
  | .and => ['a', 'n', 'd']
  | .xor => ['x', 'o', 'r']
  | .or => ['o', 'r']

/-- How tightly it binds: `or` before `xor` before `and`. -/
def Connective.level : Connective → Nat
  | .and => 0
  | .xor => 1
  | .or => 2

/-- A logical expression; a leaf is a word with its value. -/
inductive Logic (N : Type) where
  | leaf (word : Str) (value : N)
  | node (op : Connective) (l r : Logic N)

/-- Its value. -/
def Logic.value (sem : Connective → N → N → N) : Logic N → N
  | .leaf _ v => v
  | .node op l r => sem op (l.value sem) (r.value sem)

/-- All leaves are written properly. -/
def Logic.Leaves (ok : Str → N → Prop) : Logic N → Prop
  | .leaf w v => ok w v
  | .node _ l r => l.Leaves ok ∧ r.Leaves ok

/-- The expression as words, in a place where operators that bind looser than `p` need parentheses. Operators of the same level group to the left. -/
def Logic.words (p : Nat) : Logic N → List Str
  | .leaf w _ => [w]
  | .node op l r =>
    let inner := l.words op.level ++ op.word :: r.words (op.level + 1)
    if op.level < p then ['('] :: (inner ++ [[')']]) else inner

end Prexel
