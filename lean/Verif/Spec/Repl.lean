import Verif.Model.Repl
import Verif.Spec.Words
/-!
# Specification: the interactive prompt
-/

namespace Prexel
variable {N S α : Type}

/-- The last `n` elements, in order (all of them if there are fewer). -/
def lastN (n : Nat) (l : List α) : List α := l.drop (l.length - n)

/-- A list without the elements that repeat the one just before them. -/
def squeeze [DecidableEq α] : List α → List α
  | [] => []
  | [x] => [x]
  | x :: y :: l => if x = y then squeeze (y :: l) else x :: squeeze (y :: l)

/-- A callback that also keeps a record of the lines it was given and what it answered. -/
def recorded (f : S → Str → Res (Flow × S)) (s : List (Str × Flow) × S) (l : Str) : Res (Flow × List (Str × Flow) × S) :=
  (f s.2 l).bind fun r => .ok (r.1, s.1 ++ [(l, r.1)], r.2)

/-- The lines of a record that belong in the history: not blank, and not the line that ended the session. -/
def historyLines (r : List (Str × Flow)) : List Str := (r.filter fun x => x.2 = .none ∧ ¬ Blank x.1).map (·.1)

/-- The line assigns to the variable `name`: `name = text`, with white space anywhere around the parts. -/
def AssignsTo (name line : Str) : Prop :=
  ∃ w a w' b, line = w ++ (a ++ (w' ++ '=' :: b)) ∧ Blank w ∧ Blank w' ∧ a = name ∧ '=' ∉ w ++ a ++ w'

/-- The last value in what was printed. -/
def lastValue : List (Printed N) → Option N
  | [] => none
  | .value n :: l => (lastValue l).or (some n)
  | .error :: l => lastValue l

/-- Enters lines one after the other until one ends the session: what was printed, and the context at the end. -/
def Session.enterAll (S : Session N) : List (Printed N) × Context N → List Str → Res (List (Printed N) × Context N)
  | s, [] => .ok s
  | s, l :: ls => (S.line s.2 l).bind fun r => match r.1 with
    | .break_ => .ok (s.1 ++ r.2.1, r.2.2)
    | _ => S.enterAll (s.1 ++ r.2.1, r.2.2) ls

end Prexel
