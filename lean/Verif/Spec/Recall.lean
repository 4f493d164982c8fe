import Verif.Spec.Repl
/-!
# Specification: the lines that a session remembers
-/

namespace Prexel
variable {N : Type}

/-- The lines on which Enter was pressed while the session was still going on, in the order in which they were entered. -/
def Session.entered (S : Session N) (c : Context N) (zero : N) (size : Option Nat) (ks : List Key) : List Str :=
  (List.range ks.length).filterMap fun i =>
    match ks[i]?, S.run c zero size (ks.take i) with
    | some Key.enter, .ok (true, e) => some e.buf
    | _, _ => none

/-- The line is `exit`, with any white space around it. -/
def IsExit (l : Str) : Prop := ∃ w w', Blank w ∧ Blank w' ∧ l = w ++ str "exit" ++ w'

open Classical in
/-- The lines worth remembering: not blank, and not `exit`. -/
noncomputable def memorable (ls : List Str) : List Str := ls.filter fun l => decide (¬ Blank l ∧ ¬ IsExit l)

end Prexel
