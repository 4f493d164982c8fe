import Verif.Model.Terminal
/-!
# Specification: what the prompt shows

What the words of C103-C106 mean: ordinary characters, the text of a row, a line on the screen, and the transcript of a session.
-/

namespace Prexel
variable {S : Type}

/-- An ordinary character: it takes one column and does not control the terminal. -/
def Ordinary (T : Tty) (s : Str) : Prop := ∀ c ∈ s, c ≠ '\n' ∧ c ≠ '\x08' ∧ T.width c = 1

/-- The characters of a row. -/
def textOf (row : List Cell) : Str := row.map (·.1)

/-- The last row of the screen shows a text, blanks behind it, and the cursor stands behind the text. -/
def Shows (s : Screen) (text : Str) : Prop := (∃ n, textOf s.row = text ++ List.replicate n ' ') ∧ s.col = text.length

/-- A text without the blanks at its end. -/
def trimEnd (s : Str) : Str := (s.reverse.dropWhile (· = ' ')).reverse

/-- What is read above the last row. -/
def Screen.read (s : Screen) : List Str := s.above.map fun r => trimEnd (textOf r)

/-- The text in front of what is typed; nothing if there is no prompt. -/
def Look.prefix (L : Look) : Str := L.pre.getD []

/-- The callback without what it writes. -/
def silent (f : S → Str → Res (Flow × S × List Said)) (s : S) (l : Str) : Res (Flow × S) := (f s l).bind fun r => .ok (r.1, r.2.1)

/-- The callback, keeping a list of the lines that are entered and of what is written for them. -/
def witnessed (f : S → Str → Res (Flow × S × List Said)) (s : List (Str × List Said) × S) (l : Str) :
    Res (Flow × (List (Str × List Said) × S) × List Said) :=
  (f s.2 l).bind fun r => .ok (r.1, (s.1 ++ [(l, r.2.2)], r.2.1), r.2.2)

/-- The states that the callback can reach from `s0` when lines are entered. -/
inductive Reached (f : S → Str → Res (Flow × S × List Said)) (s0 : S) : S → Prop
  | start : Reached f s0 s0
  | line {s : S} {l : Str} {r : Flow × S × List Said} : Reached f s0 s → f s l = .ok r → Reached f s0 r.2.1

/-- In this state the callback does not ask for `Continue`, which skips the flush, and writes nothing to standard error after its first line. -/
def OrderlyAt (f : S → Str → Res (Flow × S × List Said)) (s : S) : Prop :=
  ∀ l r, f s l = .ok r → r.1 ≠ .continue_ ∧ ∀ x ∈ r.2.2.tail, x.err = false

/-- The callback is orderly whatever lines are entered. -/
def Orderly (f : S → Str → Res (Flow × S × List Said)) (s0 : S) : Prop := ∀ s, Reached f s0 s → OrderlyAt f s

/-- The characters that are typed are ordinary. -/
def Typed (T : Tty) (ks : List Key) : Prop := ∀ c, Key.char c ∈ ks → Ordinary T [c]

/-- At no time the prompt and the line that is edited fill a row of the terminal. -/
def LineFits (L : Look) (f : S → Str → Res (Flow × S × List Said)) (size : Nat) (s : S) (ks : List Key) : Prop :=
  ∀ ks', ks' <+: ks → ∀ d, L.run f size s ks' = .ok (true, d) → (L.prefix ++ d.editor.buf).length < L.tty.cols

/-- The rows that a session leaves behind, from the lines entered and what was written for them: every row begins with the prompt. -/
def transcript (p : Str) (log : List (Str × List Said)) : List Str :=
  log.flatMap fun x => trimEnd (p ++ x.1) :: x.2.map fun y => trimEnd (p ++ y.text)

/-- The screen without its colours. -/
def Screen.erase (s : Screen) : Screen :=
  ⟨s.above.map (·.map fun x => (x.1, .plain)), s.row.map fun x => (x.1, .plain), s.col⟩

end Prexel
