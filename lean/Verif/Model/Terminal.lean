import Verif.Model.Repl
/-!
# What is drawn at the prompt

Models `eval/src/writer.rs`, `eval/src/repl/repl_writer.rs`, the drawing of `Repl::run` (`eval/src/repl/repl.rs`) and the texts of `eval_loop`
(`eval/src/repl/mod.rs`), together with the terminal behind them.

The terminal is not part of the repository. It has rows of a given number of columns, a cursor in the last row, and knows how many columns a
character takes; `\n` begins a new row, `\x08` moves the cursor to the left, a character that does not fit begins a new row. Simplifications:
a character of no width is not drawn at all, colours are kept with the character instead of being switched by escape sequences, rows never
scroll away, and standard output is flushed at each line end (its buffer of 1024 bytes never runs full).
-/

namespace Prexel
variable {N S : Type}

/-- `crossterm::style::Color`: the colours that `eval` uses. -/
inductive Color
  | red | green | yellow | blue | cyan | white
  deriving DecidableEq, Repr

/-- The fields of `ColorWriter`, eval/src/writer.rs 29-33: foreground and background. -/
structure Style where
  fg : Option Color
  bg : Option Color
  deriving DecidableEq, Repr

/-- No colours, `ColorWriter::new` and `reset`, eval/src/writer.rs 37-42 and 113-117. -/
def Style.plain : Style := ⟨none, none⟩

/-- A character on the screen. -/
abbrev Cell := Char × Style

/-- The terminal: number of columns, and columns per character. -/
structure Tty where
  cols : Nat
  width : Char → Nat

/-- The rows above the cursor, the row of the cursor, and the column of the cursor. -/
structure Screen where
  above : List (List Cell)
  row : List Cell
  col : Nat
  deriving DecidableEq, Repr

/-- An empty cell. -/
def blankCell : Cell := (' ', .plain)

/-- Writes cells into a row at a column; missing columns before it are blank. -/
def overwrite (row : List Cell) (col : Nat) (cells : List Cell) : List Cell :=
  row.take col ++ List.replicate (col - row.length) blankCell ++ cells ++ row.drop (col + cells.length)

/-- The cursor goes to the begin of a new row. -/
def Screen.newRow (s : Screen) : Screen := ⟨s.above ++ [s.row], [], 0⟩

/-- The terminal draws one character. -/
def Screen.put (T : Tty) (s : Screen) (x : Cell) : Screen :=
  if x.1 = '\n' then s.newRow
  else if x.1 = '\x08' then { s with col := s.col - 1 }
  else if T.width x.1 = 0 then s
  else
    let s := if T.cols < s.col + T.width x.1 then s.newRow else s
    let cells := x :: List.replicate (T.width x.1 - 1) (' ', x.2)
    { s with row := overwrite s.row s.col cells, col := s.col + T.width x.1 }

/-- The terminal draws a text. -/
def Screen.puts (T : Tty) (s : Screen) (xs : List Cell) : Screen := xs.foldl (Screen.put T) s

/-- `Clear(ClearType::CurrentLine)` of crossterm. -/
def Screen.clearLine (s : Screen) : Screen := { s with row := [] }

/-- `MoveLeft` of crossterm. -/
def Screen.moveLeft (s : Screen) (n : Nat) : Screen := { s with col := s.col - n }

/-- The writer, the text standard output still holds back, and the screen. -/
structure Console where
  style : Style
  pending : List Cell
  screen : Screen
  deriving DecidableEq, Repr

namespace Console

/-- What follows the last line end. -/
def tailOf (xs : List Cell) : List Cell := (xs.reverse.takeWhile fun x => x.1 ≠ '\n').reverse

/-- `print!`: standard output is line buffered. -/
def print (T : Tty) (c : Console) (xs : List Cell) : Console :=
  let all := c.pending ++ xs
  let tail := tailOf all
  { c with screen := c.screen.puts T (all.take (all.length - tail.length)), pending := tail }

/-- `eprint!`: standard error is not buffered. -/
def eprint (T : Tty) (c : Console) (xs : List Cell) : Console := { c with screen := c.screen.puts T xs }

/-- `ColorWriter::flush`, eval/src/writer.rs 44-47. -/
def flush (T : Tty) (c : Console) : Console := { c with screen := c.screen.puts T c.pending, pending := [] }

/-- `ColorWriter::fg`, eval/src/writer.rs 49-52. -/
def setFg (c : Console) (color : Option Color) : Console := { c with style := { c.style with fg := color } }

/-- `ColorWriter::bg`, eval/src/writer.rs 54-57. -/
def setBg (c : Console) (color : Option Color) : Console := { c with style := { c.style with bg := color } }

/-- `ColorWriter::write` and `ColorWriter::write_err`, eval/src/writer.rs 65-82 and 89-106. -/
def write (T : Tty) (colors err : Bool) (c : Console) (data : Str) : Console :=
  let out := if err then eprint T else print T
  if !colors then out c (data.map fun ch => (ch, .plain))
  else { out c (data.map fun ch => (ch, c.style)) with style := .plain }

/-- `ColorWriter::writeln` and `ColorWriter::writeln_err`, eval/src/writer.rs 84-87 and 108-111. -/
def writeln (T : Tty) (colors err : Bool) (c : Console) (data : Str) : Console :=
  ((c.write T colors err data).write T colors err ['\n'])

/-- `ReplWriter::write_prompt_prefix`, eval/src/repl/repl_writer.rs 53-57. -/
def prompt (T : Tty) (colors : Bool) (pre : Option Str) (c : Console) : Console :=
  match pre with
  | some p => (c.setFg (some .cyan)).write T colors false p
  | none => c

/-- `ReplWriter::writeln` and `ReplWriter::writeln_err`, eval/src/repl/repl_writer.rs 63-66 and 72-75. -/
def replWriteln (T : Tty) (colors err : Bool) (pre : Option Str) (c : Console) (data : Str) : Console :=
  (c.writeln T colors err data).prompt T colors pre

/-- `execute!(stdout, Clear(CurrentLine), MoveLeft(u16::MAX))`, eval/src/repl/repl_writer.rs 81-86. -/
def clear (T : Tty) (c : Console) : Console :=
  let c := c.flush T
  { c with screen := c.screen.clearLine.moveLeft 65535 }

/-- `ReplWriter::rewrite`, eval/src/repl/repl_writer.rs 77-90. -/
def rewrite (T : Tty) (colors : Bool) (pre : Option Str) (c : Console) (data : Str) : Console :=
  (((c.clear T).prompt T colors pre).setFg c.style.fg |>.setBg c.style.bg).write T colors false data

end Console

/-- `writer.red().writeln_err(text)` or `writer.green().writeln(text)`, eval/src/repl/mod.rs 97-125. -/
structure Said where
  err : Bool
  color : Color
  text : Str
  deriving DecidableEq, Repr

/-- The prompt of `Repl`, eval/src/repl/repl.rs 11-16, and where it is drawn. -/
structure Look where
  tty : Tty
  colors : Bool
  pre : Option Str
  preText : Option Str
  exitText : Option Str

/-- The callback writes its lines, eval/src/repl/mod.rs 97-125. -/
def Look.say (L : Look) (c : Console) (out : List Said) : Console :=
  out.foldl (fun c x => (c.setFg (some x.color)).replWriteln L.tty L.colors x.err L.pre x.text) c

/-- A session with its screen. -/
structure Drawn (S : Type) where
  editor : Editor S
  console : Console

/-- Before the loop, eval/src/repl/repl.rs 36-42, on an empty screen. -/
def Look.init (L : Look) (historySize : Nat) (s : S) : Drawn S :=
  let c : Console := ⟨.plain, [], ⟨[], [], 0⟩⟩
  let c := match L.preText with
    | some t => (c.setFg (some .green)).replWriteln L.tty L.colors false L.pre t
    | none => c.prompt L.tty L.colors L.pre
  ⟨.init historySize s, c.flush L.tty⟩

/-- The arm `KeyCode::Enter`, eval/src/repl/repl.rs 59-80, with the flush at the end of the loop (116). -/
def Look.enter (L : Look) (f : S → Str → Res (Flow × S × List Said)) (d : Drawn S) : Res (Bool × Drawn S) :=
  let e := d.editor
  let c := (d.console.replWriteln L.tty L.colors false L.pre []).flush L.tty
  (f e.state e.buf).bind fun r =>
    let e' : Editor S := { e with buf := [], state := r.2.1 }
    let c := L.say c r.2.2
    match r.1 with
    | .break_ => .ok (false, ⟨e', c⟩)
    | .continue_ => .ok (true, ⟨e', c⟩)
    | .none =>
      if (trim e.buf).length > 0 then
        (if e.history.last ≠ some e.buf then e.history.push e.buf else .ok e.history).bind fun h =>
          .ok (true, ⟨{ e' with history := h, cursor := h.len }, c.flush L.tty⟩)
      else .ok (true, ⟨e', c.flush L.tty⟩)

/-- The body of the loop of `Repl::run`, eval/src/repl/repl.rs 44-117, with what it draws. -/
def Look.step (L : Look) (f : S → Str → Res (Flow × S × List Said)) (d : Drawn S) : Key → Res (Bool × Drawn S)
  | .backspace =>
    if d.editor.buf.length > 0 then
      .ok (true, ⟨{ d.editor with buf := d.editor.buf.dropLast }, (d.console.write L.tty L.colors false ['\x08', ' ', '\x08']).flush L.tty⟩)
    else .ok (true, ⟨d.editor, d.console.flush L.tty⟩)
  | .enter => L.enter f d
  | .up =>
    if d.editor.cursor > 0 then
      (d.editor.history.index (d.editor.cursor - 1)).bind fun s =>
        .ok (true, ⟨{ d.editor with cursor := d.editor.cursor - 1, buf := s }, (d.console.rewrite L.tty L.colors L.pre s).flush L.tty⟩)
    else .ok (true, ⟨d.editor, d.console.flush L.tty⟩)
  | .down =>
    if d.editor.cursor < d.editor.history.len then
      if d.editor.cursor + 1 = d.editor.history.len then
        .ok (true, ⟨{ d.editor with cursor := d.editor.cursor + 1, buf := [] }, (d.console.rewrite L.tty L.colors L.pre []).flush L.tty⟩)
      else (d.editor.history.index (d.editor.cursor + 1)).bind fun s =>
        .ok (true, ⟨{ d.editor with cursor := d.editor.cursor + 1, buf := s }, (d.console.rewrite L.tty L.colors L.pre s).flush L.tty⟩)
    else .ok (true, ⟨d.editor, d.console.flush L.tty⟩)
  | .char ch => .ok (true, ⟨{ d.editor with buf := d.editor.buf ++ [ch] }, (d.console.write L.tty L.colors false [ch]).flush L.tty⟩)
  | .esc => .ok (false, d)
  | .interrupt => .ok (false, d)
  | .other => .ok (true, ⟨d.editor, d.console.flush L.tty⟩)

/-- After the loop, eval/src/repl/repl.rs 119-121; standard output is flushed when the process ends. -/
def Look.exit (L : Look) (c : Console) : Console :=
  match L.exitText with
  | some t => ((c.setFg (some .yellow)).rewrite L.tty L.colors L.pre t).flush L.tty
  | none => c.flush L.tty

/-- `Repl::run`, eval/src/repl/repl.rs 44-121, over the events that arrive. -/
def Look.loop (L : Look) (f : S → Str → Res (Flow × S × List Said)) : Drawn S → List Key → Res (Bool × Drawn S)
  | d, [] => .ok (true, d)
  | d, k :: ks => (L.step f d k).bind fun r => if r.1 then L.loop f r.2 ks else .ok (false, ⟨r.2.editor, L.exit r.2.console⟩)

/-- `Repl::run`, eval/src/repl/repl.rs 20-122. -/
def Look.run (L : Look) (f : S → Str → Res (Flow × S × List Said)) (historySize : Nat) (s : S) (ks : List Key) : Res (Bool × Drawn S) :=
  L.loop f (L.init historySize s) ks

/-- The prompt as `eval_loop` builds it, eval/src/repl/mod.rs 74-79. -/
def evalLook (T : Tty) (colors : Bool) : Look :=
  ⟨T, colors, some (str ">>> "), some (str "Press CTRL+C or type 'exit' to Exit"), some (str "Bye bye!")⟩

/-- How `eval_loop` writes what a line prints, eval/src/repl/mod.rs 97-125. The text of an error message is not modelled: `msg` stands for
the message of the line that is entered. -/
def Printed.said (show_ : N → Str) (msg : Str) : Printed N → Said
  | .value n => ⟨false, .green, show_ n⟩
  | .error => ⟨true, .red, msg⟩

/-- The callback of `eval_loop`, eval/src/repl/mod.rs 81-130, with the lines it writes. -/
def Session.say (S : Session N) (show_ : N → Str) (msg : Context N → Str → Str) (c : Context N) (l : Str) :
    Res (Flow × Context N × List Said) :=
  (S.line c l).bind fun r => .ok (r.1, r.2.2, r.2.1.map (Printed.said show_ (msg c l)))

/-- `run_repl`, eval/src/repl/mod.rs 24-131, with its screen. -/
def Session.runDrawn (S : Session N) (T : Tty) (colors : Bool) (show_ : N → Str) (msg : Context N → Str → Str) (c : Context N) (zero : N)
    (historySize : Option Nat) (keys : List Key) : Res (Bool × Drawn (Context N)) :=
  (S.start c zero).bind fun c' => (evalLook T colors).run (S.say show_ msg) (historySize.getD 100) c' keys

end Prexel
