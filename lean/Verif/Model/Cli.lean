import Verif.Model.Apps
import Verif.Model.Terminal

/-!
# The commands of the `eval` program

Models `main` (`eval/src/main.rs`) for the commands other than `repl`, and the tables of `eval/src/list.rs`. What is written goes to two streams
of characters with their colours; escape sequences are not characters of the model. `clap` is not modelled: a command is what it has read.
Standard output and standard error never fail.
-/

namespace Prexel
variable {N D F T : Type}

/-- `Commands`, eval/src/main.rs 51-85, without `Repl`; `Cli::no_color` (44-45) is `colors` below. -/
inductive Command
  | eval (type : NumberType) (expression : Str)
  | constants (type : NumberType)
  | operators (type : NumberType)
  | functions (type : NumberType)

/-- What has been written to standard output and to standard error, and the colours of the `ColorWriter` (eval/src/writer.rs 29-33). -/
structure Streams where
  out : List Cell
  err : List Cell
  style : Style

namespace Streams

/-- Nothing written, `ColorWriter::new`, eval/src/writer.rs 37-42. -/
def new : Streams := ⟨[], [], .plain⟩

/-- `ColorWriter::red` and the like, eval/src/writer.rs 8-16, 49-52 and 119-135. -/
def fg (s : Streams) (color : Color) : Streams := { s with style := { s.style with fg := some color } }

/-- `ColorWriter::write`, eval/src/writer.rs 65-82. -/
def write (colors : Bool) (s : Streams) (data : Str) : Streams :=
  if !colors then { s with out := s.out ++ data.map fun ch => (ch, .plain) }
  else { s with out := s.out ++ data.map fun ch => (ch, s.style), style := .plain }

/-- `ColorWriter::write_err`, eval/src/writer.rs 89-106. -/
def writeErr (colors : Bool) (s : Streams) (data : Str) : Streams :=
  if !colors then { s with err := s.err ++ data.map fun ch => (ch, .plain) }
  else { s with err := s.err ++ data.map fun ch => (ch, s.style), style := .plain }

/-- `ColorWriter::writeln`, eval/src/writer.rs 84-87. -/
def writeln (colors : Bool) (s : Streams) (data : Str) : Streams := (s.write colors data).write colors ['\n']

/-- `ColorWriter::writeln_err`, eval/src/writer.rs 108-111. -/
def writelnErr (colors : Bool) (s : Streams) (data : Str) : Streams := (s.writeErr colors data).writeErr colors ['\n']

end Streams

/-- `str::len` of the Rust standard library: the number of bytes in UTF-8. -/
def byteLen (s : Str) : Nat := (s.map fun c => c.utf8Size).sum

/-- `iter().map(|..| name.len()).max().unwrap_or(0) + MIN_WIDTH`, eval/src/list.rs 6, 54-59, 72-77, 106-111 and 124-128. -/
def tableWidth (rows : List (Str × Str)) : Nat := ((rows.map fun r => byteLen r.1).foldl max 0) + 4

/-- The loop of `list_variables`, `list_constants`, `list_operators` and `list_functions`, eval/src/list.rs 61-64, 79-82, 113-116 and 130-134. -/
def writeTable (colors : Bool) (rows : List (Str × Str)) : Streams :=
  rows.foldl (fun s r => (((s.fg .blue).write colors (padRight byteLen r.1 (tableWidth rows))).fg .white).writeln colors r.2) .new

/-- What a run leaves behind: the streams and the exit status (101 after a panic). -/
structure Finished where
  streams : Streams
  status : Nat

/-- The rows that `list_with_context` writes, eval/src/list.rs 37-134: names with their values, or with `description().unwrap_or_default()`
(eval/src/list.rs 92-104 and 131). -/
def Infos.rows (I : Infos) : Command → List (Str × Str)
  | .eval _ _ => []
  | .constants _ => I.constants
  | .operators _ => I.operators.map fun i => (i.name, i.description.getD [])
  | .functions _ => I.functions.map fun i => (i.name, i.description.getD [])

namespace World
variable (W : World D F T)

/-- `main`, eval/src/main.rs 87-110, for commands other than `repl`; `message` is `Display` of an error. -/
def main (colors : Bool) (message : Failure → Str) (command : Command) : Finished :=
  let list (t : NumberType) : Finished :=
    match W.cliInfos t with
    | .ok I => ⟨writeTable colors (I.rows command), 0⟩
    | _ => ⟨.new, 101⟩
  match command with
  | .eval t s =>
    match W.cliEval t s with
    | .result text => ⟨Streams.new.writeln colors text, 0⟩
    | .error e => ⟨(Streams.new.fg .red).writelnErr colors (message e), 0⟩
    | .panic => ⟨.new, 101⟩
  | .constants t => list t
  | .operators t => list t
  | .functions t => list t

end World

end Prexel
