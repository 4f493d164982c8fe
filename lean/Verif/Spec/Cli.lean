import Verif.Model.Cli
import Verif.Spec.Apps

/-!
# Specification: what the `eval` program prints
-/
namespace Prexel
variable {D F T : Type}

/-- The characters of a stream. -/
def printed (cells : List Cell) : Str := cells.map (·.1)

/-- The library evaluates an expression with numbers of a type to a value that prints as `text`. -/
def World.CliEvaluates (W : World D F T) (t : NumberType) (expression text : Str) : Prop :=
  match t with
  | .decimal => W.decimalBackend.Evaluates W.K W.debug cliConfig [] expression text
  | .float => W.cliFloatBackend.Evaluates W.K W.debug cliConfig [] expression text
  | .complex => W.complexBackend.Evaluates W.K W.debug cliConfig [] expression text
  | .integer => W.integerBackend.Evaluates W.K W.debug cliConfig [] expression text
  | .binary => W.binaryBackend.Evaluates W.K W.debug cliConfig [] expression text

/-- The number type of a command. -/
def Command.type : Command → NumberType
  | .eval t _ => t
  | .constants t => t
  | .operators t => t
  | .functions t => t

/-- The command prints a table. -/
def Command.lists : Command → Prop
  | .eval _ _ => False
  | _ => True

/-- A row: the name, blanks up to column `k`, the value. -/
def rowText (k : Nat) (r : Str × Str) : Str := r.1 ++ List.replicate (k - r.1.length) ' ' ++ r.2 ++ ['\n']

/-- The colours of such a row: the name and the blanks in blue, the value in white, the line end in no colour. -/
def rowCells (k : Nat) (r : Str × Str) : List Cell :=
  (r.1 ++ List.replicate (k - r.1.length) ' ').map (fun ch => (ch, ⟨some .blue, none⟩)) ++ r.2.map (fun ch => (ch, ⟨some .white, none⟩)) ++
    [('\n', ⟨none, none⟩)]

end Prexel
