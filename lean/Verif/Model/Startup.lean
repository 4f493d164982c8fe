import Verif.Model.Basic
/-!
# How the programs start

`main` of prexel-server and the `ReplBuilder` of eval.
-/

namespace Prexel

/-- The loop of `u16::from_str_radix(_, 10)` of the standard library: every digit is checked, the multiplication and the addition must not overflow. -/
def u16Digits (acc : Nat) : Str → Option Nat
  | [] => some acc
  | c :: s =>
    if '0' ≤ c ∧ c ≤ '9' then
      if acc * 10 ≤ 65535 then
        if acc * 10 + (c.toNat - 48) ≤ 65535 then u16Digits (acc * 10 + (c.toNat - 48)) s else none
      else none
    else none

/-- `str::parse::<u16>` of the standard library: a leading `+` is allowed, an empty text and a sign alone are errors. (A `-` is no digit.) -/
def parseU16 : Str → Option Nat
  | [] => none
  | ['+'] => none
  | ['-'] => none
  | '+' :: s => u16Digits 0 s
  | s => u16Digits 0 s

/-- The port of the server, prexel-server/src/main.rs 26-30. `env::var` gives nothing if the variable is missing or not Unicode. -/
def serverPort (variable_ : Option Str) : Nat := ((variable_.map parseU16).join).getD 8000

/-- `ReplBuilder`, eval/src/repl/repl.rs 125-130. -/
structure ReplBuilder where
  promptPrefix : Option Str
  historySize : Option Nat
  preText : Option Str
  exitText : Option Str
  deriving DecidableEq, Repr

namespace ReplBuilder

/-- `ReplBuilder::new`, eval/src/repl/repl.rs 133-140. -/
def new : ReplBuilder := ⟨none, none, none, none⟩
/-- `ReplBuilder::prompt_prefix`, eval/src/repl/repl.rs 142-145. -/
def withPromptPrefix (b : ReplBuilder) (s : Str) : ReplBuilder := { b with promptPrefix := some s }
/-- `ReplBuilder::history_size`, eval/src/repl/repl.rs 147-150. -/
def withHistorySize (b : ReplBuilder) (n : Option Nat) : ReplBuilder := { b with historySize := n }
/-- `ReplBuilder::pre_text`, eval/src/repl/repl.rs 152-155. -/
def withPreText (b : ReplBuilder) (s : Str) : ReplBuilder := { b with preText := some s }
/-- `ReplBuilder::exit_text`, eval/src/repl/repl.rs 157-160. -/
def withExitText (b : ReplBuilder) (s : Str) : ReplBuilder := { b with exitText := some s }

end ReplBuilder

/-- `Repl`, eval/src/repl/repl.rs 11-16; of the writer only the prompt (eval/src/repl/repl_writer.rs) is kept. -/
structure ReplSettings where
  prompt : Option Str
  historySize : Nat
  preText : Option Str
  exitText : Option Str
  deriving DecidableEq, Repr

/-- `ReplBuilder::build`, eval/src/repl/repl.rs 162-184. -/
def ReplBuilder.build (b : ReplBuilder) : ReplSettings :=
  ⟨b.promptPrefix, b.historySize.getD 100, b.preText, b.exitText⟩

end Prexel
