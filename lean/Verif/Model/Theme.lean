import Verif.Model.Terminal
/-!
# Themes of the prompt

Models `eval/src/repl/theme.rs` and the builders of `eval/src/style.rs`, over the writer of `Verif.Model.Terminal`. The programs do not use themes;
they are part of the interface of the prompt.
-/

namespace Prexel

/-- The methods of the trait `ReplTheme`, eval/src/repl/theme.rs 7-16, as calls: which one, and with which text. -/
inductive ThemeCall
  | promptPrefix
  | prompt (text : Str)
  | error (text : Str)
  | startText (text : Str)
  | exitText (text : Str)
  | promptLine (text : Str)
  | errorLine (text : Str)
  deriving DecidableEq, Repr

/-- `SimpleTheme` and `SimpleThemeBuilder`, eval/src/repl/theme.rs 18-24 and 101-107; `TextStyling` is a `Style`, `ColoredText<String>` a text and a
`Style`. -/
structure SimpleTheme where
  prompt : Option Style
  promptPrefix : Option (Str × Style)
  error : Option Style
  startText : Option Style
  exitText : Option Style
  deriving DecidableEq, Repr

/-- `SimpleTheme::new` and `SimpleThemeBuilder::new`, eval/src/repl/theme.rs 28-36 and 110-118. -/
def SimpleTheme.new : SimpleTheme := ⟨none, none, none, none, none⟩

/-- The methods of `SimpleThemeBuilder`, eval/src/repl/theme.rs 120-143. -/
inductive ThemeSetting
  | prompt (s : Option Style)
  | promptPrefix (s : Option (Str × Style))
  | error (s : Option Style)
  | startText (s : Option Style)
  | exitText (s : Option Style)

/-- eval/src/repl/theme.rs 120-143 -/
def SimpleTheme.set (t : SimpleTheme) : ThemeSetting → SimpleTheme
  | .prompt s => { t with prompt := s }
  | .promptPrefix s => { t with promptPrefix := s }
  | .error s => { t with error := s }
  | .startText s => { t with startText := s }
  | .exitText s => { t with exitText := s }

/-- `SimpleTheme::builder()`, the calls of the builder and `build`, eval/src/repl/theme.rs 38-40 and 145-153. -/
def SimpleTheme.build (l : List ThemeSetting) : SimpleTheme := l.foldl SimpleTheme.set .new

/-- `ColorWriter::styled`, eval/src/writer.rs 59-63. -/
def Console.styled (c : Console) (s : Style) : Console := (c.setFg s.fg).setBg s.bg

/-- `if let Some(style) = … { writer.styled(style) } else { writer }`, eval/src/repl/theme.rs 54-58 and alike. -/
def Console.maybe (c : Console) : Option Style → Console
  | some s => c.styled s
  | none => c

/-- `impl ReplTheme for SimpleTheme`, eval/src/repl/theme.rs 44-99. -/
def SimpleTheme.call (T : Tty) (colors : Bool) (t : SimpleTheme) (c : Console) : ThemeCall → Console
  | .promptPrefix =>
    match t.promptPrefix with
    | some (text, s) => ((c.setFg s.fg).setBg s.bg).write T colors false text
    | none => c
  | .prompt x => (c.maybe t.prompt).write T colors false x
  | .error x => (c.maybe t.error).write T colors true x
  | .startText x => (c.maybe t.startText).writeln T colors false x
  | .exitText x => (c.maybe t.exitText).writeln T colors false x
  | .promptLine x => (c.maybe t.prompt).writeln T colors false x
  | .errorLine x => (c.maybe t.error).writeln T colors true x

/-- `impl ReplTheme for DefaultTheme`, eval/src/repl/theme.rs 156-184. -/
def defaultTheme (T : Tty) (colors : Bool) (c : Console) : ThemeCall → Console
  | .promptPrefix => (c.setFg (some .cyan)).write T colors false (str ">>> ")
  | .prompt x => c.write T colors false x
  | .error x => (c.setFg (some .red)).write T colors true x
  | .startText x => (c.setFg (some .green)).writeln T colors false x
  | .exitText x => (c.setFg (some .yellow)).writeln T colors false x
  | .promptLine x => c.writeln T colors false x
  | .errorLine x => (c.setFg (some .red)).writeln T colors true x

/-- `impl ReplTheme for NoTheme`, eval/src/repl/theme.rs 187-219. -/
def noTheme (T : Tty) (colors : Bool) (c : Console) : ThemeCall → Console
  | .promptPrefix => c
  | .prompt x => c.write T colors false x
  | .error x => c.write T colors true x
  | .startText x => c.writeln T colors false x
  | .exitText x => c.writeln T colors false x
  | .promptLine x => c.writeln T colors false x
  | .errorLine x => c.writeln T colors true x

/-- `ReplWriter::rewrite_err`, eval/src/repl/repl_writer.rs 92-105. The sequence that clears the line goes to standard error, which is not buffered;
what standard output holds back stays there. -/
def Console.rewriteErr (T : Tty) (colors : Bool) (pre : Option Str) (c : Console) (data : Str) : Console :=
  let cleared := { c with screen := c.screen.clearLine.moveLeft 65535 }
  ((cleared.prompt T colors pre).setFg c.style.fg |>.setBg c.style.bg).write T colors false data

end Prexel
