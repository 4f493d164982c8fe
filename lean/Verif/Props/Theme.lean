import Verif.Model.Theme
import Mathlib.Data.List.Induction
/-!
# Themes of the prompt (C145)
-/

namespace Prexel

/-- The colours of a theme for the parts of a session. -/
structure Palette where
  before : Option (Str × Style)
  prompt : Style
  error : Style
  startText : Style
  exitText : Style

/-- What a call writes: on standard error or not, the text with its colours, and whether a line end follows. -/
def Palette.writes (p : Palette) : ThemeCall → List (Bool × Str × Style × Bool)
  | .promptPrefix => match p.before with
    | some (text, s) => [(false, text, s, false)]
    | none => []
  | .prompt x => [(false, x, p.prompt, false)]
  | .error x => [(true, x, p.error, false)]
  | .startText x => [(false, x, p.startText, true)]
  | .exitText x => [(false, x, p.exitText, true)]
  | .promptLine x => [(false, x, p.prompt, true)]
  | .errorLine x => [(true, x, p.error, true)]

/-- One write reaches its stream: the characters in the colours, or without any if colours are switched off; a line end is never coloured. -/
def Console.emit (T : Tty) (colors : Bool) (c : Console) (w : Bool × Str × Style × Bool) : Console :=
  let out := fun (c : Console) (cells : List Cell) => if w.1 then c.eprint T cells else c.print T cells
  let c := out c (w.2.1.map fun ch => (ch, if colors then w.2.2.1 else .plain))
  if w.2.2.2 then out c [('\n', .plain)] else c

/-- The colours chosen last for each part; plain if none were. -/
def lastChoice {α β : Type} (pick : α → Option β) (l : List α) (d : β) : β := (l.filterMap pick).getLast?.getD d

def ThemeSetting.prompt? : ThemeSetting → Option (Option Style) | .prompt s => some s | _ => none
def ThemeSetting.before? : ThemeSetting → Option (Option (Str × Style)) | .promptPrefix s => some s | _ => none
def ThemeSetting.error? : ThemeSetting → Option (Option Style) | .error s => some s | _ => none
def ThemeSetting.start? : ThemeSetting → Option (Option Style) | .startText s => some s | _ => none
def ThemeSetting.exit? : ThemeSetting → Option (Option Style) | .exitText s => some s | _ => none

/-- The palette of a built theme. -/
def builtPalette (l : List ThemeSetting) : Palette where
  before := lastChoice ThemeSetting.before? l none
  prompt := (lastChoice ThemeSetting.prompt? l none).getD .plain
  error := (lastChoice ThemeSetting.error? l none).getD .plain
  startText := (lastChoice ThemeSetting.start? l none).getD .plain
  exitText := (lastChoice ThemeSetting.exit? l none).getD .plain

def defaultPalette : Palette := ⟨some (str ">>> ", ⟨some .cyan, none⟩), .plain, ⟨some .red, none⟩, ⟨some .green, none⟩, ⟨some .yellow, none⟩⟩
def noPalette : Palette := ⟨none, .plain, .plain, .plain, .plain⟩

theorem lastChoice_append {α β : Type} (pick : α → Option β) (l : List α) (x : α) (d : β) :
    lastChoice pick (l ++ [x]) d = (pick x).getD (lastChoice pick l d) := by
  unfold lastChoice
  cases h : pick x <;> simp [List.filterMap_append, h]

theorem build_fields (l : List ThemeSetting) : SimpleTheme.build l =
    ⟨lastChoice ThemeSetting.prompt? l none, lastChoice ThemeSetting.before? l none, lastChoice ThemeSetting.error? l none,
      lastChoice ThemeSetting.start? l none, lastChoice ThemeSetting.exit? l none⟩ := by
  induction l using List.reverseRecOn with
  | nil => rfl
  | append_singleton l x ih =>
    have : SimpleTheme.build (l ++ [x]) = (SimpleTheme.build l).set x := by simp [SimpleTheme.build]
    rw [this, ih]
    simp only [lastChoice_append]
    cases x <;> rfl

/-- A console between calls: the writer has no colours. -/
def Console.Rested (colors : Bool) (c d : Console) : Prop := c.pending = d.pending ∧ c.screen = d.screen ∧ (colors = true → c.style = .plain)

theorem write_emit (T : Tty) (colors err : Bool) {c d : Console} (h : c.pending = d.pending ∧ c.screen = d.screen) (s : Style)
    (hs : colors = true → c.style = s) (x : Str) :
    Console.Rested colors (c.write T colors err x) (d.emit T colors (err, x, s, false)) := by
  obtain ⟨cs, cp, cc⟩ := c
  obtain ⟨ds, dp, dc⟩ := d
  obtain ⟨h1, h2⟩ := h
  simp only at h1 h2 hs
  subst h1 h2
  cases colors with
  | false => cases err <;> exact ⟨rfl, rfl, fun h => by cases h⟩
  | true =>
    have hs := hs rfl
    subst hs
    cases err <;> exact ⟨rfl, rfl, fun _ => rfl⟩

theorem emit_newline (T : Tty) (colors err : Bool) (d : Console) (s : Style) (x : Str) :
    d.emit T colors (err, x, s, true) = (d.emit T colors (err, x, s, false)).emit T colors (err, ['\n'], .plain, false) := by
  cases err <;> cases colors <;> rfl

theorem writeln_emit (T : Tty) (colors err : Bool) {c d : Console} (h : c.pending = d.pending ∧ c.screen = d.screen) (s : Style)
    (hs : colors = true → c.style = s) (x : Str) :
    Console.Rested colors (c.writeln T colors err x) (d.emit T colors (err, x, s, true)) := by
  obtain ⟨h1, h2, h3⟩ := write_emit T colors err h s hs x
  rw [emit_newline]
  exact write_emit T colors err ⟨h1, h2⟩ .plain h3 ['\n']

theorem maybe_same (c : Console) (s : Option Style) : (c.maybe s).pending = c.pending ∧ (c.maybe s).screen = c.screen := by
  cases s <;> exact ⟨rfl, rfl⟩

theorem maybe_style {colors : Bool} {c : Console} (h : colors = true → c.style = .plain) (s : Option Style) :
    colors = true → (c.maybe s).style = s.getD .plain := by
  intro hc
  cases s with
  | none => exact h hc
  | some s => rfl

/-- One call of a theme with a palette. -/
def Follows (T : Tty) (colors : Bool) (p : Palette) (f : Console → ThemeCall → Console) : Prop :=
  ∀ c d k, Console.Rested colors c d → Console.Rested colors (f c k) ((p.writes k).foldl (Console.emit T colors) d)

theorem Follows.all {T : Tty} {colors : Bool} {p : Palette} {f : Console → ThemeCall → Console} (h : Follows T colors p f) (ks : List ThemeCall) :
    ∀ c d, Console.Rested colors c d → Console.Rested colors (ks.foldl f c) ((ks.flatMap p.writes).foldl (Console.emit T colors) d) := by
  induction ks with
  | nil => intro c d hc; exact hc
  | cons k ks ih =>
    intro c d hc
    rw [List.flatMap_cons, List.foldl_append]
    exact ih _ _ (h c d k hc)

theorem simple_follows (T : Tty) (colors : Bool) (l : List ThemeSetting) : Follows T colors (builtPalette l) ((SimpleTheme.build l).call T colors) := by
  intro c d k h
  rw [build_fields]
  have key : ∀ s : Option Style, ((c.maybe s).pending = d.pending ∧ (c.maybe s).screen = d.screen) ∧ (colors = true → (c.maybe s).style = s.getD .plain) :=
    fun s => ⟨⟨(maybe_same c s).1.trans h.1, (maybe_same c s).2.trans h.2.1⟩, maybe_style h.2.2 s⟩
  cases k with
  | promptPrefix =>
    simp only [SimpleTheme.call, Palette.writes, builtPalette]
    cases lastChoice ThemeSetting.before? l none with
    | none => exact h
    | some x => exact write_emit T colors false (c := (c.setFg x.2.fg).setBg x.2.bg) ⟨h.1, h.2.1⟩ x.2 (fun _ => rfl) x.1
  | prompt x => exact write_emit T colors false (key _).1 _ (key _).2 x
  | error x => exact write_emit T colors true (key _).1 _ (key _).2 x
  | startText x => exact writeln_emit T colors false (key _).1 _ (key _).2 x
  | exitText x => exact writeln_emit T colors false (key _).1 _ (key _).2 x
  | promptLine x => exact writeln_emit T colors false (key _).1 _ (key _).2 x
  | errorLine x => exact writeln_emit T colors true (key _).1 _ (key _).2 x

theorem coloured_style {colors : Bool} {c : Console} (h : colors = true → c.style = .plain) (x : Color) :
    colors = true → (c.setFg (some x)).style = ⟨some x, none⟩ := by
  intro hc
  simp [Console.setFg, h hc, Style.plain]

theorem default_follows (T : Tty) (colors : Bool) : Follows T colors defaultPalette (defaultTheme T colors) := by
  intro c d k h
  have key : ∀ x, ((c.setFg (some x)).pending = d.pending ∧ (c.setFg (some x)).screen = d.screen) := fun x => ⟨h.1, h.2.1⟩
  cases k with
  | promptPrefix => exact write_emit T colors false (key .cyan) _ (coloured_style h.2.2 _) _
  | prompt x => exact write_emit T colors false ⟨h.1, h.2.1⟩ _ h.2.2 x
  | error x => exact write_emit T colors true (key .red) _ (coloured_style h.2.2 _) x
  | startText x => exact writeln_emit T colors false (key .green) _ (coloured_style h.2.2 _) x
  | exitText x => exact writeln_emit T colors false (key .yellow) _ (coloured_style h.2.2 _) x
  | promptLine x => exact writeln_emit T colors false ⟨h.1, h.2.1⟩ _ h.2.2 x
  | errorLine x => exact writeln_emit T colors true (key .red) _ (coloured_style h.2.2 _) x

theorem no_follows (T : Tty) (colors : Bool) : Follows T colors noPalette (noTheme T colors) := by
  intro c d k h
  cases k with
  | promptPrefix => exact h
  | prompt x => exact write_emit T colors false ⟨h.1, h.2.1⟩ _ h.2.2 x
  | error x => exact write_emit T colors true ⟨h.1, h.2.1⟩ _ h.2.2 x
  | startText x => exact writeln_emit T colors false ⟨h.1, h.2.1⟩ _ h.2.2 x
  | exitText x => exact writeln_emit T colors false ⟨h.1, h.2.1⟩ _ h.2.2 x
  | promptLine x => exact writeln_emit T colors false ⟨h.1, h.2.1⟩ _ h.2.2 x
  | errorLine x => exact writeln_emit T colors true ⟨h.1, h.2.1⟩ _ h.2.2 x

/-- C145. Whatever is written through a theme, in any order and on any terminal, starting from a writer without colours: each text reaches the stream
of its kind, in the colours that were chosen last for its kind, and nothing that is written later takes these colours. -/
theorem C145_themes (T : Tty) (colors : Bool) (l : List ThemeSetting) (ks : List ThemeCall) (c : Console) (hc : c.style = .plain) :
    (Console.Rested colors (ks.foldl ((SimpleTheme.build l).call T colors) c) ((ks.flatMap (builtPalette l).writes).foldl (Console.emit T colors) c)) ∧
    (Console.Rested colors (ks.foldl (defaultTheme T colors) c) ((ks.flatMap defaultPalette.writes).foldl (Console.emit T colors) c)) ∧
    (Console.Rested colors (ks.foldl (noTheme T colors) c) ((ks.flatMap noPalette.writes).foldl (Console.emit T colors) c)) := by
  have h0 : Console.Rested colors c c := ⟨rfl, rfl, fun _ => hc⟩
  exact ⟨(simple_follows T colors l).all ks c c h0, (default_follows T colors).all ks c c h0, (no_follows T colors).all ks c c h0⟩

/-- C145, counterexample without colours: the writer keeps colours that it did not use, so that they appear on the next text once colours are
switched on again (`set_use_colors`). -/
theorem C145_leak_counterexample (T : Tty) (x y : Str) (c : Console) :
    ((defaultTheme T false c (.error x)).style.fg = some .red) ∧
    ((defaultTheme T true (defaultTheme T false c (.error x)) (.prompt y)).pending =
      Console.tailOf (c.pending ++ y.map fun ch => (ch, ⟨some .red, c.style.bg⟩))) := by
  constructor <;> rfl

/-- A message rewritten as an error is not seen: it goes to standard output, which holds it back. -/
theorem C145_rewrite_err_counterexample (T : Tty) (x : Str) (hx : '\n' ∉ x) (c : Console) (hp : c.pending = []) :
    (c.rewriteErr T false none x).screen = c.screen.clearLine.moveLeft 65535 ∧
    (c.rewriteErr T false none x).pending = x.map fun ch => (ch, .plain) := by
  have ht : Console.tailOf (x.map fun ch => (ch, Style.plain)) = x.map fun ch => (ch, Style.plain) := by
    unfold Console.tailOf
    have : ∀ l : List Cell, (∀ y ∈ l, y.1 ≠ '\n') → l.takeWhile (fun y => decide (y.1 ≠ '\n')) = l := by
      intro l hl
      induction l with
      | nil => rfl
      | cons a l ih => rw [List.takeWhile_cons, if_pos (by simpa using hl a (by simp)), ih fun y hy => hl y (by simp [hy])]
    rw [this, List.reverse_reverse]
    intro y hy
    simp only [List.mem_reverse, List.mem_map] at hy
    obtain ⟨ch, hch, rfl⟩ := hy
    rintro rfl
    exact hx hch
  constructor
  · simp [Console.rewriteErr, Console.prompt, Console.setFg, Console.setBg, Console.write, Console.print, hp, ht, Screen.puts]
  · simp [Console.rewriteErr, Console.prompt, Console.setFg, Console.setBg, Console.write, Console.print, hp, ht]

/-- A theme with two colours for errors, of which the second counts, and a text in it. -/
example : (builtPalette [.error (some ⟨some .blue, none⟩), .prompt none, .error (some ⟨some .red, some .white⟩)]).writes (.errorLine (str "no")) =
    [(true, str "no", ⟨some .red, some .white⟩, true)] := by rfl

end Prexel
