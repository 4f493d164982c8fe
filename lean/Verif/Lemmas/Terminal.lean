import Verif.Spec.Terminal
/-!
# Lemmas about the terminal and the writer
-/

set_option linter.unusedVariables false
set_option linter.unusedSimpArgs false

namespace Prexel
variable {S : Type}

/-- Cells of ordinary characters. -/
def OrdinaryCells (T : Tty) (xs : List Cell) : Prop := Ordinary T (textOf xs)

theorem Ordinary.append {T : Tty} {s t : Str} (h : Ordinary T s) (h' : Ordinary T t) : Ordinary T (s ++ t) := by
  intro c hc
  rcases List.mem_append.mp hc with h1 | h1
  · exact h c h1
  · exact h' c h1

theorem Ordinary.of_append {T : Tty} {s t : Str} (h : Ordinary T (s ++ t)) : Ordinary T s ∧ Ordinary T t :=
  ⟨fun c hc => h c (List.mem_append_left _ hc), fun c hc => h c (List.mem_append_right _ hc)⟩

theorem textOf_map (s : Str) (st : Style) : textOf (s.map fun c => (c, st)) = s := by simp [textOf, Function.comp_def]

theorem put_ordinary (T : Tty) (s : Screen) (x : Cell) (hx : Ordinary T [x.1]) (hc : s.col < T.cols) :
    s.put T x = ⟨s.above, overwrite s.row s.col [x], s.col + 1⟩ := by
  obtain ⟨h1, h2, h3⟩ := hx x.1 (by simp)
  have h4 : ¬ T.cols < s.col + 1 := by omega
  unfold Screen.put
  rw [if_neg h1, if_neg h2, h3]
  simp [h4]

theorem overwrite_overwrite (row : List Cell) (col : Nat) (x : Cell) (xs : List Cell) :
    overwrite (overwrite row col [x]) (col + 1) xs = overwrite row col (x :: xs) := by
  unfold overwrite
  have hl : (row.take col ++ List.replicate (col - row.length) blankCell).length = col := by simp; omega
  generalize hA : row.take col ++ List.replicate (col - row.length) blankCell = A at *
  have h1 : (A ++ [x] ++ row.drop (col + [x].length)).take (col + 1) = A ++ [x] := by
    rw [List.take_append_of_le_length (by simp [hl])]
    rw [List.take_of_length_le (by simp [hl])]
  have h2 : (A ++ [x] ++ row.drop (col + [x].length)).length ≥ col + 1 := by simp [hl]
  rw [h1, Nat.sub_eq_zero_of_le h2]
  have h3 : (A ++ [x] ++ row.drop (col + [x].length)).drop (col + 1 + xs.length) = row.drop (col + (x :: xs).length) := by
    rw [List.drop_append, List.drop_of_length_le (by simp [hl])]
    simp only [List.length_append, hl, List.length_cons, List.length_nil, List.drop_drop, List.nil_append]
    congr 1
    omega
  rw [h3]
  simp

theorem puts_ordinary (T : Tty) (xs : List Cell) (s : Screen) (hx : OrdinaryCells T xs) (hc : s.col + xs.length ≤ T.cols)
    (hr : s.col ≤ s.row.length) :
    s.puts T xs = ⟨s.above, overwrite s.row s.col xs, s.col + xs.length⟩ := by
  induction xs generalizing s with
  | nil =>
    have : overwrite s.row s.col [] = s.row := by simp [overwrite, Nat.sub_eq_zero_of_le hr]
    simp [Screen.puts, this]
  | cons x xs ih =>
    have hx' : Ordinary T [x.1] ∧ Ordinary T (textOf xs) := Ordinary.of_append (s := [x.1]) hx
    simp only [List.length_cons] at hc
    rw [Screen.puts, List.foldl_cons, ← Screen.puts, put_ordinary T s x hx'.1 (by omega)]
    rw [ih _ hx'.2 (by simp; omega) (by simp [overwrite]; omega)]
    simp [overwrite_overwrite, List.length_cons]
    omega

theorem puts_append (T : Tty) (s : Screen) (xs ys : List Cell) : s.puts T (xs ++ ys) = (s.puts T xs).puts T ys := by
  simp [Screen.puts, List.foldl_append]

theorem puts_nil (T : Tty) (s : Screen) : s.puts T [] = s := rfl

theorem puts_nl (T : Tty) (s : Screen) (xs : List Cell) (st : Style) :
    s.puts T (xs ++ [('\n', st)]) = (s.puts T xs).newRow := by
  rw [puts_append]; simp [Screen.puts, Screen.put]

/-- The cells of a text in the colours of the writer. -/
def paint (colors : Bool) (st : Style) (s : Str) : List Cell := s.map fun c => (c, if colors then st else .plain)

theorem paint_append (colors : Bool) (st : Style) (s t : Str) : paint colors st (s ++ t) = paint colors st s ++ paint colors st t := by
  simp [paint]

theorem paint_length (colors : Bool) (st : Style) (s : Str) : (paint colors st s).length = s.length := by simp [paint]

theorem textOf_paint (colors : Bool) (st : Style) (s : Str) : textOf (paint colors st s) = s := textOf_map s _

theorem write_eq (T : Tty) (colors err : Bool) (c : Console) (data : Str) :
    c.write T colors err data =
      let c' := (if err then Console.eprint T else Console.print T) c (paint colors c.style data)
      ⟨if colors then .plain else c.style, c'.pending, c'.screen⟩ := by
  cases colors <;> cases err <;> rfl

theorem takeWhile_all {α : Type} (p : α → Bool) (l : List α) (h : ∀ x ∈ l, p x = true) : l.takeWhile p = l := by
  induction l with
  | nil => rfl
  | cons a l ih => simp [List.takeWhile_cons, h a (by simp), ih fun x hx => h x (by simp [hx])]

theorem tailOf_ordinary (T : Tty) (xs : List Cell) (h : OrdinaryCells T xs) : Console.tailOf xs = xs := by
  unfold Console.tailOf
  rw [takeWhile_all]
  · simp
  · intro x hx
    have := (h x.1 (List.mem_map.mpr ⟨x, by simpa using hx, rfl⟩)).1
    simpa using this

theorem tailOf_nl (xs : List Cell) (st : Style) : Console.tailOf (xs ++ [('\n', st)]) = [] := by
  simp [Console.tailOf]

theorem print_ordinary (T : Tty) (c : Console) (xs : List Cell) (hp : OrdinaryCells T c.pending) (h : OrdinaryCells T xs) :
    c.print T xs = { c with pending := c.pending ++ xs } := by
  have : OrdinaryCells T (c.pending ++ xs) := by
    unfold OrdinaryCells textOf at *
    rw [List.map_append]
    exact hp.append h
  unfold Console.print
  simp only [tailOf_ordinary T _ this]
  simp [Screen.puts]

theorem print_nl (T : Tty) (c : Console) (st : Style) :
    c.print T [('\n', st)] = { c with screen := (c.screen.puts T c.pending).newRow, pending := [] } := by
  unfold Console.print
  simp only [tailOf_nl, List.length_nil, Nat.sub_zero, List.take_length, puts_nl]

/-- Whatever is printed in several parts appears in order. -/
theorem print_flush (T : Tty) (c : Console) (xs : List Cell) :
    (c.print T xs).screen.puts T (c.print T xs).pending = c.screen.puts T (c.pending ++ xs) := by
  unfold Console.print
  simp only
  rw [← puts_append]
  congr 1
  generalize c.pending ++ xs = all
  have h : ∃ pre, all = pre ++ Console.tailOf all := by
    refine ⟨(all.reverse.dropWhile fun x => x.1 ≠ '\n').reverse, ?_⟩
    unfold Console.tailOf
    rw [← List.reverse_append, List.takeWhile_append_dropWhile]
    simp
  obtain ⟨pre, hpre⟩ := h
  generalize Console.tailOf all = t at *
  subst hpre
  simp

theorem print_print_nl (T : Tty) (c : Console) (xs : List Cell) (st st' : Style) :
    ({ c.print T xs with style := st' }.print T [('\n', st)]) =
      { c with style := st', screen := (c.screen.puts T (c.pending ++ xs)).newRow, pending := [] } := by
  rw [print_nl]
  simp only
  rw [print_flush]

/-- The colours after something was written. -/
def after (colors : Bool) (st : Style) : Style := if colors then .plain else st

theorem write_ordinary (T : Tty) (colors : Bool) (c : Console) (s : Str) (hp : OrdinaryCells T c.pending) (h : Ordinary T s) :
    c.write T colors false s = ⟨after colors c.style, c.pending ++ paint colors c.style s, c.screen⟩ := by
  rw [write_eq]
  simp only [Bool.false_eq_true, if_false]
  rw [print_ordinary T c _ hp (by unfold OrdinaryCells; rw [textOf_paint]; exact h)]
  rfl

theorem writeln_eq (T : Tty) (colors : Bool) (c : Console) (s : Str) :
    c.writeln T colors false s = ⟨after colors c.style, [], (c.screen.puts T (c.pending ++ paint colors c.style s)).newRow⟩ := by
  unfold Console.writeln
  rw [write_eq T colors false c s]
  simp only [Bool.false_eq_true, if_false]
  rw [write_eq]
  simp only [Bool.false_eq_true, if_false, paint, List.map_cons, List.map_nil]
  rw [print_nl]
  simp only
  rw [print_flush]
  cases colors <;> rfl

theorem writeln_err_eq (T : Tty) (colors : Bool) (c : Console) (s : Str) :
    c.writeln T colors true s = ⟨after colors c.style, c.pending, (c.screen.puts T (paint colors c.style s)).newRow⟩ := by
  unfold Console.writeln
  rw [write_eq T colors true c s]
  simp only [if_true]
  rw [write_eq]
  simp only [if_true, paint, List.map_cons, List.map_nil, Console.eprint]
  rw [← puts_nl _ _ _ .plain, puts_append]
  cases colors <;> rfl

/-- The cells of the prompt. -/
def Look.promptCells (L : Look) : List Cell := paint L.colors ⟨some .cyan, none⟩ L.prefix

/-- No colours are set, unless colours are not used at all. -/
def Reset (L : Look) (st : Style) : Prop := L.colors = true → st = .plain

theorem after_reset (L : Look) (st : Style) : Reset L (after L.colors st) := fun h => by simp [after, h]

theorem paint_reset (L : Look) {st : Style} (h : Reset L st) (s : Str) : paint L.colors st s = paint true .plain s := by
  unfold paint
  cases hc : L.colors with
  | false => simp
  | true => simp [h hc]

theorem prompt_eq (L : Look) (c : Console) (hb : L.colors = true → c.style.bg = none) (hp : OrdinaryCells L.tty c.pending)
    (h : Ordinary L.tty L.prefix) :
    ∃ st, (Reset L c.style → Reset L st) ∧ c.prompt L.tty L.colors L.pre = ⟨st, c.pending ++ L.promptCells, c.screen⟩ := by
  unfold Console.prompt Look.promptCells Look.prefix at *
  cases hL : L.pre with
  | none => exact ⟨c.style, id, by simp [paint]⟩
  | some p =>
    simp only [hL, Option.getD_some] at h ⊢
    rw [write_ordinary L.tty L.colors (c.setFg (some .cyan)) p hp h]
    refine ⟨after L.colors (c.setFg (some .cyan)).style, fun _ => after_reset L _, ?_⟩
    have : paint L.colors (c.setFg (some .cyan)).style p = paint L.colors ⟨some .cyan, none⟩ p := by
      unfold paint
      cases hc : L.colors with
      | false => simp
      | true => simp [Console.setFg, hb hc]
    rw [this]
    rfl

theorem promptCells_ordinary (L : Look) (h : Ordinary L.tty L.prefix) : OrdinaryCells L.tty L.promptCells := by
  unfold OrdinaryCells Look.promptCells
  rw [textOf_paint]
  exact h

theorem Reset.bg {L : Look} {st : Style} (h : Reset L st) : L.colors = true → st.bg = none := fun hc => by rw [h hc]; rfl

theorem overwrite_nil (xs : List Cell) : overwrite [] 0 xs = xs := by simp [overwrite]

/-- `rewrite` leaves the prompt and the text on the row. -/
theorem rewrite_eq (L : Look) (c : Console) (s : Str) (h : Ordinary L.tty L.prefix) (hs : Ordinary L.tty s)
    (hb : L.colors = true → c.style.bg = none) (hp : c.pending = []) (hcol : c.screen.col ≤ 65535)
    (hfit : (L.prefix ++ s).length ≤ L.tty.cols) :
    (c.rewrite L.tty L.colors L.pre s).flush L.tty =
      ⟨after L.colors c.style, [], ⟨c.screen.above, L.promptCells ++ paint L.colors c.style s, (L.prefix ++ s).length⟩⟩ := by
  unfold Console.rewrite
  have h1 : c.clear L.tty = ⟨c.style, [], ⟨c.screen.above, [], 0⟩⟩ := by
    simp [Console.clear, Console.flush, hp, Screen.puts, Screen.clearLine, Screen.moveLeft, Nat.sub_eq_zero_of_le hcol]
  rw [h1]
  obtain ⟨st, -, h2⟩ := prompt_eq L ⟨c.style, [], ⟨c.screen.above, [], 0⟩⟩ hb (by simp [OrdinaryCells, textOf, Ordinary]) h
  rw [h2]
  have h3 : (Console.setBg (Console.setFg ⟨st, [] ++ L.promptCells, ⟨c.screen.above, [], 0⟩⟩ c.style.fg) c.style.bg) =
      ⟨c.style, L.promptCells, ⟨c.screen.above, [], 0⟩⟩ := rfl
  simp only
  rw [h3, write_ordinary L.tty L.colors _ s (promptCells_ordinary L h) hs]
  unfold Console.flush
  simp only
  rw [puts_ordinary _ _ _ ?_ ?_ (by simp)]
  · simp [overwrite_nil, paint_length, Look.promptCells]
  · unfold OrdinaryCells
    rw [textOf, List.map_append]
    exact (promptCells_ordinary L h).append (by have := textOf_paint L.colors c.style s; unfold textOf at this; rw [this]; exact hs)
  · simpa [paint_length, Look.promptCells] using hfit

/-- The prompt is on the screen, and nothing behind it. -/
def AtPrompt (L : Look) (c : Console) : Prop :=
  Reset L c.style ∧ c.pending = [] ∧ c.screen.row = L.promptCells ∧ c.screen.col = L.prefix.length

/-- A new row has begun, and the prompt is still to be flushed. -/
def Due (L : Look) (c : Console) : Prop :=
  Reset L c.style ∧ c.pending = L.promptCells ∧ c.screen.row = [] ∧ c.screen.col = 0

theorem Due.flush {L : Look} {c : Console} (hd : Due L c) (h : Ordinary L.tty L.prefix) (hl : L.prefix.length ≤ L.tty.cols) :
    AtPrompt L (c.flush L.tty) ∧ (c.flush L.tty).screen.above = c.screen.above := by
  obtain ⟨h1, h2, h3, h4⟩ := hd
  have : (c.flush L.tty) = ⟨c.style, [], ⟨c.screen.above, L.promptCells, L.prefix.length⟩⟩ := by
    unfold Console.flush
    rw [h2, puts_ordinary _ _ _ (promptCells_ordinary L h) (by simpa [h4, Look.promptCells, paint_length] using hl) (by simp [h3, h4])]
    simp [h3, h4, overwrite_nil, Look.promptCells, paint_length]
  rw [this]
  exact ⟨⟨h1, rfl, rfl, rfl⟩, rfl⟩

theorem AtPrompt.flush {L : Look} {c : Console} (hd : AtPrompt L c) : c.flush L.tty = c := by
  obtain ⟨h1, h2, h3, h4⟩ := hd
  cases c
  simp_all [Console.flush, Screen.puts]

theorem prompt_due (L : Look) (c : Console) (h1 : Reset L c.style) (h2 : c.pending = []) (h3 : c.screen.row = []) (h4 : c.screen.col = 0)
    (h : Ordinary L.tty L.prefix) : Due L (c.prompt L.tty L.colors L.pre) ∧ (c.prompt L.tty L.colors L.pre).screen.above = c.screen.above := by
  obtain ⟨st, h5, h6⟩ := prompt_eq L c h1.bg (by rw [h2]; simp [OrdinaryCells, textOf, Ordinary]) h
  rw [h6]
  exact ⟨⟨h5 h1, by simp [h2], h3, h4⟩, rfl⟩

/-- The row of a line that is written: the prompt and the text in its colour. -/
def Look.saidRow (L : Look) (x : Said) : List Cell := L.promptCells ++ paint L.colors ⟨some x.color, none⟩ x.text

theorem paint_color (L : Look) {c : Console} (h : Reset L c.style) (col : Color) (s : Str) :
    paint L.colors (c.setFg (some col)).style s = paint L.colors ⟨some col, none⟩ s := by
  unfold paint
  cases hc : L.colors with
  | false => simp
  | true => simp [Console.setFg, h hc, Style.plain]

theorem draw_row (L : Look) (a : List (List Cell)) (row : List Cell) (col : Nat) (xs ys : List Cell) (hx : OrdinaryCells L.tty xs)
    (hy : OrdinaryCells L.tty ys) (hl : (xs ++ ys).length ≤ L.tty.cols)
    (hd : (row = [] ∧ col = 0)) : (Screen.puts L.tty ⟨a, row, col⟩ (xs ++ ys)).newRow = ⟨a ++ [xs ++ ys], [], 0⟩ := by
  obtain ⟨rfl, rfl⟩ := hd
  rw [puts_ordinary _ _ _ ?_ (by simpa using hl) (by simp)]
  · simp [overwrite_nil, Screen.newRow]
  · unfold OrdinaryCells textOf
    rw [List.map_append]
    exact hx.append hy

/-- A text that is one row after the prompt. -/
def OneRow (L : Look) (t : Str) : Prop := Ordinary L.tty t ∧ (L.prefix ++ t).length ≤ L.tty.cols

theorem said_ordinary (L : Look) {x : Said} (h : OneRow L x.text) (c : Color) :
    OrdinaryCells L.tty (paint L.colors ⟨some c, none⟩ x.text) := by
  unfold OrdinaryCells; rw [textOf_paint]; exact h.1

theorem say_fresh (L : Look) (h : Ordinary L.tty L.prefix) {c : Console} (hc : AtPrompt L c) (x : Said) :
    Due L (L.say c [x]) ∧ (OneRow L x.text → (L.say c [x]).screen.above = c.screen.above ++ [L.saidRow x]) := by
  obtain ⟨h1, h2, h3, h4⟩ := hc
  unfold Look.say
  simp only [List.foldl_cons, List.foldl_nil]
  unfold Console.replWriteln
  have key : (Console.writeln L.tty L.colors x.err (c.setFg (some x.color)) x.text) =
      ⟨after L.colors (c.setFg (some x.color)).style, [], (c.screen.puts L.tty (paint L.colors ⟨some x.color, none⟩ x.text)).newRow⟩ := by
    cases x.err
    · rw [writeln_eq, paint_color L h1]; simp [Console.setFg, h2]
    · rw [writeln_err_eq, paint_color L h1]; simp [Console.setFg, h2]
  rw [key]
  obtain ⟨hd, ha⟩ := prompt_due L ⟨after L.colors (c.setFg (some x.color)).style, [],
    (c.screen.puts L.tty (paint L.colors ⟨some x.color, none⟩ x.text)).newRow⟩ (after_reset L _) rfl rfl rfl h
  refine ⟨hd, fun ho => ?_⟩
  rw [ha]
  simp only
  rw [puts_ordinary _ _ _ (said_ordinary L ho _) (by have := ho.2; simp [h4, paint_length] at this ⊢; omega)
    (by simp [h3, h4, Look.promptCells, paint_length])]
  simp only [Screen.newRow, Look.saidRow, h3, h4, overwrite]
  have hl : L.promptCells.length = L.prefix.length := by simp [Look.promptCells, paint_length]
  rw [List.take_of_length_le (by omega), List.drop_of_length_le (by omega)]
  simp [hl]

theorem say_due (L : Look) (h : Ordinary L.tty L.prefix) {c : Console} (hc : Due L c) (x : Said) (he : x.err = false) :
    Due L (L.say c [x]) ∧ (OneRow L x.text → (L.say c [x]).screen.above = c.screen.above ++ [L.saidRow x]) := by
  obtain ⟨h1, h2, h3, h4⟩ := hc
  unfold Look.say
  simp only [List.foldl_cons, List.foldl_nil]
  unfold Console.replWriteln
  have key : (Console.writeln L.tty L.colors x.err (c.setFg (some x.color)) x.text) =
      ⟨after L.colors (c.setFg (some x.color)).style, [], (c.screen.puts L.tty (L.promptCells ++ paint L.colors ⟨some x.color, none⟩ x.text)).newRow⟩ := by
    rw [he, writeln_eq, paint_color L h1]; simp [Console.setFg, h2]
  rw [key]
  obtain ⟨hd, ha⟩ := prompt_due L ⟨after L.colors (c.setFg (some x.color)).style, [],
    (c.screen.puts L.tty (L.promptCells ++ paint L.colors ⟨some x.color, none⟩ x.text)).newRow⟩ (after_reset L _) rfl rfl rfl h
  refine ⟨hd, fun ho => ?_⟩
  rw [ha]
  have hs : c.screen = ⟨c.screen.above, [], 0⟩ := by
    cases hsc : c.screen
    rw [hsc] at h3 h4
    simp_all
  rw [hs]
  simp only
  rw [draw_row L _ _ _ _ _ (promptCells_ordinary L h) (said_ordinary L ho _)
    (by simpa [Look.promptCells, paint_length] using ho.2) ⟨rfl, rfl⟩]
  rfl

theorem say_all (L : Look) (h : Ordinary L.tty L.prefix) (out : List Said) {c : Console} (hc : Due L c) (he : ∀ x ∈ out, x.err = false) :
    Due L (L.say c out) ∧ ((∀ x ∈ out, OneRow L x.text) → (L.say c out).screen.above = c.screen.above ++ out.map L.saidRow) := by
  induction out generalizing c with
  | nil => exact ⟨hc, fun _ => by simp [Look.say]⟩
  | cons x out ih =>
    obtain ⟨h1, h2⟩ := say_due L h hc x (he x (by simp))
    obtain ⟨h3, h4⟩ := ih h1 (fun y hy => he y (by simp [hy]))
    refine ⟨h3, fun ho => ?_⟩
    have : L.say c (x :: out) = L.say (L.say c [x]) out := rfl
    rw [this, h4 (fun y hy => ho y (by simp [hy])), h2 (ho x (by simp))]
    simp

/-- After the callback has written its lines: the prompt is on the screen as soon as it is flushed. -/
theorem say_flush (L : Look) (h : Ordinary L.tty L.prefix) (hl : L.prefix.length ≤ L.tty.cols) (out : List Said) {c : Console} (hc : AtPrompt L c)
    (he : ∀ x ∈ out.tail, x.err = false) :
    AtPrompt L ((L.say c out).flush L.tty) ∧
      ((∀ x ∈ out, OneRow L x.text) → ((L.say c out).flush L.tty).screen.above = c.screen.above ++ out.map L.saidRow) := by
  cases out with
  | nil =>
    have : L.say c [] = c := rfl
    rw [this, hc.flush]
    exact ⟨hc, fun _ => by simp⟩
  | cons x out =>
    obtain ⟨h1, h2⟩ := say_fresh L h hc x
    obtain ⟨h3, h4⟩ := say_all L h out h1 he
    have : L.say c (x :: out) = L.say (L.say c [x]) out := rfl
    rw [this]
    obtain ⟨h5, h6⟩ := h3.flush h hl
    refine ⟨h5, fun ho => ?_⟩
    rw [h6, h4 (fun y hy => ho y (by simp [hy])), h2 (ho x (by simp))]
    simp

end Prexel
