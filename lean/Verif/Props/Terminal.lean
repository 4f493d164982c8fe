import Verif.Lemmas.Terminal
import Verif.Props.Session
/-!
# Properties C103-C106: what the prompt shows
-/

set_option linter.unusedVariables false
set_option linter.unusedSimpArgs false

namespace Prexel
variable {N S : Type}

/-- The screen is in step with the line that is edited. -/
structure Good (L : Look) (e : Editor S) (c : Console) : Prop where
  reset : Reset L c.style
  pending : c.pending = []
  row : ∃ n, c.screen.row = L.promptCells ++ paint true .plain e.buf ++ List.replicate n blankCell
  col : c.screen.col = (L.prefix ++ e.buf).length
  buf : Ordinary L.tty e.buf
  history : ∀ h ∈ e.history.data, Ordinary L.tty h

theorem AtPrompt.good {L : Look} {c : Console} (hc : AtPrompt L c) {e : Editor S} (hb : e.buf = []) (hh : ∀ h ∈ e.history.data, Ordinary L.tty h) :
    Good L e c :=
  ⟨hc.1, hc.2.1, ⟨0, by simp [hc.2.2.1, hb, paint]⟩, by simp [hc.2.2.2, hb], by simp [hb, Ordinary], hh⟩

theorem Good.flush {L : Look} {e : Editor S} {c : Console} (h : Good L e c) : c.flush L.tty = c := by
  have := h.pending
  cases c
  simp_all [Console.flush, Screen.puts]

theorem rewrite_good {L : Look} {e e' : Editor S} {c : Console} (h : Good L e c) (hp : Ordinary L.tty L.prefix) (hl : L.tty.cols ≤ 65536)
    (hfit : (L.prefix ++ e.buf).length < L.tty.cols) (hfit' : (L.prefix ++ e'.buf).length < L.tty.cols) (hb : Ordinary L.tty e'.buf)
    (hh : e'.history = e.history) :
    Good L e' ((c.rewrite L.tty L.colors L.pre e'.buf).flush L.tty) ∧
      ((c.rewrite L.tty L.colors L.pre e'.buf).flush L.tty).screen.above = c.screen.above := by
  rw [rewrite_eq L c e'.buf hp hb h.reset.bg h.pending (by rw [h.col]; omega) (by omega)]
  refine ⟨⟨after_reset L _, rfl, ⟨0, ?_⟩, rfl, hb, by rw [hh]; exact h.history⟩, rfl⟩
  simp [paint_reset L h.reset]

theorem char_good {L : Look} {e : Editor S} {c : Console} (h : Good L e c) (ch : Char) (hch : Ordinary L.tty [ch])
    (hfit : (L.prefix ++ e.buf).length < L.tty.cols) :
    Good L { e with buf := e.buf ++ [ch] } ((c.write L.tty L.colors false [ch]).flush L.tty) ∧
      ((c.write L.tty L.colors false [ch]).flush L.tty).screen.above = c.screen.above := by
  rw [write_ordinary L.tty L.colors c [ch] (by rw [h.pending]; simp [OrdinaryCells, textOf, Ordinary]) hch]
  obtain ⟨n, hn⟩ := h.row
  have hcells : OrdinaryCells L.tty (paint L.colors c.style [ch]) := by unfold OrdinaryCells; rw [textOf_paint]; exact hch
  have hlen : (L.promptCells ++ paint true .plain e.buf).length = (L.prefix ++ e.buf).length := by simp [Look.promptCells, paint_length]
  unfold Console.flush
  simp only [h.pending, List.nil_append]
  rw [puts_ordinary _ _ _ hcells (by rw [h.col, paint_length]; simp at hfit ⊢; omega) (by rw [h.col, hn]; simp [Look.promptCells, paint_length])]
  refine ⟨⟨after_reset L _, rfl, ⟨n - 1, ?_⟩, ?_, h.buf.append hch, h.history⟩, rfl⟩
  · simp only [overwrite, hn, h.col, paint_reset L h.reset]
    rw [List.take_append_of_le_length (by omega), List.take_of_length_le (by omega), List.drop_append, List.drop_of_length_le (by omega),
      hlen, List.drop_replicate, Nat.sub_eq_zero_of_le (by simp only [List.length_append] at hlen ⊢; omega)]
    simp [paint]
  · simp [h.col, paint_length, Nat.add_assoc]

theorem backspace_good {L : Look} {e : Editor S} {c : Console} (h : Good L e c) (hsp : Ordinary L.tty [' ']) (hne : e.buf.length > 0)
    (hfit : (L.prefix ++ e.buf).length < L.tty.cols) :
    Good L { e with buf := e.buf.dropLast } ((c.write L.tty L.colors false ['\x08', ' ', '\x08']).flush L.tty) ∧
      ((c.write L.tty L.colors false ['\x08', ' ', '\x08']).flush L.tty).screen.above = c.screen.above := by
  obtain ⟨n, hn⟩ := h.row
  obtain ⟨b, ch, hbe⟩ : ∃ b ch, e.buf = b ++ [ch] := by
    rcases List.eq_nil_or_concat e.buf with h' | ⟨b, ch, h'⟩
    · rw [h'] at hne; simp at hne
    · exact ⟨b, ch, by simpa using h'⟩
  have hord := h.buf
  rw [hbe] at hord
  have hsc : c.screen = ⟨c.screen.above, L.promptCells ++ paint true .plain (b ++ [ch]) ++ List.replicate n blankCell,
      (L.prefix ++ b).length + 1⟩ := by
    have h1 := h.col
    rw [hbe] at hn h1
    cases hs : c.screen
    rw [hs] at hn h1
    simp only at hn h1
    rw [hn, h1]
    simp [Nat.add_assoc]
  have hw : (c.write L.tty L.colors false ['\x08', ' ', '\x08']) =
      ⟨after L.colors c.style, paint true .plain ['\x08', ' ', '\x08'], c.screen⟩ := by
    rw [write_eq]
    simp only [Bool.false_eq_true, if_false, Console.print, h.pending, List.nil_append, paint_reset L h.reset]
    have : Console.tailOf (paint true Style.plain ['\x08', ' ', '\x08']) = paint true Style.plain ['\x08', ' ', '\x08'] := by decide
    rw [this]
    simp [Screen.puts, after]
  rw [hw]
  unfold Console.flush
  simp only
  have hp : c.screen.puts L.tty (paint true .plain ['\x08', ' ', '\x08']) =
      ⟨c.screen.above, L.promptCells ++ paint true .plain b ++ List.replicate (n + 1) blankCell, (L.prefix ++ b).length⟩ := by
    have hlt : (L.prefix ++ b).length < L.tty.cols := by rw [hbe] at hfit; simp at hfit ⊢; omega
    have e1 : Screen.put L.tty c.screen ('\x08', .plain) = ⟨c.screen.above, L.promptCells ++ paint true .plain (b ++ [ch]) ++ List.replicate n blankCell,
        (L.prefix ++ b).length⟩ := by
      rw [hsc]
      simp [Screen.put]
    have hlen : (L.promptCells ++ paint true .plain b).length = (L.prefix ++ b).length := by simp [Look.promptCells, paint_length]
    have e2 : Screen.put L.tty ⟨c.screen.above, L.promptCells ++ paint true .plain (b ++ [ch]) ++ List.replicate n blankCell,
        (L.prefix ++ b).length⟩ (' ', .plain) = ⟨c.screen.above, L.promptCells ++ paint true .plain b ++ List.replicate (n + 1) blankCell,
        (L.prefix ++ b).length + 1⟩ := by
      rw [put_ordinary _ _ _ hsp hlt]
      congr 1
      simp only [overwrite, paint_append, ← List.append_assoc]
      generalize hA : L.promptCells ++ paint true .plain b = A at *
      rw [← hlen]
      simp only [List.append_assoc, List.take_left, List.length_append]
      rw [Nat.sub_eq_zero_of_le (by omega), List.drop_append, List.drop_of_length_le (by simp)]
      simp [paint, blankCell, List.replicate_succ]
    simp only [paint, List.map_cons, List.map_nil, if_true, Screen.puts, List.foldl_cons, List.foldl_nil]
    rw [e1, e2]
    simp [Screen.put, paint]
  rw [hp]
  refine ⟨⟨after_reset L _, rfl, ⟨n + 1, by simp [hbe]⟩, by simp [hbe], ?_, h.history⟩, rfl⟩
  simp only [hbe, List.dropLast_concat]
  exact hord.of_append.1

/-- What is asked of a prompt and its terminal: the prompt and the texts are ordinary and fit in a row, and the terminal has at most 65536
columns. -/
structure Look.OK (L : Look) : Prop where
  blank : Ordinary L.tty [' ']
  prompt : Ordinary L.tty L.prefix
  cols : L.tty.cols ≤ 65536

theorem enter_good {L : Look} (hL : L.OK) {f : S → Str → Res (Flow × S × List Said)} {d : Drawn S} (hf : OrderlyAt f d.editor.state) (h : Good L d.editor d.console)
    (hfit : (L.prefix ++ d.editor.buf).length < L.tty.cols) {r : Bool × Drawn S} (hr : L.enter f d = .ok r) :
    Good L r.2.editor (r.2.console.flush L.tty) ∧ (r.1 = true → r.2.console.flush L.tty = r.2.console) ∧
    ∃ q, f d.editor.state d.editor.buf = .ok q ∧ r.2.editor.state = q.2.1 ∧ (r.1 = false ↔ q.1 = .break_) ∧
      ((∀ x ∈ q.2.2, OneRow L x.text) →
        (r.2.console.flush L.tty).screen.above = d.console.screen.above ++ d.console.screen.row :: q.2.2.map L.saidRow) := by
  have hpl : L.prefix.length ≤ L.tty.cols := by simp at hfit; omega
  have hfresh : AtPrompt L ((d.console.replWriteln L.tty L.colors false L.pre []).flush L.tty) ∧
      ((d.console.replWriteln L.tty L.colors false L.pre []).flush L.tty).screen.above = d.console.screen.above ++ [d.console.screen.row] := by
    unfold Console.replWriteln
    rw [writeln_eq]
    obtain ⟨h1, h2⟩ := prompt_due L ⟨after L.colors d.console.style, [], (d.console.screen.puts L.tty (d.console.pending ++ paint L.colors d.console.style [])).newRow⟩
      (after_reset L _) rfl rfl rfl hL.prompt
    obtain ⟨h3, h4⟩ := h1.flush hL.prompt hpl
    refine ⟨h3, ?_⟩
    rw [h4, h2]
    simp [h.pending, paint, Screen.puts, Screen.newRow]
  unfold Look.enter at hr
  simp only at hr
  cases hq : f d.editor.state d.editor.buf with
  | err k => rw [hq] at hr; simp [Res.bind] at hr
  | panic => rw [hq] at hr; simp [Res.bind] at hr
  | ok q =>
    obtain ⟨hnc, htail⟩ := hf _ _ hq
    rw [hq] at hr
    simp only [Res.bind] at hr
    obtain ⟨hs, ha⟩ := say_flush L hL.prompt hpl q.2.2 hfresh.1 htail
    have above : (∀ x ∈ q.2.2, OneRow L x.text) →
        ((L.say ((d.console.replWriteln L.tty L.colors false L.pre []).flush L.tty) q.2.2).flush L.tty).screen.above =
          d.console.screen.above ++ d.console.screen.row :: q.2.2.map L.saidRow := by
      intro ho
      rw [ha ho, hfresh.2]
      simp
    cases hflow : q.1 with
    | continue_ => exact absurd hflow hnc
    | break_ =>
      rw [hflow] at hr
      injection hr with hr
      subst hr
      exact ⟨hs.good rfl h.history, by simp, q, rfl, rfl, by simp [hflow], above⟩
    | none =>
      rw [hflow] at hr
      simp only at hr
      split at hr
      · split at hr
        · rename_i hist hpush
          injection hr with hr
          subst hr
          refine ⟨?_, fun _ => hs.flush, q, rfl, rfl, by simp [hflow], ?_⟩
          · simp only
            rw [hs.flush]
            refine hs.good rfl ?_
            intro x hx
            split at hpush
            · unfold CircularArray.push at hpush
              split at hpush
              · cases hd : d.editor.history.data with
                | nil => rw [hd] at hpush; simp at hpush
                | cons a rest =>
                  rw [hd] at hpush
                  simp only at hpush
                  injection hpush with hpush
                  subst hpush
                  rcases List.mem_append.mp hx with h1 | h1
                  · exact h.history x (by rw [hd]; exact List.mem_cons_of_mem _ h1)
                  · simp at h1; subst h1; exact h.buf
              · injection hpush with hpush
                subst hpush
                rcases List.mem_append.mp hx with h1 | h1
                · exact h.history x h1
                · simp at h1; subst h1; exact h.buf
            · injection hpush with hpush
              subst hpush
              exact h.history x hx
          · simp only
            rw [hs.flush]
            exact above
        · cases hr
        · cases hr
      · injection hr with hr
        subst hr
        refine ⟨?_, fun _ => hs.flush, q, rfl, rfl, by simp [hflow], ?_⟩
        · simp only
          rw [hs.flush]
          exact hs.good rfl h.history
        · simp only
          rw [hs.flush]
          exact above

theorem index_ok {α : Type} {a : CircularArray α} {i : Nat} {x : α} (h : a.index i = .ok x) : x ∈ a.data := by
  unfold CircularArray.index at h
  split at h
  · rename_i y hy
    injection h with h
    subst h
    exact List.mem_of_getElem? hy
  · cases h

theorem step_good {L : Look} (hL : L.OK) {f : S → Str → Res (Flow × S × List Said)} {d : Drawn S} (hf : OrderlyAt f d.editor.state) (h : Good L d.editor d.console)
    (hfit : (L.prefix ++ d.editor.buf).length < L.tty.cols) (k : Key) (hk : ∀ c, k = .char c → Ordinary L.tty [c]) {r : Bool × Drawn S}
    (hr : L.step f d k = .ok r) (hfit' : r.1 = true → (L.prefix ++ r.2.editor.buf).length < L.tty.cols) :
    Good L r.2.editor (r.2.console.flush L.tty) ∧ (r.1 = true → r.2.console.flush L.tty = r.2.console) ∧
    (k ≠ .enter → (r.2.console.flush L.tty).screen.above = d.console.screen.above ∧ r.2.editor.state = d.editor.state) := by
  cases k with
  | enter =>
    obtain ⟨h1, h2, -⟩ := enter_good hL hf h hfit hr
    exact ⟨h1, h2, fun h => absurd rfl h⟩
  | backspace =>
    unfold Look.step at hr
    simp only at hr
    split at hr
    · rename_i hb
      injection hr with hr
      subst hr
      obtain ⟨h1, h2⟩ := backspace_good h hL.blank hb hfit
      refine ⟨?_, fun _ => h1.flush, fun _ => ⟨?_, rfl⟩⟩ <;> simp only <;> rw [h1.flush]
      · exact h1
      · exact h2
    · injection hr with hr
      subst hr
      simp only [h.flush]
      exact ⟨h, fun _ => trivial, fun _ => ⟨trivial, trivial⟩⟩
  | up =>
    unfold Look.step at hr
    simp only at hr
    split at hr
    · cases hi : d.editor.history.index (d.editor.cursor - 1) with
      | err k => rw [hi] at hr; simp [Res.bind] at hr
      | panic => rw [hi] at hr; simp [Res.bind] at hr
      | ok s =>
        rw [hi] at hr
        simp only [Res.bind] at hr
        injection hr with hr
        subst hr
        obtain ⟨h1, h2⟩ := rewrite_good (e' := { d.editor with cursor := d.editor.cursor - 1, buf := s }) h hL.prompt hL.cols hfit (hfit' rfl)
          (h.history _ (index_ok hi)) rfl
        refine ⟨?_, fun _ => h1.flush, fun _ => ⟨?_, rfl⟩⟩ <;> simp only <;> rw [h1.flush]
        · exact h1
        · exact h2
    · injection hr with hr
      subst hr
      simp only [h.flush]
      exact ⟨h, fun _ => trivial, fun _ => ⟨trivial, trivial⟩⟩
  | down =>
    unfold Look.step at hr
    simp only at hr
    split at hr
    · split at hr
      · injection hr with hr
        subst hr
        obtain ⟨h1, h2⟩ := rewrite_good (e' := { d.editor with cursor := d.editor.cursor + 1, buf := [] }) h hL.prompt hL.cols hfit (hfit' rfl)
          (by intro c hc; simp at hc) rfl
        refine ⟨?_, fun _ => h1.flush, fun _ => ⟨?_, rfl⟩⟩ <;> simp only <;> rw [h1.flush]
        · exact h1
        · exact h2
      · cases hi : d.editor.history.index (d.editor.cursor + 1) with
        | err k => rw [hi] at hr; simp [Res.bind] at hr
        | panic => rw [hi] at hr; simp [Res.bind] at hr
        | ok s =>
          rw [hi] at hr
          simp only [Res.bind] at hr
          injection hr with hr
          subst hr
          obtain ⟨h1, h2⟩ := rewrite_good (e' := { d.editor with cursor := d.editor.cursor + 1, buf := s }) h hL.prompt hL.cols hfit (hfit' rfl)
            (h.history _ (index_ok hi)) rfl
          refine ⟨?_, fun _ => h1.flush, fun _ => ⟨?_, rfl⟩⟩ <;> simp only <;> rw [h1.flush]
          · exact h1
          · exact h2
    · injection hr with hr
      subst hr
      simp only [h.flush]
      exact ⟨h, fun _ => trivial, fun _ => ⟨trivial, trivial⟩⟩
  | char c =>
    injection hr with hr
    subst hr
    obtain ⟨h1, h2⟩ := char_good h c (hk c rfl) hfit
    refine ⟨?_, fun _ => h1.flush, fun _ => ⟨?_, rfl⟩⟩ <;> simp only <;> rw [h1.flush]
    · exact h1
    · exact h2
  | esc =>
    injection hr with hr
    subst hr
    simp only [h.flush]
    exact ⟨h, fun h => by simp at h, fun _ => ⟨trivial, trivial⟩⟩
  | interrupt =>
    injection hr with hr
    subst hr
    simp only [h.flush]
    exact ⟨h, fun h => by simp at h, fun _ => ⟨trivial, trivial⟩⟩
  | other =>
    injection hr with hr
    subst hr
    simp only [h.flush]
    exact ⟨h, fun _ => trivial, fun _ => ⟨trivial, trivial⟩⟩

theorem step_reached {L : Look} (hL : L.OK) {f : S → Str → Res (Flow × S × List Said)} {s0 : S} (hf : Orderly f s0) {d : Drawn S}
    (hs : Reached f s0 d.editor.state) (h : Good L d.editor d.console)
    (hfit : (L.prefix ++ d.editor.buf).length < L.tty.cols) (k : Key) (hk : ∀ c, k = .char c → Ordinary L.tty [c]) {r : Bool × Drawn S}
    (hr : L.step f d k = .ok r) (hfit' : r.1 = true → (L.prefix ++ r.2.editor.buf).length < L.tty.cols) : Reached f s0 r.2.editor.state := by
  by_cases hke : k = .enter
  · subst hke
    obtain ⟨-, -, q, hq, hst, -⟩ := enter_good hL (hf _ hs) h hfit hr
    rw [hst]
    exact .line hs hq
  · rw [((step_good hL (hf _ hs) h hfit k hk hr hfit').2.2 hke).2]
    exact hs

theorem Good.shows {L : Look} {e : Editor S} {c : Console} (h : Good L e c) : Shows c.screen (L.prefix ++ e.buf) := by
  obtain ⟨n, hn⟩ := h.row
  refine ⟨⟨n, ?_⟩, h.col⟩
  rw [hn]
  simp [textOf, Look.promptCells, paint, Function.comp_def, blankCell]

theorem trimEnd_blanks (s : Str) (n : Nat) : trimEnd (s ++ List.replicate n ' ') = trimEnd s := by
  unfold trimEnd
  rw [List.reverse_append, List.reverse_replicate]
  congr 1
  induction n with
  | zero => simp
  | succ n ih => simp [List.replicate_succ]

theorem Good.read {L : Look} {e : Editor S} {c : Console} (h : Good L e c) : trimEnd (textOf c.screen.row) = trimEnd (L.prefix ++ e.buf) := by
  obtain ⟨⟨n, hn⟩, -⟩ := h.shows
  rw [hn, trimEnd_blanks]

theorem textOf_saidRow (L : Look) (x : Said) : textOf (L.saidRow x) = L.prefix ++ x.text := by
  simp [textOf, Look.saidRow, Look.promptCells, paint, Function.comp_def]

theorem rewrite_flush (T : Tty) (colors : Bool) (pre : Option Str) (c : Console) (s : Str) :
    c.rewrite T colors pre s = (c.flush T).rewrite T colors pre s := by
  unfold Console.rewrite Console.clear Console.flush
  simp [Screen.puts]

/-- The text at the end of a session. -/
def Look.farewell (L : Look) : Str := L.exitText.getD []

theorem exit_shows {L : Look} (hL : L.OK) {e : Editor S} {c : Console} (h : Good L e (c.flush L.tty)) (hfit : (L.prefix ++ e.buf).length < L.tty.cols)
    (t : Str) (ht : L.exitText = some t) (ho : OneRow L t) :
    Shows (L.exit c).screen (L.prefix ++ t) ∧ (L.exit c).screen.above = (c.flush L.tty).screen.above ∧ (L.exit c).pending = [] := by
  unfold Look.exit
  rw [ht]
  simp only
  have h1 : (c.setFg (some .yellow)).rewrite L.tty L.colors L.pre t = ((c.flush L.tty).setFg (some .yellow)).rewrite L.tty L.colors L.pre t := by
    rw [rewrite_flush]
    rfl
  have hcols := hL.cols
  rw [h1, rewrite_eq L ((c.flush L.tty).setFg (some .yellow)) t hL.prompt ho.1 (fun hc => h.reset.bg hc) h.pending
    (by have := h.col; simp only [Console.setFg] at this ⊢; omega) ho.2]
  refine ⟨⟨⟨0, ?_⟩, rfl⟩, rfl, rfl⟩
  simp [textOf, Look.promptCells, paint, Function.comp_def]

/-- All states of a running session fit. -/
def FitsFrom (L : Look) (f : S → Str → Res (Flow × S × List Said)) (d : Drawn S) (ks : List Key) : Prop :=
  ∀ ks', ks' <+: ks → ∀ d', L.loop f d ks' = .ok (true, d') → (L.prefix ++ d'.editor.buf).length < L.tty.cols

theorem FitsFrom.here {L : Look} {f : S → Str → Res (Flow × S × List Said)} {d : Drawn S} {ks : List Key} (h : FitsFrom L f d ks) :
    (L.prefix ++ d.editor.buf).length < L.tty.cols := h [] (List.nil_prefix) d rfl

theorem FitsFrom.next {L : Look} {f : S → Str → Res (Flow × S × List Said)} {d : Drawn S} {k : Key} {ks : List Key} (h : FitsFrom L f d (k :: ks))
    {r : Bool × Drawn S} (hr : L.step f d k = .ok r) (hb : r.1 = true) : FitsFrom L f r.2 ks := by
  intro ks' hp d' hd
  refine h (k :: ks') ((List.cons_prefix_cons).mpr ⟨rfl, hp⟩) d' ?_
  rw [Look.loop, hr]
  simp [Res.bind, hb, hd]

theorem loop_good {L : Look} (hL : L.OK) {f : S → Str → Res (Flow × S × List Said)} {s0 : S} (hf : Orderly f s0) (ks : List Key) {d : Drawn S}
    (hd : Reached f s0 d.editor.state) (h : Good L d.editor d.console) (ht : Typed L.tty ks) (hfit : FitsFrom L f d ks) {d' : Drawn S} (hr : L.loop f d ks = .ok (true, d')) :
    Good L d'.editor d'.console := by
  induction ks generalizing d with
  | nil =>
    simp only [Look.loop] at hr
    injection hr with hr
    injection hr with _ hr
    subst hr
    exact h
  | cons k ks ih =>
    rw [Look.loop] at hr
    cases hs : L.step f d k with
    | err _ => rw [hs] at hr; simp [Res.bind] at hr
    | panic => rw [hs] at hr; simp [Res.bind] at hr
    | ok r =>
      rw [hs] at hr
      simp only [Res.bind] at hr
      split at hr
      · rename_i hb
        have hn := hfit.next hs hb
        have hk : ∀ c, k = .char c → Ordinary L.tty [c] := fun c hc => ht c (by simp [hc])
        obtain ⟨h1, h2, -⟩ := step_good hL (hf _ hd) h hfit.here k hk hs (fun _ => hn.here)
        rw [h2 hb] at h1
        exact ih (step_reached hL hf hd h hfit.here k hk hs (fun _ => hn.here)) h1 (fun c hc => ht c (by simp [hc])) hn hr
      · injection hr with hr
        injection hr with hr _
        cases hr

theorem init_good (L : Look) (hL : L.OK) (size : Nat) (s : S) (hl : L.prefix.length ≤ L.tty.cols) :
    Good L (L.init size s).editor (L.init size s).console ∧ (L.init size s).editor = .init size s ∧
    ((L.preText = none → (L.init size s).console.screen.above = []) ∧
      ∀ t, L.preText = some t → Ordinary L.tty t → t.length ≤ L.tty.cols →
        (L.init size s).console.screen.above = [paint L.colors ⟨some .green, none⟩ t]) := by
  unfold Look.init
  cases hp : L.preText with
  | none =>
    simp only
    obtain ⟨h1, h2⟩ := prompt_due L ⟨.plain, [], ⟨[], [], 0⟩⟩ (fun _ => rfl) rfl rfl rfl hL.prompt
    obtain ⟨h3, h4⟩ := h1.flush hL.prompt hl
    exact ⟨h3.good rfl (by simp [Editor.init, CircularArray.new]), trivial, fun _ => by rw [h4, h2], fun t ht => by cases ht⟩
  | some t =>
    simp only
    unfold Console.replWriteln
    rw [writeln_eq]
    obtain ⟨h1, h2⟩ := prompt_due L ⟨after L.colors (Console.setFg ⟨.plain, [], ⟨[], [], 0⟩⟩ (some .green)).style, [],
      (Screen.puts L.tty ⟨[], [], 0⟩ ([] ++ paint L.colors (Console.setFg ⟨.plain, [], ⟨[], [], 0⟩⟩ (some .green)).style t)).newRow⟩
      (after_reset L _) rfl rfl rfl hL.prompt
    obtain ⟨h3, h4⟩ := h1.flush hL.prompt hl
    refine ⟨h3.good rfl (by simp [Editor.init, CircularArray.new]), trivial, fun h => (by cases h), fun t' ht ho hlen => ?_⟩
    injection ht with ht
    subst ht
    refine h4.trans (h2.trans ?_)
    simp only [List.nil_append]
    rw [puts_ordinary _ _ _ (by unfold OrdinaryCells; rw [textOf_paint]; exact ho) (by simpa [paint_length] using hlen) (by simp)]
    simp [Screen.newRow, overwrite_nil, Console.setFg, Style.plain]

/-! ## C103: the line on the screen is the line that is edited -/

/-- C103. With ordinary characters, on a terminal wide enough for every line that is edited, and after any keys: the last row shows the prompt
and the line that Enter will submit, the cursor stands behind it, and nothing is held back. -/
theorem C103_line_partial (L : Look) (hL : L.OK) (f : S → Str → Res (Flow × S × List Said)) (size : Nat) (s : S) (hf : Orderly f s)
    (ks : List Key) (ht : Typed L.tty ks) (hfit : LineFits L f size s ks) (d : Drawn S) (hr : L.run f size s ks = .ok (true, d)) :
    Shows d.console.screen (L.prefix ++ d.editor.buf) ∧ d.console.pending = [] := by
  have hfit' : FitsFrom L f (L.init size s) ks := hfit
  have hl := hfit'.here
  have := loop_good hL hf ks (d := L.init size s) .start (init_good L hL size s (by simp at hl; omega)).1 ht hfit' hr
  exact ⟨this.shows, this.pending⟩


theorem step_silent (L : Look) (f : S → Str → Res (Flow × S × List Said)) (d : Drawn S) (k : Key) :
    d.editor.step (silent f) k = (L.step f d k).bind fun r => .ok (r.1, r.2.editor) := by
  cases k with
  | backspace => simp only [Editor.step, Look.step]; split <;> rfl
  | up =>
    simp only [Editor.step, Look.step]
    split
    · cases d.editor.history.index (d.editor.cursor - 1) <;> rfl
    · rfl
  | down =>
    simp only [Editor.step, Look.step]
    split
    · split
      · rfl
      · cases d.editor.history.index (d.editor.cursor + 1) <;> rfl
    · rfl
  | enter =>
    simp only [Editor.step, Look.step, Editor.enter, Look.enter, silent]
    cases f d.editor.state d.editor.buf with
    | err _ => rfl
    | panic => rfl
    | ok q =>
      simp only [Res.bind]
      cases q.1 with
      | break_ => rfl
      | continue_ => rfl
      | none =>
        simp only
        split
        · generalize (if d.editor.history.last ≠ some d.editor.buf then d.editor.history.push d.editor.buf else .ok d.editor.history) = x
          cases x <;> rfl
        · rfl
  | _ => rfl

theorem loop_silent (L : Look) (f : S → Str → Res (Flow × S × List Said)) (ks : List Key) (d : Drawn S) :
    Editor.run (silent f) d.editor ks = (L.loop f d ks).bind fun r => .ok (r.1, r.2.editor) := by
  induction ks generalizing d with
  | nil => rfl
  | cons k ks ih =>
    rw [Editor.run, Look.loop, step_silent L]
    cases L.step f d k with
    | err _ => rfl
    | panic => rfl
    | ok r =>
      simp only [Res.bind]
      split
      · rw [ih]; rfl
      · rfl

/-- C103: what is drawn has no influence on what is edited, on the history and on the results. -/
theorem C103_same_session (L : Look) (f : S → Str → Res (Flow × S × List Said)) (size : Nat) (s : S) (ks : List Key) :
    Editor.run (silent f) (.init size s) ks = (L.run f size s ks).bind fun r => .ok (r.1, r.2.editor) :=
  loop_silent L f ks (L.init size s)

/-! ## C104: the screen is the transcript of the session -/

theorem witnessed_ok {f : S → Str → Res (Flow × S × List Said)} {s : List (Str × List Said) × S} {l : Str}
    {r : Flow × (List (Str × List Said) × S) × List Said} (hr : witnessed f s l = .ok r) :
    ∃ q, f s.2 l = .ok q ∧ r = (q.1, (s.1 ++ [(l, q.2.2)], q.2.1), q.2.2) := by
  unfold witnessed at hr
  cases hq : f s.2 l with
  | err _ => rw [hq] at hr; cases hr
  | panic => rw [hq] at hr; cases hr
  | ok q =>
    rw [hq] at hr
    simp only [Res.bind] at hr
    injection hr with hr
    exact ⟨q, rfl, hr.symm⟩

theorem reached_witnessed {f : S → Str → Res (Flow × S × List Said)} {a b : List (Str × List Said) × S} (h : Reached (witnessed f) a b) :
    Reached f a.2 b.2 := by
  induction h with
  | start => exact .start
  | line h hr ih =>
    obtain ⟨q, hq, rfl⟩ := witnessed_ok hr
    exact .line ih hq

theorem orderly_witnessed {f : S → Str → Res (Flow × S × List Said)} {a : List (Str × List Said) × S} (hf : Orderly f a.2) :
    Orderly (witnessed f) a := by
  intro s hs l r hr
  obtain ⟨q, hq, rfl⟩ := witnessed_ok hr
  exact hf _ (reached_witnessed hs) _ _ hq

theorem read_said (L : Look) (out : List Said) :
    (out.map L.saidRow).map (fun r => trimEnd (textOf r)) = out.map fun y => trimEnd (L.prefix ++ y.text) := by
  simp [Function.comp_def, textOf_saidRow]

theorem step_read {L : Look} (hL : L.OK) {f : S → Str → Res (Flow × S × List Said)} {d : Drawn (List (Str × List Said) × S)}
    (hf : OrderlyAt (witnessed f) d.editor.state)
    (h : Good L d.editor d.console) (hfit : (L.prefix ++ d.editor.buf).length < L.tty.cols) (k : Key)
    (hk : ∀ c, k = .char c → Ordinary L.tty [c]) {r : Bool × Drawn (List (Str × List Said) × S)}
    (hr : L.step (witnessed f) d k = .ok r) (hfit' : r.1 = true → (L.prefix ++ r.2.editor.buf).length < L.tty.cols) :
    ∃ new, r.2.editor.state.1 = d.editor.state.1 ++ new ∧ ((∀ e ∈ new, ∀ x ∈ e.2, OneRow L x.text) →
      (r.2.console.flush L.tty).screen.read = d.console.screen.read ++ transcript L.prefix new) := by
  by_cases hke : k = .enter
  · subst hke
    obtain ⟨-, -, q, hq, hst, -, ha⟩ := enter_good hL hf h hfit hr
    obtain ⟨q', hq', rfl⟩ := witnessed_ok hq
    refine ⟨[(d.editor.buf, q'.2.2)], by rw [hst], fun ho => ?_⟩
    unfold Screen.read
    rw [ha (fun x hx => ho (d.editor.buf, q'.2.2) (by simp) x hx)]
    rw [List.map_append, List.map_cons, read_said, h.read]
    simp [transcript]
  · obtain ⟨-, -, h3⟩ := step_good hL hf h hfit k hk hr hfit'
    obtain ⟨h4, h5⟩ := h3 hke
    refine ⟨[], by simp [h5], fun _ => ?_⟩
    unfold Screen.read
    rw [h4]
    simp [transcript]

theorem step_end {L : Look} {f : S → Str → Res (Flow × S × List Said)} {d : Drawn S} {k : Key} {r : Bool × Drawn S}
    (hr : L.step f d k = .ok r) (hb : r.1 = false) : r.2.editor.buf = [] ∨ r.2.editor.buf = d.editor.buf := by
  cases k with
  | enter =>
    left
    have hr' : L.enter f d = .ok r := hr
    unfold Look.enter at hr'
    simp only at hr'
    cases hq : f d.editor.state d.editor.buf with
    | err _ => rw [hq] at hr'; cases hr'
    | panic => rw [hq] at hr'; cases hr'
    | ok q =>
      rw [hq] at hr'
      simp only [Res.bind] at hr'
      split at hr'
      · injection hr' with hr'; subst hr'; rfl
      · injection hr' with hr'; subst hr'; rfl
      · split at hr'
        · split at hr'
          · injection hr' with hr'; subst hr'; rfl
          · cases hr'
          · cases hr'
        · injection hr' with hr'; subst hr'; rfl
  | esc => injection hr with hr; subst hr; exact .inr rfl
  | interrupt => injection hr with hr; subst hr; exact .inr rfl
  | other => injection hr with hr; subst hr; exact .inr rfl
  | char c => injection hr with hr; subst hr; cases hb
  | backspace =>
    simp only [Look.step] at hr
    split at hr <;> (injection hr with hr; subst hr; cases hb)
  | up =>
    simp only [Look.step] at hr
    split at hr
    · cases hi : d.editor.history.index (d.editor.cursor - 1) with
      | err _ => rw [hi] at hr; cases hr
      | panic => rw [hi] at hr; cases hr
      | ok x => rw [hi] at hr; injection hr with hr; subst hr; cases hb
    · injection hr with hr; subst hr; cases hb
  | down =>
    simp only [Look.step] at hr
    split at hr
    · split at hr
      · injection hr with hr; subst hr; cases hb
      · cases hi : d.editor.history.index (d.editor.cursor + 1) with
        | err _ => rw [hi] at hr; cases hr
        | panic => rw [hi] at hr; cases hr
        | ok x => rw [hi] at hr; injection hr with hr; subst hr; cases hb
    · injection hr with hr; subst hr; cases hb

theorem loop_read {L : Look} (hL : L.OK) {f : S → Str → Res (Flow × S × List Said)} {a : List (Str × List Said) × S}
    (hf : Orderly (witnessed f) a) (ks : List Key)
    {d : Drawn (List (Str × List Said) × S)} (hd : Reached (witnessed f) a d.editor.state) (h : Good L d.editor d.console) (ht : Typed L.tty ks)
    (hfit : FitsFrom L (witnessed f) d ks) {b : Bool} {d' : Drawn (List (Str × List Said) × S)} (hr : L.loop (witnessed f) d ks = .ok (b, d'))
    (hexit : ∀ t, L.exitText = some t → OneRow L t) :
    ∃ new, d'.editor.state.1 = d.editor.state.1 ++ new ∧ ((∀ e ∈ new, ∀ x ∈ e.2, OneRow L x.text) →
      d'.console.screen.read = d.console.screen.read ++ transcript L.prefix new) := by
  induction ks generalizing d with
  | nil =>
    simp only [Look.loop] at hr
    injection hr with hr
    injection hr with _ hr
    subst hr
    exact ⟨[], by simp, fun _ => by simp [transcript]⟩
  | cons k ks ih =>
    rw [Look.loop] at hr
    cases hs : L.step (witnessed f) d k with
    | err _ => rw [hs] at hr; simp [Res.bind] at hr
    | panic => rw [hs] at hr; simp [Res.bind] at hr
    | ok r =>
      rw [hs] at hr
      simp only [Res.bind] at hr
      have hk : ∀ c, k = .char c → Ordinary L.tty [c] := fun c hc => ht c (by simp [hc])
      split at hr
      · rename_i hb
        have hn := hfit.next hs hb
        obtain ⟨h1, h2, -⟩ := step_good hL (hf _ hd) h hfit.here k hk hs (fun _ => hn.here)
        obtain ⟨n1, e1, a1⟩ := step_read hL (hf _ hd) h hfit.here k hk hs (fun _ => hn.here)
        rw [h2 hb] at h1 a1
        obtain ⟨n2, e2, a2⟩ := ih (step_reached hL hf hd h hfit.here k hk hs (fun _ => hn.here)) h1 (fun c hc => ht c (by simp [hc])) hn hr
        refine ⟨n1 ++ n2, by rw [e2, e1, List.append_assoc], fun ho => ?_⟩
        rw [a2 (fun e he => ho e (by simp [he])), a1 (fun e he => ho e (by simp [he]))]
        simp [transcript]
      · rename_i hb
        have hb' : r.1 = false := by simpa using hb
        injection hr with hr
        injection hr with _ hr
        subst hr
        obtain ⟨h1, -, -⟩ := step_good hL (hf _ hd) h hfit.here k hk hs (fun h => absurd h hb)
        obtain ⟨n1, e1, a1⟩ := step_read hL (hf _ hd) h hfit.here k hk hs (fun h => absurd h hb)
        refine ⟨n1, e1, fun ho => ?_⟩
        rw [← a1 ho]
        cases he : L.exitText with
        | none => simp [Look.exit, he]
        | some t =>
          have hlen : (L.prefix ++ r.2.editor.buf).length < L.tty.cols := by
            have := hfit.here
            rcases step_end hs hb' with h' | h' <;> rw [h']
            · simp at this ⊢; omega
            · exact this
          obtain ⟨-, h2, -⟩ := exit_shows hL h1 hlen t he (hexit t he)
          unfold Screen.read
          simp only
          rw [h2]

/-- The rows before the first prompt. -/
def Look.opening (L : Look) : List Str := L.preText.toList.map trimEnd

/-- C104. Above the last row stands, in this order: the text at the start, and for each line that was entered the line and below it what was
written for it, each behind the prompt. Nothing else, and nothing is missing, while the session runs and after it has ended. -/
theorem C104_transcript_partial (L : Look) (hL : L.OK) (hpre : ∀ t, L.preText = some t → Ordinary L.tty t ∧ t.length ≤ L.tty.cols)
    (hexit : ∀ t, L.exitText = some t → OneRow L t) (f : S → Str → Res (Flow × S × List Said)) (size : Nat) (s : S) (hf : Orderly f s)
    (ks : List Key) (ht : Typed L.tty ks) (hfit : LineFits L (witnessed f) size ([], s) ks) (b : Bool) (d : Drawn (List (Str × List Said) × S))
    (hr : L.run (witnessed f) size ([], s) ks = .ok (b, d)) (ho : ∀ e ∈ d.editor.state.1, ∀ x ∈ e.2, OneRow L x.text) :
    d.console.screen.read = L.opening ++ transcript L.prefix d.editor.state.1 := by
  have hfit' : FitsFrom L (witnessed f) (L.init size ([], s)) ks := hfit
  have hl := hfit'.here
  obtain ⟨h1, h2, h3, h4⟩ := init_good L hL size (([], s) : List (Str × List Said) × S) (by simp at hl; omega)
  obtain ⟨new, e1, a1⟩ := loop_read hL (orderly_witnessed (a := ([], s)) hf) ks (by rw [h2]; exact .start) h1 ht hfit' hr hexit
  rw [h2] at e1
  simp only [Editor.init, List.nil_append] at e1
  subst e1
  rw [a1 ho]
  congr 1
  unfold Screen.read Look.opening
  cases hp : L.preText with
  | none => rw [h3 hp]; rfl
  | some t =>
    rw [h4 t hp (hpre t hp).1 (hpre t hp).2]
    simp [textOf_paint]

/-! ## C105: the end of a session -/

/-- C105. Once the session has ended, the last row shows the farewell behind the prompt, and what was being typed is gone. -/
theorem C105_farewell_partial (L : Look) (hL : L.OK) (f : S → Str → Res (Flow × S × List Said)) (size : Nat) (s : S) (hf : Orderly f s)
    (ks : List Key) (ht : Typed L.tty ks) (hfit : LineFits L f size s ks) (d : Drawn S) (hr : L.run f size s ks = .ok (false, d))
    (t : Str) (hexit : L.exitText = some t) (ho : OneRow L t) :
    Shows d.console.screen (L.prefix ++ t) ∧ d.console.pending = [] := by
  have hfit' : FitsFrom L f (L.init size s) ks := hfit
  have hl := hfit'.here
  have h := (init_good L hL size s (by simp at hl; omega)).1
  have hd : Reached f s (L.init size s).editor.state := .start
  have hr' : L.loop f (L.init size s) ks = .ok (false, d) := hr
  clear hr hfit hl
  generalize L.init size s = d0 at *
  induction ks generalizing d0 with
  | nil => simp [Look.loop] at hr'
  | cons k ks ih =>
    rw [Look.loop] at hr'
    cases hs : L.step f d0 k with
    | err _ => rw [hs] at hr'; simp [Res.bind] at hr'
    | panic => rw [hs] at hr'; simp [Res.bind] at hr'
    | ok r =>
      rw [hs] at hr'
      simp only [Res.bind] at hr'
      have hk : ∀ c, k = .char c → Ordinary L.tty [c] := fun c hc => ht c (by simp [hc])
      split at hr'
      · rename_i hb
        have hn := hfit'.next hs hb
        obtain ⟨h1, h2, -⟩ := step_good hL (hf _ hd) h hfit'.here k hk hs (fun _ => hn.here)
        rw [h2 hb] at h1
        exact ih (fun c hc => ht c (by simp [hc])) r.2 hn h1 (step_reached hL hf hd h hfit'.here k hk hs (fun _ => hn.here)) hr'
      · rename_i hb
        have hb' : r.1 = false := by simpa using hb
        injection hr' with hr'
        injection hr' with _ hr'
        subst hr'
        obtain ⟨h1, -, -⟩ := step_good hL (hf _ hd) h hfit'.here k hk hs (fun h => absurd h hb)
        have hlen : (L.prefix ++ r.2.editor.buf).length < L.tty.cols := by
          have := hfit'.here
          rcases step_end hs hb' with h' | h' <;> rw [h']
          · simp at this ⊢; omega
          · exact this
        obtain ⟨h2, -, h3⟩ := exit_shows hL h1 hlen t hexit ho
        exact ⟨h2, h3⟩


/-! ## C106: colours do not change the text -/

/-- Cells without colours. -/
def eraseCells (xs : List Cell) : List Cell := xs.map fun x => (x.1, .plain)

theorem overwrite_erase (row : List Cell) (col : Nat) (cells : List Cell) :
    eraseCells (overwrite row col cells) = overwrite (eraseCells row) col (eraseCells cells) := by
  simp [eraseCells, overwrite, List.map_take, List.map_drop, blankCell]

theorem newRow_erase (s : Screen) : s.newRow.erase = s.erase.newRow := by simp [Screen.newRow, Screen.erase]

theorem put_erase (T : Tty) (s : Screen) (x : Cell) : (s.put T x).erase = s.erase.put T (x.1, .plain) := by
  unfold Screen.put
  simp only
  split
  · exact newRow_erase s
  split
  · rfl
  split
  · rfl
  have hcol : s.erase.col = s.col := rfl
  rw [hcol]
  have h : ∀ s : Screen, Screen.erase ⟨s.above, overwrite s.row s.col (x :: List.replicate (T.width x.1 - 1) (' ', x.2)), s.col + T.width x.1⟩ =
      ⟨s.erase.above, overwrite s.erase.row s.erase.col ((x.1, .plain) :: List.replicate (T.width x.1 - 1) (' ', .plain)),
        s.erase.col + T.width x.1⟩ := by
    intro s
    have := overwrite_erase s.row s.col (x :: List.replicate (T.width x.1 - 1) (' ', x.2))
    simp only [eraseCells, List.map_cons, List.map_replicate] at this
    simp only [Screen.erase]
    rw [this]
  by_cases hw : T.cols < s.col + T.width x.1
  · simp only [hw, if_true]
    rw [h, newRow_erase]
  · simp only [hw, if_false]
    exact h s

theorem puts_erase (T : Tty) (xs : List Cell) (s : Screen) : (s.puts T xs).erase = s.erase.puts T (eraseCells xs) := by
  induction xs generalizing s with
  | nil => rfl
  | cons x xs ih =>
    have h1 : s.puts T (x :: xs) = (s.put T x).puts T xs := rfl
    have h2 : s.erase.puts T (eraseCells (x :: xs)) = (s.erase.put T (x.1, .plain)).puts T (eraseCells xs) := rfl
    rw [h1, h2, ih, put_erase]

theorem tailOf_erase (xs : List Cell) : eraseCells (Console.tailOf xs) = Console.tailOf (eraseCells xs) := by
  unfold Console.tailOf eraseCells
  rw [List.map_reverse, ← List.map_reverse (l := xs), List.takeWhile_map]
  rfl

/-- The same text is written, in colours and without. -/
def SameText (c c' : Console) : Prop := c'.pending = eraseCells c.pending ∧ c'.screen = c.screen.erase

theorem SameText.print {c c' : Console} (h : SameText c c') (T : Tty) (xs : List Cell) : SameText (c.print T xs) (c'.print T (eraseCells xs)) := by
  obtain ⟨h1, h2⟩ := h
  have e : c'.pending ++ eraseCells xs = eraseCells (c.pending ++ xs) := by rw [h1]; simp [eraseCells]
  unfold Console.print SameText
  simp only
  rw [e, h2, ← tailOf_erase]
  refine ⟨rfl, ?_⟩
  rw [puts_erase]
  simp [eraseCells, List.map_take]

theorem SameText.eprint {c c' : Console} (h : SameText c c') (T : Tty) (xs : List Cell) : SameText (c.eprint T xs) (c'.eprint T (eraseCells xs)) := by
  obtain ⟨h1, h2⟩ := h
  unfold Console.eprint SameText
  simp only
  rw [h2, puts_erase]
  exact ⟨h1, rfl⟩

theorem SameText.flush {c c' : Console} (h : SameText c c') (T : Tty) : SameText (c.flush T) (c'.flush T) := by
  obtain ⟨h1, h2⟩ := h
  unfold Console.flush SameText
  simp only
  rw [h2, h1, puts_erase]
  exact ⟨rfl, rfl⟩

theorem SameText.write {c c' : Console} (h : SameText c c') (T : Tty) (err : Bool) (s : Str) :
    SameText (c.write T true err s) (c'.write T false err s) := by
  rw [write_eq, write_eq]
  have e : paint false c'.style s = eraseCells (paint true c.style s) := by simp [paint, eraseCells]
  cases err
  · have := h.print T (paint true c.style s)
    rw [← e] at this
    exact this
  · have := h.eprint T (paint true c.style s)
    rw [← e] at this
    exact this

theorem SameText.fg {c c' : Console} (h : SameText c c') (x y : Option Color) : SameText (c.setFg x) (c'.setFg y) := h

theorem SameText.prompt {c c' : Console} (h : SameText c c') (T : Tty) (pre : Option Str) :
    SameText (c.prompt T true pre) (c'.prompt T false pre) := by
  unfold Console.prompt
  cases pre with
  | none => exact h
  | some p => exact (h.fg _ _).write T false p

theorem SameText.replWriteln {c c' : Console} (h : SameText c c') (T : Tty) (err : Bool) (pre : Option Str) (s : Str) :
    SameText (c.replWriteln T true err pre s) (c'.replWriteln T false err pre s) :=
  ((h.write T err s).write T err ['\n']).prompt T pre

theorem SameText.rewrite {c c' : Console} (h : SameText c c') (T : Tty) (pre : Option Str) (s : Str) :
    SameText (c.rewrite T true pre s) (c'.rewrite T false pre s) := by
  unfold Console.rewrite
  refine SameText.write ?_ T false s
  have h1 : SameText (c.clear T) (c'.clear T) := by
    obtain ⟨a, b⟩ := h.flush T
    refine ⟨a, ?_⟩
    unfold Console.clear
    simp only
    rw [b]
    rfl
  exact h1.prompt T pre

/-- The look with and without `--no-color`. -/
def Look.withColors (L : Look) (colors : Bool) : Look := { L with colors := colors }

theorem SameText.say {c c' : Console} (h : SameText c c') (L : Look) (out : List Said) :
    SameText ((L.withColors true).say c out) ((L.withColors false).say c' out) := by
  induction out generalizing c c' with
  | nil => exact h
  | cons x out ih => exact ih ((h.fg _ _).replWriteln L.tty x.err L.pre x.text)

/-- Two outcomes of the prompt that differ in colours only. -/
def SameRun : Res (Bool × Drawn S) → Res (Bool × Drawn S) → Prop
  | .ok (b, d), .ok (b', d') => b' = b ∧ d'.editor = d.editor ∧ SameText d.console d'.console
  | .err k, .err k' => k' = k
  | .panic, .panic => True
  | _, _ => False

theorem step_colors (L : Look) (f : S → Str → Res (Flow × S × List Said)) (d d' : Drawn S) (he : d'.editor = d.editor)
    (h : SameText d.console d'.console) (k : Key) : SameRun ((L.withColors true).step f d k) ((L.withColors false).step f d' k) := by
  obtain ⟨e, c⟩ := d
  obtain ⟨e', c'⟩ := d'
  simp only at he h
  subst he
  cases k with
  | backspace =>
    simp only [Look.step]
    split
    · exact ⟨rfl, rfl, (h.write _ _ _).flush _⟩
    · exact ⟨rfl, rfl, h.flush _⟩
  | up =>
    simp only [Look.step]
    split
    · cases e'.history.index (e'.cursor - 1) with
      | err _ => rfl
      | panic => trivial
      | ok x => exact ⟨rfl, rfl, (h.rewrite _ _ _).flush _⟩
    · exact ⟨rfl, rfl, h.flush _⟩
  | down =>
    simp only [Look.step]
    split
    · split
      · exact ⟨rfl, rfl, (h.rewrite _ _ _).flush _⟩
      · cases e'.history.index (e'.cursor + 1) with
        | err _ => rfl
        | panic => trivial
        | ok x => exact ⟨rfl, rfl, (h.rewrite _ _ _).flush _⟩
    · exact ⟨rfl, rfl, h.flush _⟩
  | char ch => exact ⟨rfl, rfl, (h.write _ _ _).flush _⟩
  | esc => exact ⟨rfl, rfl, h⟩
  | interrupt => exact ⟨rfl, rfl, h⟩
  | other => exact ⟨rfl, rfl, h.flush _⟩
  | enter =>
    have h0 := (h.replWriteln L.tty false L.pre []).flush L.tty
    simp only [Look.step, Look.enter]
    cases f e'.state e'.buf with
    | err _ => rfl
    | panic => trivial
    | ok q =>
      have h1 := h0.say L q.2.2
      simp only [Res.bind]
      cases q.1 with
      | break_ => exact ⟨rfl, rfl, h1⟩
      | continue_ => exact ⟨rfl, rfl, h1⟩
      | none =>
        simp only
        split
        · generalize (if e'.history.last ≠ some e'.buf then e'.history.push e'.buf else .ok e'.history) = x
          cases x with
          | err _ => rfl
          | panic => trivial
          | ok hist => exact ⟨rfl, rfl, h1.flush _⟩
        · exact ⟨rfl, rfl, h1.flush _⟩

theorem loop_colors (L : Look) (f : S → Str → Res (Flow × S × List Said)) (ks : List Key) (d d' : Drawn S) (he : d'.editor = d.editor)
    (h : SameText d.console d'.console) : SameRun ((L.withColors true).loop f d ks) ((L.withColors false).loop f d' ks) := by
  induction ks generalizing d d' with
  | nil => exact ⟨rfl, he, h⟩
  | cons k ks ih =>
    have hs := step_colors L f d d' he h k
    rw [Look.loop, Look.loop]
    revert hs
    cases (L.withColors true).step f d k with
    | err _ => cases (L.withColors false).step f d' k <;> first | exact id | exact False.elim
    | panic => cases (L.withColors false).step f d' k <;> first | exact id | exact False.elim
    | ok r =>
      cases (L.withColors false).step f d' k with
      | err _ => exact False.elim
      | panic => exact False.elim
      | ok r' =>
        rintro ⟨h1, h2, h3⟩
        simp only [Res.bind]
        rw [h1]
        split
        · exact ih _ _ h2 h3
        · refine ⟨rfl, h2, ?_⟩
          simp only
          unfold Look.exit
          have : (L.withColors true).exitText = L.exitText := rfl
          have : (L.withColors false).exitText = L.exitText := rfl
          cases hx : L.exitText with
          | none => simp only [Look.withColors, hx]; exact h3.flush _
          | some t => simp only [Look.withColors, hx]; exact ((h3.fg _ _).rewrite _ _ _).flush _

/-- C106. With `--no-color` the session is the same and the screen shows the same text in the same places, without colours, for any prompt,
terminal, callback and keys. -/
theorem C106_no_color (L : Look) (f : S → Str → Res (Flow × S × List Said)) (size : Nat) (s : S) (ks : List Key) :
    ((L.withColors true).run f size s ks).bind (fun r => .ok (r.1, r.2.editor, r.2.console.screen.erase)) =
      ((L.withColors false).run f size s ks).bind (fun r => .ok (r.1, r.2.editor, r.2.console.screen)) := by
  have h0 : SameText ((L.withColors true).init size s).console ((L.withColors false).init size s).console := by
    unfold Look.init
    have hb : SameText ⟨.plain, [], ⟨[], [], 0⟩⟩ ⟨.plain, [], ⟨[], [], 0⟩⟩ := ⟨rfl, rfl⟩
    simp only [Look.withColors]
    cases L.preText with
    | none => exact (hb.prompt _ _).flush _
    | some t => exact ((hb.fg _ _).replWriteln _ _ _ _).flush _
  have h := loop_colors L f ks ((L.withColors true).init size s) ((L.withColors false).init size s) rfl h0
  unfold Look.run
  revert h
  cases (L.withColors true).loop f ((L.withColors true).init size s) ks with
  | err _ =>
    cases (L.withColors false).loop f ((L.withColors false).init size s) ks with
    | err _ => intro h; cases h; rfl
    | _ => exact False.elim
  | panic =>
    cases (L.withColors false).loop f ((L.withColors false).init size s) ks with
    | panic => intro; rfl
    | _ => exact False.elim
  | ok r =>
    cases (L.withColors false).loop f ((L.withColors false).init size s) ks with
    | ok r' =>
      rintro ⟨h1, h2, h3, h4⟩
      simp only [Res.bind]
      rw [h1, h2, h4]
    | _ => exact False.elim


/-! ## The session of `eval` -/

theorem line_out (S : Session N) (c : Context N) (hc : NoConstant S.K c resultName) (l : Str) (r : Flow × List (Printed N) × Context N)
    (h : S.line c l = .ok r) : r.1 ≠ .continue_ ∧ r.2.1.length ≤ 1 ∧ (r.1 = .break_ ↔ trim l = str "exit") := by
  unfold Session.line at h
  simp only at h
  split at h
  · rename_i hx
    injection h with h; subst h
    exact ⟨by simp, by simp, by simp [hx]⟩
  rename_i hx
  split at h
  · split at h
    · rename_i name value _
      cases hp : S.parse value with
      | none => rw [hp] at h; injection h with h; subst h; exact ⟨by simp, by simp, by simp [hx]⟩
      | some v =>
        rw [hp] at h
        simp only at h
        rcases assign_cases S c name v with ha | ha <;> rw [ha] at h <;> injection h with h <;> subst h <;>
          exact ⟨by simp, by simp, by simp [hx]⟩
    · injection h with h; subst h; exact ⟨by simp, by simp, by simp [hx]⟩
  · split at h
    · rename_i n _
      rw [assign_ok S c resultName n resultName_valid hc] at h
      injection h with h; subst h
      exact ⟨by simp, by simp, by simp [hx]⟩
    · injection h with h; subst h; exact ⟨by simp, by simp, by simp [hx]⟩
    · cases h

theorem session_orderly (S : Session N) (show_ : N → Str) (msg : Context N → Str → Str) (c0 c : Context N) (zero : N)
    (hs : S.start c0 zero = .ok c) : Orderly (S.say show_ msg) c := by
  obtain ⟨h1, h2⟩ := start_ok S c0 c zero hs
  have hc : NoConstant S.K c resultName := by rw [h2]; exact h1
  have inv : ∀ s, Reached (S.say show_ msg) c s → NoConstant S.K s resultName := by
    intro s hr
    induction hr with
    | start => exact hc
    | line _ hl ih =>
      rename_i s l r _
      unfold Session.say at hl
      cases hq : S.line s l with
      | err _ => rw [hq] at hl; cases hl
      | panic => rw [hq] at hl; cases hl
      | ok q =>
        rw [hq] at hl
        injection hl with hl
        subst hl
        have := line_tables S s l q.1 q.2.1 q.2.2 hq
        unfold NoConstant at ih ⊢
        simp only
        rw [this.constants]
        exact ih
  intro s hr l r hl
  unfold Session.say at hl
  cases hq : S.line s l with
  | err _ => rw [hq] at hl; cases hl
  | panic => rw [hq] at hl; cases hl
  | ok q =>
    rw [hq] at hl
    injection hl with hl
    subst hl
    obtain ⟨h3, h4, -⟩ := line_out S s (inv s hr) l q hq
    refine ⟨h3, ?_⟩
    intro x hx
    match hq1 : q.2.1, h4 with
    | [], _ => simp [hq1] at hx
    | [y], _ => simp [hq1] at hx
    | _ :: _ :: _, h4 => simp at h4

/-- What is asked of the terminal in which `eval` runs: blanks and the texts of the prompt are ordinary, and it has at most 65536 columns. -/
structure Tty.OK (T : Tty) : Prop where
  ordinary : Ordinary T (str ">>> Press CTRL+C or type 'exit' to Exit. Bye bye!")
  cols : T.cols ≤ 65536

theorem Tty.OK.sub {T : Tty} (h : T.OK) {s : Str} (hs : ∀ c ∈ s, c ∈ str ">>> Press CTRL+C or type 'exit' to Exit. Bye bye!") : Ordinary T s :=
  fun c hc => h.ordinary c (hs c hc)

theorem evalLook_ok {T : Tty} (h : T.OK) (colors : Bool) : (evalLook T colors).OK :=
  ⟨h.sub (by decide), h.sub (s := str ">>> ") (by decide), h.cols⟩

/-- C103 for the prompt of `eval`, with any number type, colours or not, and any keys: the last row shows `>>> ` and the line that Enter will
submit. -/
theorem C103_eval_partial (S : Session N) (T : Tty) (hT : T.OK) (colors : Bool) (show_ : N → Str) (msg : Context N → Str → Str) (c0 c : Context N)
    (zero : N) (hs : S.start c0 zero = .ok c) (size : Option Nat) (ks : List Key) (ht : Typed T ks)
    (hfit : LineFits (evalLook T colors) (S.say show_ msg) (size.getD 100) c ks) (d : Drawn (Context N))
    (hr : S.runDrawn T colors show_ msg c0 zero size ks = .ok (true, d)) :
    Shows d.console.screen (str ">>> " ++ d.editor.buf) ∧ d.console.pending = [] := by
  unfold Session.runDrawn at hr
  rw [hs] at hr
  exact C103_line_partial (evalLook T colors) (evalLook_ok hT colors) (S.say show_ msg) _ c (session_orderly S show_ msg c0 c zero hs) ks ht hfit d hr

/-- C105 for the prompt of `eval`: the last row of a session that has ended is `>>> Bye bye!`. -/
theorem C105_eval_partial (S : Session N) (T : Tty) (hT : T.OK) (hcols : 12 ≤ T.cols) (colors : Bool) (show_ : N → Str)
    (msg : Context N → Str → Str) (c0 c : Context N) (zero : N) (hs : S.start c0 zero = .ok c) (size : Option Nat) (ks : List Key) (ht : Typed T ks)
    (hfit : LineFits (evalLook T colors) (S.say show_ msg) (size.getD 100) c ks) (d : Drawn (Context N))
    (hr : S.runDrawn T colors show_ msg c0 zero size ks = .ok (false, d)) :
    Shows d.console.screen (str ">>> Bye bye!") ∧ d.console.pending = [] := by
  unfold Session.runDrawn at hr
  rw [hs] at hr
  have := C105_farewell_partial (evalLook T colors) (evalLook_ok hT colors) (S.say show_ msg) _ c (session_orderly S show_ msg c0 c zero hs) ks ht
    hfit d hr (str "Bye bye!") rfl ⟨hT.sub (by decide), hcols⟩
  exact this

theorem run_append (f : S → Str → Res (Flow × S)) (e : Editor S) (ks ks' : List Key) :
    Editor.run f e (ks ++ ks') = (Editor.run f e ks).bind fun r => if r.1 then Editor.run f r.2 ks' else .ok r := by
  induction ks generalizing e with
  | nil => simp [Editor.run]
  | cons k ks ih =>
    rw [List.cons_append, Editor.run, Editor.run]
    cases e.step f k with
    | err _ => rfl
    | panic => rfl
    | ok r =>
      simp only [Res.bind]
      split
      · rw [ih]; rfl
      · rfl

theorem step_ends (f : S → Str → Res (Flow × S)) (e : Editor S) (k : Key) (r : Bool × Editor S) (h : e.step f k = .ok r) :
    r.1 = false ↔ k = .esc ∨ k = .interrupt ∨ (k = .enter ∧ ∃ s, f e.state e.buf = .ok (.break_, s)) := by
  cases k with
  | enter =>
    have h' : e.enter f = .ok r := h
    unfold Editor.enter at h'
    cases hq : f e.state e.buf with
    | err _ => rw [hq] at h'; cases h'
    | panic => rw [hq] at h'; cases h'
    | ok q =>
      obtain ⟨fl, s⟩ := q
      rw [hq] at h'
      simp only [Res.bind] at h'
      cases fl with
      | break_ => injection h' with h'; subst h'; simp
      | continue_ => injection h' with h'; subst h'; simp
      | none =>
        simp only at h'
        split at h'
        · split at h'
          · injection h' with h'; subst h'; simp
          · cases h'
          · cases h'
        · injection h' with h'; subst h'; simp
  | esc => injection h with h; subst h; simp
  | interrupt => injection h with h; subst h; simp
  | other => injection h with h; subst h; simp
  | char c => injection h with h; subst h; simp
  | backspace => injection h with h; subst h; simp
  | up =>
    simp only [Editor.step] at h
    split at h
    · cases hi : e.history.index (e.cursor - 1) with
      | err _ => rw [hi] at h; cases h
      | panic => rw [hi] at h; cases h
      | ok x => rw [hi] at h; injection h with h; subst h; simp
    · injection h with h; subst h; simp
  | down =>
    simp only [Editor.step] at h
    split at h
    · split at h
      · injection h with h; subst h; simp
      · cases hi : e.history.index (e.cursor + 1) with
        | err _ => rw [hi] at h; cases h
        | panic => rw [hi] at h; cases h
        | ok x => rw [hi] at h; injection h with h; subst h; simp
    · injection h with h; subst h; simp

theorem run_ends (f : S → Str → Res (Flow × S)) (ks : List Key) (e : Editor S) (b : Bool) (e' : Editor S) (h : Editor.run f e ks = .ok (b, e')) :
    b = false ↔ ∃ ks1 k ks2 e1, ks = ks1 ++ k :: ks2 ∧ Editor.run f e ks1 = .ok (true, e1) ∧
      (k = .esc ∨ k = .interrupt ∨ (k = .enter ∧ ∃ s, f e1.state e1.buf = .ok (.break_, s))) := by
  induction ks generalizing e with
  | nil =>
    simp only [Editor.run] at h
    injection h with h
    injection h with h _
    subst h
    simp
  | cons k ks ih =>
    rw [Editor.run] at h
    cases hs : e.step f k with
    | err _ => rw [hs] at h; cases h
    | panic => rw [hs] at h; cases h
    | ok r =>
      rw [hs] at h
      simp only [Res.bind] at h
      have hse := step_ends f e k r hs
      cases hb : r.1 with
      | false =>
        rw [hb] at h
        simp only [Bool.false_eq_true, if_false] at h
        injection h with h
        injection h with h _
        subst h
        simp only [true_iff]
        exact ⟨[], k, ks, e, rfl, rfl, hse.mp hb⟩
      | true =>
        rw [hb] at h
        simp only [if_true] at h
        rw [ih r.2 h]
        constructor
        · rintro ⟨ks1, k', ks2, e1, rfl, h1, h2⟩
          refine ⟨k :: ks1, k', ks2, e1, rfl, ?_, h2⟩
          rw [Editor.run, hs]
          simp [Res.bind, hb, h1]
        · rintro ⟨ks1, k', ks2, e1, h0, h1, h2⟩
          cases ks1 with
          | nil =>
            simp only [List.nil_append, List.cons.injEq] at h0
            obtain ⟨rfl, rfl⟩ := h0
            simp only [Editor.run] at h1
            injection h1 with h1
            injection h1 with _ h1
            subst h1
            have := hse.mpr h2
            rw [hb] at this
            cases this
          | cons k1 ks1 =>
            simp only [List.cons_append, List.cons.injEq] at h0
            obtain ⟨rfl, rfl⟩ := h0
            refine ⟨ks1, k', ks2, e1, rfl, ?_, h2⟩
            rw [Editor.run, hs] at h1
            simpa [Res.bind, hb] using h1

/-- C105. A session ends exactly when Esc or Ctrl-C is pressed, or Enter on a line that is `exit` with any white space around it; what is
pressed later is ignored. -/
theorem C105_ends (S : Session N) (c0 : Context N) (zero : N) (size : Option Nat) (ks : List Key) (b : Bool)
    (e : Editor (List (Printed N) × Context N)) (h : S.run c0 zero size ks = .ok (b, e)) :
    (b = false ↔ ∃ ks1 k ks2 e1, ks = ks1 ++ k :: ks2 ∧ S.run c0 zero size ks1 = .ok (true, e1) ∧
      (k = .esc ∨ k = .interrupt ∨ (k = .enter ∧ ∃ w w', Blank w ∧ Blank w' ∧ e1.buf = w ++ str "exit" ++ w'))) ∧
    (b = false → ∀ more, S.run c0 zero size (ks ++ more) = .ok (false, e)) := by
  unfold Session.run at *
  cases hs : S.start c0 zero with
  | err _ => rw [hs] at h; cases h
  | panic => rw [hs] at h; cases h
  | ok c =>
    rw [hs] at h
    simp only [Res.bind] at h ⊢
    refine ⟨?_, ?_⟩
    · rw [run_ends S.callback ks _ b e h]
      have key : ∀ e1 : Editor (List (Printed N) × Context N), (∃ s, S.callback e1.state e1.buf = .ok (.break_, s)) ↔
          ∃ w w', Blank w ∧ Blank w' ∧ e1.buf = w ++ str "exit" ++ w' := by
        intro e1
        have h1 : (∃ s, S.callback e1.state e1.buf = .ok (.break_, s)) ↔ trim e1.buf = str "exit" := by
          unfold Session.callback
          constructor
          · rintro ⟨s, hs⟩
            cases hq : S.line e1.state.2 e1.buf with
            | err _ => rw [hq] at hs; cases hs
            | panic => rw [hq] at hs; cases hs
            | ok q =>
              rw [hq] at hs
              simp only [Res.bind] at hs
              injection hs with hs
              injection hs with hs _
              by_cases hx : trim e1.buf = str "exit"
              · exact hx
              exfalso
              unfold Session.line at hq
              simp only [hx, if_false] at hq
              revert hq
              split
              · split
                · split
                  · rename_i name value _ _ v _
                    rcases assign_cases S e1.state.2 name v with ha | ha <;> rw [ha] <;> intro hq <;> cases hq <;> cases hs
                  · intro hq; cases hq; cases hs
                · intro hq; cases hq; cases hs
              · split
                · rename_i n _
                  rcases assign_cases S e1.state.2 resultName n with ha | ha <;> rw [ha] <;> intro hq <;> cases hq <;> cases hs
                · intro hq; cases hq; cases hs
                · intro hq; cases hq
          · intro hx
            unfold Session.line
            simp only [hx, if_true]
            exact ⟨_, rfl⟩
        rw [h1]
        constructor
        · intro hx
          obtain ⟨w, w', h2, h3, h4⟩ := trim_split e1.buf
          exact ⟨w, w', h3, h4, by rw [← hx]; exact h2⟩
        · rintro ⟨w, w', h2, h3, h4⟩
          rw [h4]
          refine trim_of_split h2 h3 (by simp [str]) ?_ ?_
          · intro c t hc
            have : c = 'e' := by simp [str] at hc; exact hc.1.symm
            subst this; decide
          · intro c t hc
            have : c = 't' := by
              have := congrArg List.getLast? hc
              simp [str] at this
              exact this.symm
            subst this; decide
      simp only [key]
    · rintro rfl more
      rw [run_append, h]
      simp [Res.bind]


/-! ## A terminal and a session -/

/-- A terminal of 80 columns; the accent takes no column of its own, and an ideograph takes two. -/
def Demo.tty : Tty := ⟨80, fun c => if c = '\u0301' then 0 else if c = '\u65e5' then 2 else 1⟩

/-- A terminal of 10 columns. -/
def Demo.narrow : Tty := ⟨10, fun _ => 1⟩

/-- The prompt of `eval` on a terminal, with a callback that writes nothing. -/
def Demo.keysOn (T : Tty) (ks : List Key) : Res (Bool × Drawn Unit) := (evalLook T true).run (fun s _ => .ok (.none, s, [])) 100 () ks

/-- How a number is printed, for the demo. -/
def Demo.showInt (n : Int) : Str := (toString n).toList

theorem Demo.tty_ok : Demo.tty.OK := ⟨by unfold Ordinary Demo.tty str; decide, by decide +kernel⟩

/-- A session of `eval`: a line with a correction, an error, a recalled line. -/
def Demo.session_keys : List Key :=
  [.char '1', .char '+', .char '3', .backspace, .char '2', .enter, .char '+', .enter, .up, .up]

/-- The hypotheses of C103, C104 and C105 hold for that session, and this is its screen. -/
example : ∃ c d, Demo.session.start Demo.prompt 0 = .ok c ∧ Typed Demo.tty Demo.session_keys ∧
    (evalLook Demo.tty true).run (witnessed (Demo.session.say Demo.showInt fun _ _ => str "oops")) 100 ([], c) Demo.session_keys = .ok (true, d) ∧
    d.editor.buf = str "1+2" ∧ textOf d.console.screen.row = str ">>> 1+2" ∧
    d.console.screen.read = [str "Press CTRL+C or type 'exit' to Exit", str ">>> 1+2", str ">>> 3", str ">>> +", str ">>> oops"] := by
  refine ⟨_, _, rfl, ?_, rfl, by decide +kernel, by decide +kernel, by decide +kernel⟩
  intro c hc
  simp only [Demo.session_keys, List.mem_cons, Key.char.injEq, List.not_mem_nil, reduceCtorEq, or_false, false_or] at hc
  unfold Ordinary
  rcases hc with rfl | rfl | rfl | rfl | rfl <;> decide

/-- The line fits at every time in that session. -/
example : ∃ c, Demo.session.start Demo.prompt 0 = .ok c ∧
    LineFits (evalLook Demo.tty true) (Demo.session.say Demo.showInt fun _ _ => str "oops") 100 c Demo.session_keys := by
  refine ⟨_, rfl, ?_⟩
  intro ks' hp d hd
  obtain ⟨n, hn, rfl⟩ : ∃ n, n ≤ 10 ∧ ks' = Demo.session_keys.take n := ⟨ks'.length, hp.length_le, List.prefix_iff_eq_take.mp hp⟩
  have hall : ∀ n ∈ List.range 11, ((evalLook Demo.tty true).run (Demo.session.say Demo.showInt fun _ _ => str "oops") 100
      ⟨[(resultName, 0)], Demo.prompt.constants, Demo.prompt.functions, Demo.prompt.unary, Demo.prompt.binary, Demo.prompt.config⟩
      (Demo.session_keys.take n)).map (fun r => decide ((str ">>> " ++ r.2.editor.buf).length < 80)) = .ok true := by decide +kernel
  have := hall n (by simp; omega)
  have hd' : (evalLook Demo.tty true).run (Demo.session.say Demo.showInt fun _ _ => str "oops") 100
      ⟨[(resultName, 0)], Demo.prompt.constants, Demo.prompt.functions, Demo.prompt.unary, Demo.prompt.binary, Demo.prompt.config⟩
      (Demo.session_keys.take n) = .ok (true, d) := hd
  rw [hd'] at this
  injection this with this
  exact of_decide_eq_true this

/-- After `exit` the last row is the farewell, and later keys change nothing. -/
example : ((Demo.session.runDrawn Demo.tty true Demo.showInt (fun _ _ => str "oops") Demo.prompt 0 none
    ([.char '1', .enter] ++ (str " exit ").map .char ++ [.enter, .char '7'])).map fun r => (r.1, textOf r.2.console.screen.row, r.2.console.screen.read)) =
    .ok (false, str ">>> Bye bye!", [str "Press CTRL+C or type 'exit' to Exit", str ">>> 1", str ">>> 1", str ">>>  exit"]) := by decide +kernel

/-- C103, counterexample to the full claim: a wide character is only half deleted, a combining accent deletes the letter in front of it on the
screen but not in the line, and after a line that is longer than a row, Up leaves the begin of that line on the screen. -/
theorem C103_width_counterexample :
    (∃ d, Demo.keysOn Demo.tty [.char '\u65e5', .backspace] = .ok (true, d) ∧ d.editor.buf = [] ∧
      ¬ Shows d.console.screen (str ">>> " ++ d.editor.buf)) ∧
    (∃ d, Demo.keysOn Demo.tty [.char 'e', .char '\u0301', .backspace] = .ok (true, d) ∧ d.editor.buf = ['e'] ∧
      Shows d.console.screen (str ">>> ")) ∧
    (∃ d, Demo.keysOn Demo.narrow ([.char '1', .enter] ++ (str "23456789").map .char ++ [.up]) = .ok (true, d) ∧ d.editor.buf = ['1'] ∧
      str ">>> 234567" ∈ d.console.screen.read) := by
  refine ⟨⟨_, rfl, by decide +kernel, ?_⟩, ⟨_, rfl, by decide +kernel, ⟨⟨1, by decide +kernel⟩, by decide +kernel⟩⟩, ⟨_, rfl, by decide +kernel, by decide +kernel⟩⟩
  rintro ⟨-, h⟩
  revert h
  decide +kernel

/-- C104, counterexample to the claim that what is entered and what is written can be told apart without colours: the result is written behind
a prompt, so that entering 3 twice leaves the same screen as the lines 3, 3, 3, 3. -/
theorem C104_prompt_counterexample : ∃ f : Unit → Str → Res (Flow × Unit × List Said),
    (∀ s l, f s l = .ok (.none, (), [⟨false, .green, l⟩])) ∧
    ∃ d d', (evalLook Demo.tty false).run f 100 () [.char '3', .enter, .char '3', .enter] = .ok (true, d) ∧
      (evalLook Demo.tty false).run (fun s _ => .ok (.none, s, [])) 100 () [.char '3', .enter, .char '3', .enter, .char '3', .enter, .char '3', .enter] =
        .ok (true, d') ∧
      d.console.screen = d'.console.screen := by
  refine ⟨fun _ l => .ok (.none, (), [⟨false, .green, l⟩]), fun _ _ => rfl, _, _, rfl, rfl, by decide +kernel⟩

/-- C104. Results, and only they, are written to standard output, in green; everything that goes wrong is written to standard error, in red. The
result of an expression is written first, a refused expression writes one line, and assignments write no result. -/
theorem C104_streams (S : Session N) (show_ : N → Str) (msg : Context N → Str → Str) (c c' : Context N) (l : Str) (flow : Flow) (out : List Said)
    (h : S.say show_ msg c l = .ok (flow, c', out)) :
    let r := eval S.parse (split (replRules S.isBinary)) (c.view S.K) (trim l)
    (∀ x ∈ out, x.err = true ∧ x.color = .red ∨ x.err = false ∧ x.color = .green ∧ '=' ∉ l ∧ ∃ n, r = .ok n ∧ x.text = show_ n) ∧
    (trim l ≠ str "exit" → '=' ∉ l → ∀ n, r = .ok n → ∃ rest, out = ⟨false, .green, show_ n⟩ :: rest ∧ ∀ x ∈ rest, x.err = true ∧ x.color = .red) ∧
    (trim l ≠ str "exit" → '=' ∉ l → ∀ k, r = .err k → out = [⟨true, .red, msg c l⟩]) := by
  intro r
  have assign : ∀ name v o d, S.assign c name v = .ok (o, d) → ∀ x ∈ o.map (Printed.said show_ (msg c l)), x.err = true ∧ x.color = .red := by
    intro name v o d h x hx
    unfold Session.assign at h
    split at h
    · cases h; cases hx
    · cases h
      simp only [List.map_cons, List.map_nil, List.mem_singleton] at hx
      subst hx
      exact ⟨rfl, rfl⟩
    · cases h
  have eqs : (trim l).contains '=' = true ↔ '=' ∈ l := by
    rw [List.contains_iff_mem]
    obtain ⟨w, w', e, hw, hw'⟩ := trim_split l
    constructor
    · intro h; rw [e]; simp [h]
    · intro h
      rw [e] at h
      simp only [List.mem_append] at h
      rcases h with (h | h) | h
      · exact absurd (hw _ h) (by decide)
      · exact h
      · exact absurd (hw' _ h) (by decide)
  unfold Session.say Session.line at h
  by_cases he : trim l = str "exit"
  · rw [if_pos he] at h
    cases h
    exact ⟨fun x hx => (by cases hx), fun h => absurd he h, fun h => absurd he h⟩
  rw [if_neg he] at h
  by_cases hq : '=' ∈ l
  · rw [if_pos (eqs.2 hq)] at h
    refine ⟨fun x hx => .inl ?_, fun _ h => absurd hq h, fun _ h => absurd hq h⟩
    split at h
    · split at h
      · rename_i name value _ _ v _
        cases ha : S.assign c name v with
        | err k => rw [ha] at h; cases h
        | panic => rw [ha] at h; cases h
        | ok o =>
          rw [ha] at h
          cases h
          exact assign _ _ _ _ ha x hx
      · cases h
        simp only [List.map_cons, List.map_nil, List.mem_singleton] at hx
        subst hx
        exact ⟨rfl, rfl⟩
    · cases h
      simp only [List.map_cons, List.map_nil, List.mem_singleton] at hx
      subst hx
      exact ⟨rfl, rfl⟩
  · rw [if_neg (fun h => hq (eqs.1 h))] at h
    simp only [r]
    cases hr : eval S.parse (split (replRules S.isBinary)) (c.view S.K) (trim l) with
    | panic => rw [hr] at h; cases h
    | err k =>
      rw [hr] at h
      cases h
      refine ⟨fun x hx => .inl ?_, fun _ _ n hn => (by cases hn), fun _ _ _ _ => rfl⟩
      simp only [List.map_cons, List.map_nil, List.mem_singleton] at hx
      subst hx
      exact ⟨rfl, rfl⟩
    | ok n =>
      rw [hr] at h
      cases ha : S.assign c resultName n with
      | err k => simp only [ha] at h; cases h
      | panic => simp only [ha] at h; cases h
      | ok o =>
        simp only [ha] at h
        cases h
        have hrest := assign _ _ _ _ ha
        refine ⟨fun x hx => ?_, fun _ _ m hm => ?_, fun _ _ k hk => (by cases hk)⟩
        · rcases List.mem_cons.1 hx with rfl | hx
          · exact .inr ⟨rfl, rfl, hq, n, rfl, rfl⟩
          · exact .inl (hrest x hx)
        · cases hm
          exact ⟨_, rfl, hrest⟩

/-- A result and an error of the demo session. -/
example : ∃ c c1, Demo.session.start Demo.prompt 0 = .ok c ∧
    Demo.session.say (fun n => if n = 12 then str "12" else []) (fun _ _ => str "oops") c (str "12 3") = .ok (.none, c, [⟨true, .red, str "oops"⟩]) ∧
    Demo.session.say (fun n => if n = 12 then str "12" else []) (fun _ _ => str "oops") c (str "12") = .ok (.none, c1, [⟨false, .green, str "12"⟩]) := by
  refine ⟨_, _, rfl, rfl, rfl⟩

end Prexel
