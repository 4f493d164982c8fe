import Verif.Spec.Repl
import Verif.Props.Context
import Verif.Props.Tokenizer
/-!
# Properties C41-C44, C61: the interactive prompt
-/

set_option linter.unusedVariables false
set_option linter.unusedSimpArgs false

namespace Prexel
variable {N S α : Type}

/-! ## C41: the history keeps the last entries -/

theorem lastN_append_one (n : Nat) (hn : 0 < n) (l : List α) (x : α) :
    lastN n (l ++ [x]) = if (lastN n l).length = n then (lastN n l).tail ++ [x] else lastN n l ++ [x] := by
  unfold lastN
  simp only [List.length_append, List.length_cons, List.length_nil, List.length_drop, List.tail_drop]
  split
  · rename_i h
    rw [List.drop_append_of_le_length (by omega)]
    congr 2; omega
  · rename_i h
    rw [List.drop_append_of_le_length (by omega)]
    congr 2; omega

theorem lastN_length (n : Nat) (l : List α) : (lastN n l).length = min l.length n := by simp [lastN]; omega

theorem push_lastN (cap : Nat) (hc : 0 < cap) (l : List α) (x : α) :
    CircularArray.push ⟨lastN cap l, cap⟩ x = .ok ⟨lastN cap (l ++ [x]), cap⟩ := by
  rw [lastN_append_one cap hc]
  unfold CircularArray.push
  simp only
  split
  · rename_i h
    cases hl : lastN cap l with
    | nil => rw [hl] at h; simp at h; omega
    | cons a t => simp
  · rfl

/-- Pushes all of `xs`, one after the other. -/
def CircularArray.pushAll (a : CircularArray α) : List α → Res (CircularArray α)
  | [] => .ok a
  | x :: xs => (a.push x).bind fun a' => a'.pushAll xs

theorem pushAll_lastN (cap : Nat) (hc : 0 < cap) (xs l : List α) :
    CircularArray.pushAll ⟨lastN cap l, cap⟩ xs = .ok ⟨lastN cap (l ++ xs), cap⟩ := by
  induction xs generalizing l with
  | nil => simp [CircularArray.pushAll]
  | cons x xs ih => simp [CircularArray.pushAll, push_lastN cap hc, ih]

/-- C41. After any pushes a history with room for at least one entry holds the last `min n cap` of them, in order. -/
theorem C41_keeps_last_partial (cap : Nat) (hc : 0 < cap) (xs : List α) :
    CircularArray.pushAll (.new cap) xs = .ok ⟨lastN cap xs, cap⟩ ∧ (lastN cap xs).length = min xs.length cap ∧
      ∃ pre, xs = pre ++ lastN cap xs := by
  refine ⟨by simpa [lastN, CircularArray.new] using pushAll_lastN cap hc xs [], lastN_length cap xs, xs.take (xs.length - cap), ?_⟩
  simp [lastN]

example : CircularArray.pushAll (.new 2) [1, 2, 3] = .ok ⟨[2, 3], 2⟩ := by decide

/-- C41, counterexample: a history of size 0 panics at the first entry. -/
theorem C41_no_room_counterexample (x : α) : CircularArray.push (.new 0) x = .panic := rfl

/-- The operations on a history. -/
inductive HistoryOp (α : Type) where
  | push (x : α)
  | pop
  | remove (i : Nat)

/-- Runs an operation. -/
def CircularArray.step (a : CircularArray α) : HistoryOp α → Res (CircularArray α)
  | .push x => a.push x
  | .pop => .ok a.pop.2
  | .remove i => .ok (a.remove i).2

/-- Runs operations one after the other. -/
def CircularArray.steps (a : CircularArray α) : List (HistoryOp α) → Res (CircularArray α)
  | [] => .ok a
  | o :: os => (a.step o).bind fun a' => a'.steps os

theorem steps_bounded (cap : Nat) (hc : 0 < cap) (ops : List (HistoryOp α)) (a : CircularArray α) (ha : a.cap = cap)
    (hl : a.data.length ≤ cap) : ∃ b, a.steps ops = .ok b ∧ b.cap = cap ∧ b.data.length ≤ cap := by
  induction ops generalizing a with
  | nil => exact ⟨a, rfl, ha, hl⟩
  | cons o os ih =>
    have : ∃ b, a.step o = .ok b ∧ b.cap = cap ∧ b.data.length ≤ cap := by
      cases o with
      | push x =>
        simp only [CircularArray.step, CircularArray.push]
        split
        · cases hd : a.data with
          | nil => simp [hd] at *; omega
          | cons y t => exact ⟨_, rfl, ha, by simp [hd] at hl ⊢; omega⟩
        · exact ⟨_, rfl, ha, by simp; omega⟩
      | pop => exact ⟨_, rfl, ha, by simp [CircularArray.pop]; omega⟩
      | remove i =>
        refine ⟨_, rfl, ?_, ?_⟩ <;> simp only [CircularArray.remove] <;> split <;> simp [ha, hl, List.length_eraseIdx]
        split <;> omega
    obtain ⟨b, hb, h1, h2⟩ := this
    obtain ⟨d, hd, h3⟩ := ih b h1 h2
    exact ⟨d, by simp [CircularArray.steps, hb, hd], h3⟩

/-- C41. Whatever pushes, pops and removals are made, a history with room for at least one entry never panics and never holds more than
its capacity. -/
theorem C41_capacity_partial (cap : Nat) (hc : 0 < cap) (ops : List (HistoryOp α)) :
    ∃ b, (CircularArray.new cap).steps ops = .ok b ∧ b.data.length ≤ cap := by
  obtain ⟨b, h, _, h'⟩ := steps_bounded cap hc ops (.new cap) rfl (by simp [CircularArray.new])
  exact ⟨b, h, h'⟩

/-! ## `trim` -/

theorem dropWhile_eq_nil_iff (p : Char → Bool) (s : Str) : s.dropWhile p = [] ↔ ∀ c ∈ s, p c = true := by
  induction s with
  | nil => simp
  | cons c s ih => simp only [List.dropWhile_cons]; split <;> simp_all

theorem dropWhile_split (p : Char → Bool) (s : Str) : ∃ w, s = w ++ s.dropWhile p ∧ ∀ c ∈ w, p c = true := by
  refine ⟨s.takeWhile p, (List.takeWhile_append_dropWhile).symm, ?_⟩
  have := List.all_takeWhile (l := s) (p := p)
  rwa [List.all_eq_true] at this

/-- A line is the trimmed line with white space around it. -/
theorem trim_split (s : Str) : ∃ w w', s = w ++ trim s ++ w' ∧ Blank w ∧ Blank w' := by
  obtain ⟨w, h1, h2⟩ := dropWhile_split isWhitespace s
  obtain ⟨w', h3, h4⟩ := dropWhile_split isWhitespace (s.dropWhile isWhitespace).reverse
  have h5 : s.dropWhile isWhitespace = trim s ++ w'.reverse := by
    have := congrArg List.reverse h3
    rw [List.reverse_reverse, List.reverse_append] at this
    exact this
  refine ⟨w, w'.reverse, ?_, h2, fun c hc => h4 c (by simpa using hc)⟩
  rw [List.append_assoc, ← h5]; exact h1

theorem trim_nil_iff (s : Str) : (trim s).length > 0 ↔ ¬ Blank s := by
  have : trim s = [] ↔ Blank s := by
    unfold trim
    rw [List.reverse_eq_nil_iff, dropWhile_eq_nil_iff]
    constructor
    · intro h
      have h' : s.dropWhile isWhitespace = [] := by
        cases hd : s.dropWhile isWhitespace with
        | nil => rfl
        | cons c t =>
          exfalso
          have h1 := h c (by rw [hd]; simp)
          have : ∀ (s : Str), s.dropWhile isWhitespace = c :: t → isWhitespace c = false := by
            intro s
            induction s with
            | nil => simp
            | cons x s ih => simp only [List.dropWhile_cons]; split
                             · exact ih
                             · intro h; cases h; rename_i hh; simpa using hh
          rw [this s hd] at h1; cases h1
      exact (dropWhile_eq_nil_iff _ _).mp h'
    · intro h c hc
      have : s.dropWhile isWhitespace = [] := (dropWhile_eq_nil_iff _ _).mpr h
      rw [this] at hc; simp at hc
  rw [gt_iff_lt, List.length_pos_iff, ne_eq, this]

/-! ## C42: line editing -/

/-- The callback answers every line. -/
def Answers (f : S → Str → Res (Flow × S)) : Prop := ∀ s l, ∃ r, f s l = .ok r

/-- What holds of the editor between two keys. -/
structure EditorOK (size : Nat) (e : Editor S) : Prop where
  cap : e.history.cap = size
  len : e.history.data.length ≤ size
  cursor : e.cursor ≤ e.history.len

theorem push_ok {cap : Nat} (hc : 0 < cap) (a : CircularArray Str) (ha : a.cap = cap) (hl : a.data.length ≤ cap) (x : Str) :
    ∃ b, a.push x = .ok b ∧ b.cap = cap ∧ b.data.length ≤ cap := by
  obtain ⟨b, h, h'⟩ := steps_bounded cap hc [.push x] a ha hl
  simp only [CircularArray.steps, CircularArray.step] at h
  cases hp : a.push x with
  | ok d => rw [hp] at h; simp at h; exact ⟨d, rfl, h ▸ h'⟩
  | err k => rw [hp] at h; simp at h
  | panic => rw [hp] at h; simp at h

theorem step_ok {cap : Nat} (hc : 0 < cap) {f : S → Str → Res (Flow × S)} (hf : Answers f) {e : Editor S} (he : EditorOK cap e) (k : Key) :
    ∃ r, e.step f k = .ok r ∧ EditorOK cap r.2 := by
  have hcur := he.cursor
  have hidx : ∀ i, i < e.history.len → ∃ s, e.history.index i = .ok s := by
    intro i hi
    refine ⟨e.history.data[i]'hi, ?_⟩
    simp only [CircularArray.len] at hi
    simp [CircularArray.index, hi]
  cases k with
  | backspace => refine ⟨_, rfl, ?_⟩; simp only; split <;> exact ⟨he.cap, he.len, he.cursor⟩
  | enter =>
    simp only [Editor.step, Editor.enter]
    obtain ⟨⟨fl, s⟩, hr⟩ := hf e.state e.buf
    rw [hr]
    simp only [Res.bind_ok]
    cases fl with
    | break_ => exact ⟨_, rfl, he.cap, he.len, he.cursor⟩
    | continue_ => exact ⟨_, rfl, he.cap, he.len, he.cursor⟩
    | none =>
      simp only
      split
      · split
        · obtain ⟨b, hb, h1, h2⟩ := push_ok hc e.history he.cap he.len e.buf
          rw [hb]
          exact ⟨_, rfl, h1, h2, by simp [CircularArray.len]⟩
        · exact ⟨_, rfl, he.cap, he.len, by simp [CircularArray.len]⟩
      · exact ⟨_, rfl, he.cap, he.len, he.cursor⟩
  | up =>
    simp only [Editor.step]
    split
    · obtain ⟨s, hs⟩ := hidx (e.cursor - 1) (by omega)
      rw [hs]
      exact ⟨_, rfl, he.cap, he.len, by simp only; omega⟩
    · exact ⟨_, rfl, he⟩
  | down =>
    simp only [Editor.step]
    split
    · split
      · exact ⟨_, rfl, he.cap, he.len, by simp only; omega⟩
      · obtain ⟨s, hs⟩ := hidx (e.cursor + 1) (by omega)
        rw [hs]
        exact ⟨_, rfl, he.cap, he.len, by simp only; omega⟩
    · exact ⟨_, rfl, he⟩
  | char c => exact ⟨_, rfl, he.cap, he.len, he.cursor⟩
  | esc => exact ⟨_, rfl, he⟩
  | interrupt => exact ⟨_, rfl, he⟩
  | other => exact ⟨_, rfl, he⟩

theorem run_ok {cap : Nat} (hc : 0 < cap) {f : S → Str → Res (Flow × S)} (hf : Answers f) (ks : List Key) {e : Editor S}
    (he : EditorOK cap e) : ∃ r, e.run f ks = .ok r ∧ EditorOK cap r.2 := by
  induction ks generalizing e with
  | nil => exact ⟨_, rfl, he⟩
  | cons k ks ih =>
    obtain ⟨⟨b, e'⟩, h, h'⟩ := step_ok hc hf he k
    simp only [Editor.run, h, Res.bind_ok]
    cases b with
    | true => exact ih h'
    | false => exact ⟨_, rfl, h'⟩

theorem init_ok (cap : Nat) (s : S) : EditorOK cap (Editor.init cap s) := ⟨rfl, by simp [Editor.init, CircularArray.new], by simp [Editor.init]⟩

/-- C42, for a history of at least one entry: whatever keys are pressed, no key panics, the history cursor stays within the history and
the history within its size. (A callback that panics is a panic of the evaluator; see C15.) -/
theorem C42_in_bounds_partial (size : Nat) (hc : 0 < size) (f : S → Str → Res (Flow × S)) (hf : Answers f) (s : S) (ks : List Key) :
    ∃ running e, Editor.run f (Editor.init size s) ks = .ok (running, e) ∧ e.cursor ≤ e.history.data.length ∧
      e.history.data.length ≤ size := by
  obtain ⟨⟨b, e⟩, h, h'⟩ := run_ok hc hf ks (init_ok size s)
  exact ⟨b, e, h, h'.cursor, h'.len⟩

/-- A callback that does nothing. -/
def idle : Unit → Str → Res (Flow × Unit) := fun s _ => .ok (.none, s)

example : Answers idle := fun _ _ => ⟨_, rfl⟩

/-- C42, counterexample: with `--history 0` entering a line panics. -/
theorem C42_no_history_counterexample : Editor.run idle (Editor.init 0 ()) [.char '1', .enter] = .panic := by decide

/-! ## C61: what is typed is what is evaluated -/

/-- C61. Typing characters and pressing Backspace: the text is what a typist expects. -/
theorem C61_typed (f : S → Str → Res (Flow × S)) (e : Editor S) (s : Str) (k : Nat) :
    e.run f (s.map .char) = .ok (true, { e with buf := e.buf ++ s }) ∧
    e.run f (List.replicate k .backspace) = .ok (true, { e with buf := e.buf.take (e.buf.length - k) }) := by
  constructor
  · induction s generalizing e with
    | nil => simp [Editor.run]
    | cons c s ih => simp [Editor.run, Editor.step, ih]
  · induction k generalizing e with
    | zero => simp [Editor.run]
    | succ k ih =>
      simp only [List.replicate_succ, Editor.run, Editor.step, Res.bind_ok, if_true]
      rw [ih]
      split
      · simp only [List.dropLast_eq_take, List.take_take, List.length_take]
        congr 4; omega
      · have : e.buf = [] := by cases hb : e.buf <;> simp_all
        simp [this]

/-- C61. Pressing Enter hands exactly the text of the line to the callback. -/
theorem C61_enter (f : S → Str → Res (Flow × S)) (e : Editor S) (r : Bool × Editor S) (h : e.step f .enter = .ok r) :
    ∃ fl, f e.state e.buf = .ok (fl, r.2.state) ∧ (r.1 = false ↔ fl = .break_) ∧ r.2.buf = [] := by
  simp only [Editor.step, Editor.enter] at h
  cases hf : f e.state e.buf with
  | err k => rw [hf] at h; simp at h
  | panic => rw [hf] at h; simp at h
  | ok p =>
    obtain ⟨fl, s⟩ := p
    rw [hf] at h
    simp only [Res.bind_ok] at h
    cases fl with
    | break_ => simp at h; subst h; exact ⟨_, rfl, by simp, rfl⟩
    | continue_ => simp at h; subst h; exact ⟨_, rfl, by simp, rfl⟩
    | none =>
      simp only at h
      split at h
      · generalize (if e.history.last ≠ some e.buf then e.history.push e.buf else Res.ok e.history) = x at h
        cases x with
        | ok v => simp at h; subst h; exact ⟨_, rfl, by simp, rfl⟩
        | err k => simp at h
        | panic => simp at h
      · simp at h; subst h; exact ⟨_, rfl, by simp, rfl⟩

/-! ## C62: Up and Down -/

theorem up_step (f : S → Str → Res (Flow × S)) (e : Editor S) (k : Nat) (hk : k ≤ e.cursor) (he : e.cursor ≤ e.history.data.length)
    (hk0 : 0 < k) : e.run f (List.replicate k .up) =
      .ok (true, { e with cursor := e.cursor - k, buf := e.history.data[e.cursor - k]'(by omega) }) := by
  induction k generalizing e with
  | zero => omega
  | succ k ih =>
    simp only [List.replicate_succ, Editor.run, Editor.step]
    rw [if_pos (by omega)]
    have hi : e.history.index (e.cursor - 1) = .ok (e.history.data[e.cursor - 1]'(by omega)) := by
      simp [CircularArray.index, show e.cursor - 1 < e.history.data.length by omega]
    rw [hi]
    simp only [Res.bind_ok, if_true]
    by_cases h0 : k = 0
    · subst h0; simp [Editor.run]
    · rw [ih _ (by simp only; omega) (by simp only; omega) (by omega)]
      simp only [Nat.sub_sub, Nat.add_comm 1 k]

/-- C62. From the end of the history (where the cursor is after entering a line), pressing Up `k` times shows the `k`-th latest entry,
and Up once more at the oldest entry changes nothing. -/
theorem C62_up (f : S → Str → Res (Flow × S)) (e : Editor S) (he : e.cursor = e.history.data.length) (k : Nat)
    (hk : 0 < k) (hk' : k ≤ e.history.data.length) :
    ∃ e', e.run f (List.replicate k .up) = .ok (true, e') ∧ e'.history = e.history ∧ e'.state = e.state ∧
      e'.buf = e.history.data[e.history.data.length - k]'(by omega) ∧
      (k = e.history.data.length → e'.step f .up = .ok (true, e')) := by
  refine ⟨_, up_step f e k (by omega) (by omega) hk, rfl, rfl, by simp [he], ?_⟩
  intro h
  simp [Editor.step, he, h]

theorem down_step (f : S → Str → Res (Flow × S)) (e : Editor S) (k : Nat) (hk : e.cursor + k = e.history.data.length)
    (hk0 : 0 < k) : e.run f (List.replicate k .down) = .ok (true, { e with cursor := e.history.data.length, buf := [] }) := by
  induction k generalizing e with
  | zero => omega
  | succ k ih =>
    have hlen : e.history.len = e.history.data.length := rfl
    simp only [List.replicate_succ, Editor.run, Editor.step]
    rw [if_pos (by omega)]
    by_cases h0 : k = 0
    · subst h0
      rw [if_pos (by omega)]
      simp [Editor.run]; omega
    · rw [if_neg (by omega)]
      have hi : e.history.index (e.cursor + 1) = .ok (e.history.data[e.cursor + 1]'(by omega)) := by
        simp [CircularArray.index, show e.cursor + 1 < e.history.data.length by omega]
      rw [hi]
      simp only [Res.bind_ok, if_true]
      rw [ih _ (by simp only; omega) (by omega)]

/-- C62. Pressing Down as often as Up goes back to an empty line at the end of the history; one Down shows the entry after the current
one. -/
theorem C62_down (f : S → Str → Res (Flow × S)) (e : Editor S) (he : e.cursor = e.history.data.length) (k : Nat)
    (hk : 0 < k) (hk' : k ≤ e.history.data.length) :
    ∃ e', e.run f (List.replicate k .up ++ List.replicate k .down) = .ok (true, e') ∧ e' = { e with buf := [] } := by
  have happ : ∀ (e : Editor S) (a b : List Key) e', e.run f a = .ok (true, e') → e.run f (a ++ b) = e'.run f b := by
    intro e a b
    induction a generalizing e with
    | nil => intro e' h; simp [Editor.run] at h; simp [h]
    | cons x a ih =>
      intro e' h
      simp only [List.cons_append, Editor.run] at h ⊢
      cases hs : e.step f x with
      | ok r =>
        rw [hs] at h
        simp only [Res.bind_ok] at h ⊢
        cases hr : r.1 with
        | true => rw [hr] at h; simp only [if_true] at h ⊢; exact ih _ _ h
        | false => rw [hr] at h; simp at h
      | err k => rw [hs] at h; simp at h
      | panic => rw [hs] at h; simp at h
  rw [happ _ _ _ _ (up_step f e k (by omega) (by omega) hk), down_step f _ k (by simp only; omega) hk]
  exact ⟨_, rfl, by simp [he]⟩

/-! ## C41 for the prompt: the history is the last different lines -/

theorem squeeze_last [DecidableEq α] (l : List α) : (squeeze l).getLast? = l.getLast? := by
  induction l with
  | nil => rfl
  | cons x l ih =>
    cases l with
    | nil => rfl
    | cons y l =>
      simp only [squeeze]
      split
      · rw [ih]; simp [List.getLast?_cons_cons]
      · cases hs : squeeze (y :: l) with
        | nil => rw [hs] at ih; simp [List.getLast?_cons] at ih
        | cons z t => rw [List.getLast?_cons_cons, ← hs, ih, List.getLast?_cons_cons]

theorem squeeze_append [DecidableEq α] (l : List α) (x : α) :
    squeeze (l ++ [x]) = if l.getLast? = some x then squeeze l else squeeze l ++ [x] := by
  induction l with
  | nil => simp [squeeze]
  | cons y l ih =>
    cases l with
    | nil => simp only [List.cons_append, List.nil_append, squeeze]; split <;> simp_all
    | cons z l =>
      simp only [List.cons_append] at ih ⊢
      simp only [squeeze, List.getLast?_cons_cons]
      rw [ih]
      split <;> split <;> simp_all

theorem lastN_last (n : Nat) (hn : 0 < n) (l : List α) : (lastN n l).getLast? = l.getLast? := by
  unfold lastN
  rw [List.getLast?_drop]
  split
  · have : l = [] := by
      cases l with
      | nil => rfl
      | cons a t => simp at *; omega
    simp [this]
  · rfl

theorem history_step {size : Nat} (hc : 0 < size) (f : S → Str → Res (Flow × S)) (e : Editor (List (Str × Flow) × S)) (k : Key)
    (he : e.history = ⟨lastN size (squeeze (historyLines e.state.1)), size⟩) (r : Bool × Editor (List (Str × Flow) × S))
    (h : e.step (recorded f) k = .ok r) : r.2.history = ⟨lastN size (squeeze (historyLines r.2.state.1)), size⟩ := by
  cases k with
  | backspace => simp only [Editor.step] at h; cases h; split <;> exact he
  | char c => simp only [Editor.step] at h; cases h; exact he
  | esc => simp only [Editor.step] at h; cases h; exact he
  | interrupt => simp only [Editor.step] at h; cases h; exact he
  | other => simp only [Editor.step] at h; cases h; exact he
  | up =>
    simp only [Editor.step] at h
    split at h
    · cases hi : e.history.index (e.cursor - 1) with
      | ok s => rw [hi] at h; simp at h; subst h; exact he
      | err k => rw [hi] at h; simp at h
      | panic => rw [hi] at h; simp at h
    · cases h; exact he
  | down =>
    simp only [Editor.step] at h
    split at h
    · split at h
      · cases h; exact he
      · cases hi : e.history.index (e.cursor + 1) with
        | ok s => rw [hi] at h; simp at h; subst h; exact he
        | err k => rw [hi] at h; simp at h
        | panic => rw [hi] at h; simp at h
    · cases h; exact he
  | enter =>
    simp only [Editor.step, Editor.enter, recorded] at h
    cases hf : f e.state.2 e.buf with
    | err k => rw [hf] at h; simp at h
    | panic => rw [hf] at h; simp at h
    | ok p =>
      obtain ⟨fl, s⟩ := p
      rw [hf] at h
      simp only [Res.bind_ok] at h
      cases fl with
      | break_ => simp at h; subst h; simpa [historyLines, List.filter_append] using he
      | continue_ => simp at h; subst h; simpa [historyLines, List.filter_append] using he
      | none =>
        simp only at h
        split at h
        · rename_i hb
          rw [trim_nil_iff] at hb
          have hl : historyLines (e.state.1 ++ [(e.buf, Flow.none)]) = historyLines e.state.1 ++ [e.buf] := by
            simp [historyLines, List.filter_append, hb]
          have hlast : e.history.last = (historyLines e.state.1).getLast? := by
            rw [he]; simp only [CircularArray.last]; rw [lastN_last size hc, squeeze_last]
          by_cases hq : e.history.last = some e.buf
          · rw [if_neg (by simp [hq])] at h
            simp at h; subst h
            simp only [hl, squeeze_append]
            rw [if_pos (by rw [← hlast, hq])]
            exact he
          · rw [if_pos hq, he, push_lastN size hc] at h
            simp at h; subst h
            simp only [hl, squeeze_append]
            rw [if_neg (by rw [← hlast]; exact hq)]
        · rename_i hb
          rw [trim_nil_iff] at hb
          simp at h; subst h
          have : historyLines (e.state.1 ++ [(e.buf, Flow.none)]) = historyLines e.state.1 := by
            have hb : Blank e.buf := Classical.byContradiction hb
            simp [historyLines, List.filter_append, hb]
          simp only [this]; exact he

theorem history_run {size : Nat} (hc : 0 < size) (f : S → Str → Res (Flow × S)) (ks : List Key) (e : Editor (List (Str × Flow) × S))
    (he : e.history = ⟨lastN size (squeeze (historyLines e.state.1)), size⟩) (r : Bool × Editor (List (Str × Flow) × S))
    (h : e.run (recorded f) ks = .ok r) : r.2.history = ⟨lastN size (squeeze (historyLines r.2.state.1)), size⟩ := by
  induction ks generalizing e with
  | nil => cases h; exact he
  | cons k ks ih =>
    simp only [Editor.run] at h
    cases hs : e.step (recorded f) k with
    | ok p =>
      rw [hs] at h
      simp only [Res.bind_ok] at h
      have := history_step hc f e k he p hs
      split at h
      · exact ih _ this h
      · cases h; exact this
    | err k => rw [hs] at h; simp at h
    | panic => rw [hs] at h; simp at h

/-- C41 for the prompt: after any keys the history holds the last `size` lines that were entered, in order, without blank lines and
without repetitions of the line before. -/
theorem C41_prompt_history_partial (size : Nat) (hc : 0 < size) (f : S → Str → Res (Flow × S)) (s : S) (ks : List Key) (running : Bool)
    (e : Editor (List (Str × Flow) × S)) (h : Editor.run (recorded f) (Editor.init size ([], s)) ks = .ok (running, e)) :
    e.history.data = lastN size (squeeze (historyLines e.state.1)) := by
  have := history_run hc f ks (Editor.init size ([], s)) (by simp [Editor.init, CircularArray.new, historyLines, squeeze, lastN]) _ h
  rw [this]

example : (Editor.run (recorded idle) (Editor.init 2 ([], ()))
    [.char '1', .enter, .char '2', .enter, .char '2', .enter, .enter, .up, .up, .backspace, .char '3', .enter]).map (fun r => r.2.history.data)
    = .ok [['2'], ['3']] := by decide

end Prexel
