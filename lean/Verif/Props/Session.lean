import Verif.Props.Repl
import Verif.Examples.Numbers
import Verif.Model.Binary
/-!
# Properties C43, C44, C63: variables and expressions at the prompt
-/

set_option linter.unusedVariables false
set_option linter.unusedSimpArgs false

namespace Prexel
variable {N S : Type}

/-! ## Lines -/

theorem splitChar_ne_nil (sep : Char) (s : Str) : splitChar sep s ≠ [] := by
  cases s with
  | nil => simp [splitChar]
  | cons c s =>
    simp only [splitChar]
    split
    · simp
    · split <;> simp

theorem splitChar_one (sep : Char) (s p : Str) (h : splitChar sep s = [p]) : s = p ∧ sep ∉ p := by
  induction s generalizing p with
  | nil => simp [splitChar] at h; subst h; simp
  | cons c s ih =>
    simp only [splitChar] at h
    split at h
    · simp [splitChar_ne_nil] at h
    · rename_i hc
      split at h
      · rename_i h'; exact absurd h' (splitChar_ne_nil _ _)
      · rename_i w ws h'
        simp at h
        obtain ⟨rfl, rfl⟩ := h
        obtain ⟨h1, h2⟩ := ih w h'
        exact ⟨by rw [h1], by simp [h2, Ne.symm hc]⟩

theorem splitChar_cons (sep : Char) (s p : Str) (q : Str) (ws : List Str) (h : splitChar sep s = p :: q :: ws) :
    ∃ r, s = p ++ sep :: r ∧ sep ∉ p ∧ splitChar sep r = q :: ws := by
  induction s generalizing p with
  | nil => simp [splitChar] at h
  | cons c s ih =>
    simp only [splitChar] at h
    split at h
    · rename_i hc
      simp at h
      obtain ⟨rfl, h⟩ := h
      exact ⟨s, by simp [hc], by simp, h⟩
    · rename_i hc
      split at h
      · simp at h
      · rename_i w ws' h'
        simp at h
        obtain ⟨rfl, rfl⟩ := h
        obtain ⟨r, h1, h2, h3⟩ := ih w h'
        exact ⟨r, by rw [h1]; rfl, by simp [h2, Ne.symm hc], h3⟩

theorem splitChar_of_not_mem (sep : Char) (p : Str) (hp : sep ∉ p) : splitChar sep p = [p] := by
  induction p with
  | nil => rfl
  | cons c p ih =>
    simp only [List.mem_cons, not_or] at hp
    simp [splitChar, Ne.symm hp.1, ih hp.2]

theorem splitChar_append (sep : Char) (p r : Str) (hp : sep ∉ p) : splitChar sep (p ++ sep :: r) = p :: splitChar sep r := by
  induction p with
  | nil => simp [splitChar]
  | cons c p ih =>
    simp only [List.mem_cons, not_or] at hp
    simp [splitChar, Ne.symm hp.1, ih hp.2]

/-! ## `set_variable` as the prompt uses it -/

/-- No constant of that name, ignoring case. -/
def NoConstant (K : Keys) (c : Context N) (name : Str) : Prop := (Map.keys c.constants).any (fun k => eqIgnoreCase K.L k name) = false

/-- Two contexts that agree on everything except perhaps variables. -/
structure SameTables (c c' : Context N) : Prop where
  config : c'.config = c.config
  constants : c'.constants = c.constants
  functions : c'.functions = c.functions
  unary : c'.unary = c.unary
  binary : c'.binary = c.binary

theorem SameTables.rfl' (c : Context N) : SameTables c c := ⟨rfl, rfl, rfl, rfl, rfl⟩
theorem SameTables.trans' {a b c : Context N} (h : SameTables a b) (h' : SameTables b c) : SameTables a c :=
  ⟨h'.1.trans h.1, h'.2.trans h.2, h'.3.trans h.3, h'.4.trans h.4, h'.5.trans h.5⟩

theorem setVariable_cases (K : Keys) (debug : Bool) (c : Context N) (name : Str) (v : N) :
    (∃ k, c.run K debug (.setVariable name v) = (.err k, c)) ∨
    (∃ old, c.run K debug (.setVariable name v) = (.ok old, { c with variables := Map.insert sameString c.variables name v })) := by
  simp only [Context.run]
  cases hd : debugCheck debug name with
  | panic => exact absurd hd (debugCheck_ne_panic debug name)
  | err k => exact .inl ⟨k, rfl⟩
  | ok u =>
    simp only
    split
    · exact .inl ⟨_, rfl⟩
    · exact .inr ⟨_, rfl⟩

theorem get_after_set (K : Keys) (c : Context N) (name x : Str) (v : N) :
    ((Context.view K { c with variables := Map.insert sameString c.variables name v }).getVariable x) =
      if name = x then some v else (c.view K).getVariable x := by
  simp only [Context.view, Map.get_insert sameString_equiv, sameString]
  by_cases h : name = x <;> simp [h]

theorem assign_cases (S : Session N) (c : Context N) (name : Str) (v : N) :
    S.assign c name v = .ok ([.error], c) ∨
    S.assign c name v = .ok ([], { c with variables := Map.insert sameString c.variables name v }) := by
  unfold Session.assign
  rcases setVariable_cases S.K S.debug c name v with ⟨k, h⟩ | ⟨old, h⟩ <;> rw [h] <;> simp

theorem assign_ok (S : Session N) (c : Context N) (name : Str) (v : N) (hn : ValidName name) (hc : NoConstant S.K c name) :
    S.assign c name v = .ok ([], { c with variables := Map.insert sameString c.variables name v }) := by
  have hd : debugCheck S.debug name = .ok () := by
    unfold debugCheck
    split
    · unfold checkTokenName
      obtain ⟨h1, h2⟩ := hn
      have ha : name.all isWhitespace = false := by
        cases name with
        | nil => exact absurd rfl h1
        | cons a t => simp [(h2 a (by simp)).1]
      have hb : name.any isWhitespace = false := by
        rw [List.any_eq_false]; intro x hx; simp [(h2 x hx).1]
      have hd : name.any isControl = false := by
        rw [List.any_eq_false]; intro x hx; simp [(h2 x hx).2]
      simp [ha, hb, hd]
    · rfl
  simp only [Session.assign, Context.run, hd]
  rw [if_neg (by unfold NoConstant at hc; simp [hc])]

theorem resultName_valid : ValidName resultName := ⟨by decide, by unfold resultName str; decide⟩

theorem start_ok (S : Session N) (c0 c : Context N) (zero : N) (h : S.start c0 zero = .ok c) :
    NoConstant S.K c0 resultName ∧ c = { c0 with variables := Map.insert sameString c0.variables resultName zero } := by
  have hd : debugCheck S.debug resultName = .ok () := by cases S.debug <;> decide
  simp only [Session.start, Context.run, hd] at h
  unfold NoConstant
  split at h
  · rename_i heq
    split at heq
    · cases heq
    · rename_i hn
      cases heq; cases h
      exact ⟨by simpa using hn, rfl⟩
  · cases h

/-- Everything an entered line can do to the context. -/
theorem line_cases (S : Session N) (c : Context N) (l : Str) (fl : Flow) (out : List (Printed N)) (c' : Context N)
    (h : S.line c l = .ok (fl, out, c')) :
    (c' = c ∧ lastValue out = none) ∨
    (∃ name v, AssignsTo name l ∧ out = [] ∧ c' = { c with variables := Map.insert sameString c.variables name v }) ∨
    (∃ n, lastValue out = some n ∧ S.assign c resultName n = .ok (out.tail, c') ∧ out.head? = some (.value n)) := by
  unfold Session.line at h
  simp only at h
  split at h
  · cases h; exact .inl ⟨rfl, rfl⟩
  split at h
  · split at h
    · rename_i name value hsplit
      split at h
      · rename_i v hv
        rcases assign_cases S c name v with ha | ha <;> rw [ha] at h <;> simp at h <;> obtain ⟨rfl, rfl, rfl⟩ := h
        · exact .inl ⟨rfl, rfl⟩
        · refine .inr (.inl ⟨name, v, ?_, rfl, rfl⟩)
          cases hs : splitChar '=' (trim l) with
          | nil => exact absurd hs (splitChar_ne_nil _ _)
          | cons p t =>
            cases t with
            | nil => rw [hs] at hsplit; simp at hsplit
            | cons q ws =>
              rw [hs] at hsplit
              simp at hsplit
              obtain ⟨hname, -, -⟩ := hsplit
              obtain ⟨r, h1, h2, h3⟩ := splitChar_cons _ _ _ _ _ hs
              obtain ⟨w, w', h4, h5, h6⟩ := trim_split l
              obtain ⟨u, u', h7, h8, h9⟩ := trim_split p
              refine ⟨w ++ u, name, u', r ++ w', ?_, ?_, h9, rfl, ?_⟩
              · rw [h4, h1]
                conv => lhs; rw [h7, hname]
                simp
              · intro x hx
                simp only [List.mem_append] at hx
                exact hx.elim (h5 x) (h8 x)
              · have h10 : '=' ∉ w := fun hx => by have := h5 _ hx; revert this; decide
                rw [List.append_assoc, List.append_assoc, ← hname]
                rw [h7] at h2
                simp at h2 ⊢
                exact ⟨h10, h2⟩
      · cases h; exact .inl ⟨rfl, rfl⟩
    · cases h; exact .inl ⟨rfl, rfl⟩
  · split at h
    · rename_i n hev
      rcases assign_cases S c resultName n with ha | ha <;> rw [ha] at h <;> simp at h <;> obtain ⟨rfl, rfl, rfl⟩ := h
      · exact .inr (.inr ⟨n, rfl, ha, rfl⟩)
      · exact .inr (.inr ⟨n, rfl, ha, rfl⟩)
    · cases h; exact .inl ⟨rfl, rfl⟩
    · cases h

theorem line_tables (S : Session N) (c : Context N) (l : Str) (fl : Flow) (out : List (Printed N)) (c' : Context N)
    (h : S.line c l = .ok (fl, out, c')) : SameTables c c' := by
  rcases line_cases S c l fl out c' h with ⟨rfl, -⟩ | ⟨_, _, -, -, rfl⟩ | ⟨n, -, ha, -⟩
  · exact .rfl' _
  · exact ⟨rfl, rfl, rfl, rfl, rfl⟩
  · rcases assign_cases S c resultName n with h' | h' <;> rw [ha] at h' <;> simp only [Res.ok.injEq, Prod.mk.injEq] at h' <;>
      obtain ⟨-, rfl⟩ := h'
    · exact .rfl' _
    · exact ⟨rfl, rfl, rfl, rfl, rfl⟩

/-! ## C43: `$result` -/

theorem lastValue_append (a b : List (Printed N)) : lastValue (a ++ b) = (lastValue b).or (lastValue a) := by
  induction a with
  | nil => cases h : lastValue b <;> simp [lastValue, h]
  | cons x a ih =>
    cases x with
    | value n => simp only [List.cons_append, lastValue, ih]; cases lastValue b <;> simp
    | error => simp [lastValue, ih]

theorem line_result (S : Session N) (c : Context N) (hc : NoConstant S.K c resultName) (l : Str) (hl : ¬ AssignsTo resultName l)
    (fl : Flow) (out : List (Printed N)) (c' : Context N) (h : S.line c l = .ok (fl, out, c')) :
    (c'.view S.K).getVariable resultName = (lastValue out).or ((c.view S.K).getVariable resultName) := by
  rcases line_cases S c l fl out c' h with ⟨rfl, h2⟩ | ⟨name, v, ha, rfl, rfl⟩ | ⟨n, h2, ha, -⟩
  · simp [h2]
  · have : name ≠ resultName := by rintro rfl; exact hl ha
    rw [get_after_set, if_neg this]
    simp [lastValue]
  · rw [assign_ok S c resultName n resultName_valid hc] at ha
    simp at ha
    rw [← ha.2, get_after_set, if_pos rfl, h2]
    simp

theorem enterAll_result (S : Session N) (ls : List Str) (s s' : List (Printed N) × Context N) (hc : NoConstant S.K s.2 resultName)
    (hl : ∀ l ∈ ls, ¬ AssignsTo resultName l) (h : S.enterAll s ls = .ok s') (z : N)
    (hz : (s.2.view S.K).getVariable resultName = some ((lastValue s.1).getD z)) :
    (s'.2.view S.K).getVariable resultName = some ((lastValue s'.1).getD z) := by
  induction ls generalizing s with
  | nil => simp [Session.enterAll] at h; subst h; exact hz
  | cons l ls ih =>
    simp only [Session.enterAll] at h
    cases hr : S.line s.2 l with
    | err k => rw [hr] at h; simp at h
    | panic => rw [hr] at h; simp at h
    | ok r =>
      obtain ⟨fl, out, c'⟩ := r
      rw [hr] at h
      have h1 := line_result S s.2 hc l (hl l (by simp)) fl out c' hr
      have h2 : NoConstant S.K c' resultName := by
        unfold NoConstant; rw [(line_tables S s.2 l fl out c' hr).constants]; exact hc
      have h3 : (c'.view S.K).getVariable resultName = some ((lastValue (s.1 ++ out)).getD z) := by
        rw [h1, lastValue_append, hz]
        cases lastValue out <;> simp
      simp only [Res.bind_ok] at h
      cases fl with
      | break_ => simp at h; subst h; exact h3
      | none => exact ih (s.1 ++ out, c') h2 (fun l hl' => hl l (by simp [hl'])) h h3
      | continue_ => exact ih (s.1 ++ out, c') h2 (fun l hl' => hl l (by simp [hl'])) h h3

theorem split_result (b : Bool) : split (replRules b) resultName = [resultName] := by cases b <;> decide

theorem eval_variable (parse : Str → Option N) (c : Ctx N) (b : Bool) (hp : parse resultName = none) (v : N)
    (hv : c.getVariable resultName = some v) : eval parse (split (replRules b)) c resultName = .ok v := by
  have h1 : tokenize parse (split (replRules b)) c resultName = .ok [.variable_ resultName] := by
    unfold tokenize
    rw [if_neg (by decide), split_result]
    simp [tokenizeLoop, hp, Ctx.isVariable, hv]
  unfold eval
  rw [h1]
  simp [evalTokens, infixToRpn, syLoop, syStep, dispatch, SY.init, flush, implicitMulBlock, implicitMulHere, rpnLoop, rpnStep, rpnResult,
    Res.ofOption, hv, pushNumber]

/-- C43, for lines that do not assign to `$result` by hand: at any point of a session `$result` has the value printed last, or zero
before any was printed, whatever assignments to other variables, errors and blank lines came in between; and entering `$result` prints it. -/
theorem C43_result_partial (S : Session N) (hp : S.parse resultName = none) (c0 c : Context N) (zero : N) (hs : S.start c0 zero = .ok c)
    (ls : List Str) (hl : ∀ l ∈ ls, ¬ AssignsTo resultName l) (printed : List (Printed N)) (c' : Context N)
    (h : S.enterAll ([], c) ls = .ok (printed, c')) :
    (c'.view S.K).getVariable resultName = some ((lastValue printed).getD zero) ∧
    ∀ l, trim l = resultName → ∃ c'', S.line c' l = .ok (.none, [.value ((lastValue printed).getD zero)], c'') := by
  obtain ⟨h1, h2⟩ := start_ok S c0 c zero hs
  have hc : NoConstant S.K c resultName := by rw [h2]; exact h1
  have hr := enterAll_result S ls ([], c) (printed, c') hc hl h zero (by rw [h2, get_after_set]; simp [lastValue])
  refine ⟨hr, ?_⟩
  have ht : ∀ (ls : List Str) (s s' : List (Printed N) × Context N), S.enterAll s ls = .ok s' → SameTables s.2 s'.2 := by
    intro ls
    induction ls with
    | nil => intro s s' h; simp [Session.enterAll] at h; subst h; exact .rfl' _
    | cons l ls ih =>
      intro s s' h
      simp only [Session.enterAll] at h
      cases hr : S.line s.2 l with
      | err k => rw [hr] at h; simp at h
      | panic => rw [hr] at h; simp at h
      | ok r =>
        obtain ⟨fl, out, c'⟩ := r
        have h1 := line_tables S s.2 l fl out c' hr
        rw [hr] at h
        simp only [Res.bind_ok] at h
        cases fl with
        | break_ => simp at h; subst h; exact h1
        | none => exact h1.trans' (ih _ _ h)
        | continue_ => exact h1.trans' (ih _ _ h)
  have hc' : NoConstant S.K c' resultName := by
    unfold NoConstant; rw [(ht ls _ _ h).constants]; exact hc
  intro l hl
  simp only [Session.line, hl]
  rw [if_neg (by decide), if_neg (by decide), eval_variable S.parse _ S.isBinary hp _ hr]
  simp only
  rw [assign_ok S c' resultName _ resultName_valid hc']
  exact ⟨_, rfl⟩

/-! ## From keys to lines -/

/-- Forgets the record. -/
def Editor.forget (e : Editor (List (Str × Flow) × S)) : Editor S := ⟨e.buf, e.history, e.cursor, e.state.2⟩

theorem forget_step (f : S → Str → Res (Flow × S)) (e : Editor (List (Str × Flow) × S)) (k : Key) :
    e.forget.step f k = (e.step (recorded f) k).map fun r => (r.1, r.2.forget) := by
  cases k with
  | backspace => by_cases h : e.buf = [] <;> simp [Editor.step, Editor.forget, Res.map, List.length_pos_iff, h]
  | char c => rfl
  | esc => rfl
  | interrupt => rfl
  | other => rfl
  | up =>
    by_cases h : 0 < e.cursor
    · cases hi : e.history.index (e.cursor - 1) <;> simp [Editor.step, Editor.forget, Res.map, h, hi]
    · simp [Editor.step, Editor.forget, Res.map, h]
  | down =>
    by_cases h : e.cursor < e.history.len
    · by_cases h' : e.cursor + 1 = e.history.len
      · simp [Editor.step, Editor.forget, Res.map, h, h']
      · cases hi : e.history.index (e.cursor + 1) <;> simp [Editor.step, Editor.forget, Res.map, h, h', hi]
    · simp [Editor.step, Editor.forget, Res.map, h]
  | enter =>
    cases hf : f e.state.2 e.buf with
    | err k => simp [Editor.step, Editor.enter, Editor.forget, Res.map, recorded, hf]
    | panic => simp [Editor.step, Editor.enter, Editor.forget, Res.map, recorded, hf]
    | ok r =>
      obtain ⟨fl, s⟩ := r
      cases fl with
      | break_ => simp [Editor.step, Editor.enter, Editor.forget, Res.map, recorded, hf]
      | continue_ => simp [Editor.step, Editor.enter, Editor.forget, Res.map, recorded, hf]
      | none =>
        by_cases h : 0 < (trim e.buf).length
        · simp only [Editor.step, Editor.enter, Editor.forget, Res.map, recorded, hf, Res.bind_ok, gt_iff_lt, h, if_true]
          by_cases hh : e.history.last = some e.buf
          · simp [hh]
          · cases hp : e.history.push e.buf <;> simp [hh, hp]
        · simp [Editor.step, Editor.enter, Editor.forget, Res.map, recorded, hf, h]

/-- Keeping a record of the lines does not change what the prompt does. -/
theorem recorded_run (f : S → Str → Res (Flow × S)) (e : Editor (List (Str × Flow) × S)) (ks : List Key) :
    e.forget.run f ks = (e.run (recorded f) ks).map fun r => (r.1, r.2.forget) := by
  induction ks generalizing e with
  | nil => rfl
  | cons k ks ih =>
    simp only [Editor.run, forget_step]
    cases e.step (recorded f) k with
    | err k => rfl
    | panic => rfl
    | ok r =>
      simp only [Res.map, Res.bind_ok]
      split
      · exact ih _
      · rfl

/-- What the record of a running or ended session says about the state. -/
def RecordOK (S : Session N) (s0 : List (Printed N) × Context N) (running : Bool) (e : Editor (List (Str × Flow) × (List (Printed N) × Context N))) : Prop :=
  ∀ ls, (running = false → ls = []) → S.enterAll s0 (e.state.1.map (·.1) ++ ls) = S.enterAll e.state.2 ls

theorem record_step (S : Session N) (s0 : List (Printed N) × Context N) (e : Editor (List (Str × Flow) × (List (Printed N) × Context N))) (k : Key)
    (he : RecordOK S s0 true e) (r : Bool × Editor (List (Str × Flow) × (List (Printed N) × Context N)))
    (h : e.step (recorded S.callback) k = .ok r) : RecordOK S s0 r.1 r.2 := by
  have hsame : ∀ b, (r.1 = b ∧ r.2.state = e.state) → RecordOK S s0 r.1 r.2 := by
    intro b hb ls hls
    rw [hb.2]; exact he ls (by simp)
  cases k with
  | backspace =>
    simp only [Editor.step] at h; cases h
    refine hsame true ⟨rfl, ?_⟩
    simp only; split <;> rfl
  | char c => simp only [Editor.step] at h; cases h; exact hsame true ⟨rfl, rfl⟩
  | esc => simp only [Editor.step] at h; cases h; exact hsame false ⟨rfl, rfl⟩
  | interrupt => simp only [Editor.step] at h; cases h; exact hsame false ⟨rfl, rfl⟩
  | other => simp only [Editor.step] at h; cases h; exact hsame true ⟨rfl, rfl⟩
  | up =>
    simp only [Editor.step] at h
    split at h
    · cases hi : e.history.index (e.cursor - 1) with
      | ok s => rw [hi] at h; simp at h; subst h; exact hsame true ⟨rfl, rfl⟩
      | err k => rw [hi] at h; simp at h
      | panic => rw [hi] at h; simp at h
    · cases h; exact hsame true ⟨rfl, rfl⟩
  | down =>
    simp only [Editor.step] at h
    split at h
    · split at h
      · cases h; exact hsame true ⟨rfl, rfl⟩
      · cases hi : e.history.index (e.cursor + 1) with
        | ok s => rw [hi] at h; simp at h; subst h; exact hsame true ⟨rfl, rfl⟩
        | err k => rw [hi] at h; simp at h
        | panic => rw [hi] at h; simp at h
    · cases h; exact hsame true ⟨rfl, rfl⟩
  | enter =>
    obtain ⟨fl, h1, h2, -⟩ := C61_enter (recorded S.callback) e r h
    simp only [recorded, Session.callback] at h1
    cases hl : S.line e.state.2.2 e.buf with
    | err k => rw [hl] at h1; simp at h1
    | panic => rw [hl] at h1; simp at h1
    | ok p =>
      rw [hl] at h1
      simp only [Res.bind_ok, Res.ok.injEq, Prod.mk.injEq] at h1
      obtain ⟨rfl, h3⟩ := h1
      intro ls hls
      rw [← h3]
      simp only [List.map_append, List.map_cons, List.map_nil, List.append_assoc]
      rw [he _ (by simp)]
      simp only [List.cons_append, List.nil_append, Session.enterAll, hl, Res.bind_ok]
      cases hf : p.1 with
      | break_ =>
        have : ls = [] := hls (h2.mpr hf)
        subst this; rfl
      | none => rfl
      | continue_ => rfl

/-- C43, C63 at the keyboard. Whatever keys are pressed, what was printed and the context are those of entering the recorded lines one
after the other. -/
theorem C61_keys_are_lines (S : Session N) (size : Nat) (c : Context N) (ks : List Key) (running : Bool)
    (e : Editor (List (Str × Flow) × (List (Printed N) × Context N)))
    (h : Editor.run (recorded S.callback) (Editor.init size ([], ([], c))) ks = .ok (running, e)) :
    Editor.run S.callback (Editor.init size ([], c)) ks = .ok (running, e.forget) ∧
    S.enterAll ([], c) (e.state.1.map (·.1)) = .ok e.state.2 := by
  refine ⟨?_, ?_⟩
  · have := recorded_run S.callback (Editor.init size ([], ([], c))) ks
    rw [h] at this
    exact this
  · have key : ∀ (ks : List Key) (e0 : Editor (List (Str × Flow) × (List (Printed N) × Context N))), RecordOK S ([], c) true e0 →
        ∀ r, e0.run (recorded S.callback) ks = .ok r → RecordOK S ([], c) r.1 r.2 := by
      intro ks
      induction ks with
      | nil => intro e0 h0 r h; cases h; exact h0
      | cons k ks ih =>
        intro e0 h0 r h
        simp only [Editor.run] at h
        cases hs : e0.step (recorded S.callback) k with
        | err k => rw [hs] at h; simp at h
        | panic => rw [hs] at h; simp at h
        | ok p =>
          have hp := record_step S _ e0 k h0 p hs
          rw [hs] at h
          simp only [Res.bind_ok] at h
          split at h
          · rename_i hb; rw [hb] at hp; exact ih _ hp r h
          · rename_i hb
            cases h
            have : p.1 = false := by simpa using hb
            rw [this] at hp; exact hp
    have := key ks _ (fun ls _ => by simp [Editor.init]) _ h [] (by simp)
    simpa [Session.enterAll] using this

/-! ## A small session -/

/-- A context over `Int` with `+`, `==` and the constant `PI`. -/
def Demo.prompt : Context Int where
  variables := []
  constants := [(str "PI", 3)]
  functions := [(str "sum", Demo.sum)]
  unary := [(str "-", Demo.neg)]
  binary := [(str "+", Demo.add), (str "==", ⟨0, .left, fun x y => .ok (if x = y then 1 else 0)⟩)]
  config := Config.new.withImplicitMul true

/-- A session over that context, in a debug build. -/
def Demo.session : Session Int := ⟨Demo.parse, Demo.keys, true, false⟩

/-- The hypotheses of C43 hold, and a session with results, an assignment, an error and a blank line in between. -/
example : ∃ c c', Demo.session.start Demo.prompt 0 = .ok c ∧ Demo.session.parse resultName = none ∧
    Demo.session.enterAll ([], c) [str " 1+ 2", str "x = 40", str "y", str "", str "x+$result ", str "PI = 4"] =
      .ok ([.value 3, .error, .error, .value 43, .error], c') ∧ (c'.view Demo.keys).getVariable resultName = some 43 :=
  ⟨_, _, rfl, by decide, rfl, by decide⟩

/-- C43, counterexample to the full claim: assigning to `$result` by hand changes it. -/
theorem C43_assigned_counterexample : ∃ c c', Demo.session.start Demo.prompt 0 = .ok c ∧
    Demo.session.enterAll ([], c) [str "1 + 2", str "$result = 5", str "$result"] = .ok ([.value 3, .value 5], c') :=
  ⟨_, _, rfl, rfl⟩

/-- The same by pressing keys, the expression typed with a correction and recalled with Up. -/
example : (Demo.session.run Demo.prompt 0 none ([.char '1', .char '+', .char '3', .backspace, .char '2', .enter, .up, .enter] ++
    (str "$result").map .char ++ [.enter, .esc, .char '1', .enter])).map (fun r => (r.1, r.2.state.1, r.2.history.data)) =
    .ok (false, [.value 3, .value 3, .value 3], [str "1+2", str "$result"]) := by decide

/-! ## C63: variables at the prompt -/

/-- The text `text` ends up as the second part of an assignment: it contains no `=`. -/
def assignment (w name w' text : Str) : Str := w ++ name ++ w' ++ '=' :: text

theorem trim_of_split {w s w' : Str} (hw : Blank w) (hw' : Blank w') (hs : s = [] → w ++ w' = [])
    (h1 : ∀ c t, s = c :: t → isWhitespace c = false) (h2 : ∀ c t, s = t ++ [c] → isWhitespace c = false) : trim (w ++ s ++ w') = s := by
  have hdrop : ∀ (w x : Str), Blank w → (w ++ x).dropWhile isWhitespace = x.dropWhile isWhitespace := by
    intro w x hw
    induction w with
    | nil => rfl
    | cons c w ih =>
      simp only [List.cons_append, List.dropWhile_cons, hw c (by simp), if_true]
      exact ih fun c hc => hw c (by simp [hc])
  unfold trim
  rw [List.append_assoc, hdrop _ _ hw]
  cases s with
  | nil =>
    have := hs rfl
    simp at this
    simp [this]
  | cons c t =>
    have hc := h1 c t rfl
    simp only [List.cons_append, List.dropWhile_cons, hc, Bool.false_eq_true, if_false]
    rw [← List.cons_append, List.reverse_append, hdrop _ _ (fun x hx => hw' x (by simpa using hx))]
    have : (c :: t).reverse.dropWhile isWhitespace = (c :: t).reverse := by
      cases hr : (c :: t).reverse with
      | nil => rfl
      | cons d u =>
        have : c :: t = u.reverse ++ [d] := by
          have := congrArg List.reverse hr; simpa using this
        simp [List.dropWhile_cons, h2 d u.reverse this]
    rw [this, List.reverse_reverse]

theorem validName_ends {name : Str} (hn : ValidName name) : (∀ c t, name = c :: t → isWhitespace c = false) ∧
    (∀ c t, name = t ++ [c] → isWhitespace c = false) :=
  ⟨fun c t h => (hn.2 c (by simp [h])).1, fun c t h => (hn.2 c (by simp [h])).1⟩

/-- C63. Entering `name = text`, with white space anywhere around the two parts, where the text is a number `v` and no constant has that
name, prints nothing and gives the variable the value `v`; everything else keeps its meaning. -/
theorem C63_assign (S : Session N) (c : Context N) (name text w w' u u' : Str) (v : N) (hn : ValidName name) (hne : '=' ∉ name)
    (hw : Blank w) (hw' : Blank w') (hu : Blank u) (hu' : Blank u') (ht : ValidName text) (hte : '=' ∉ text)
    (hv : S.parse text = some v) (hc : NoConstant S.K c name) :
    ∃ c', S.line c (w ++ name ++ w' ++ '=' :: (u ++ text ++ u')) = .ok (.none, [], c') ∧
      (c'.view S.K).getVariable name = some v ∧ (∀ y, y ≠ name → (c'.view S.K).getVariable y = (c.view S.K).getVariable y) ∧
      SameTables c c' := by
  have heq : ∀ {w : Str}, Blank w → '=' ∉ w := fun hw h => by have := hw _ h; revert this; decide
  have hline : trim (w ++ name ++ w' ++ '=' :: (u ++ text ++ u')) = name ++ (w' ++ '=' :: (u ++ text)) := by
    have : w ++ name ++ w' ++ '=' :: (u ++ text ++ u') = w ++ (name ++ (w' ++ '=' :: (u ++ text))) ++ u' := by simp
    rw [this]
    refine trim_of_split hw hu' (by simp [hn.1]) ?_ ?_
    · intro c t h
      cases hname : name with
      | nil => exact absurd hname hn.1
      | cons a b => rw [hname] at h; simp at h; exact h.1 ▸ (validName_ends hn).1 a b hname
    · intro c t h
      rcases List.eq_nil_or_concat text with h0 | ⟨t', a, h0⟩
      · exact absurd h0 ht.1
      · rw [List.concat_eq_append] at h0
        rw [h0] at h
        have h' : (name ++ (w' ++ '=' :: (u ++ t'))) ++ [a] = t ++ [c] := by rw [← h]; simp
        have := (List.append_inj' h' rfl).2
        simp at this
        exact this ▸ (validName_ends ht).2 a t' h0
  have hsplit : (splitChar '=' (name ++ (w' ++ '=' :: (u ++ text)))).map trim = [name, text] := by
    have h1 : name ++ (w' ++ '=' :: (u ++ text)) = (name ++ w') ++ '=' :: (u ++ text) := by simp
    rw [h1, splitChar_append _ _ _ (by simp [hne, heq hw']), splitChar_of_not_mem _ _ (by simp [heq hu, hte])]
    have h2 := trim_of_split (w := []) (s := name) (w' := w') (by simp [Blank]) hw' (by simp [hn.1]) (validName_ends hn).1 (validName_ends hn).2
    have h3 := trim_of_split (w := u) (s := text) (w' := []) hu (by simp [Blank]) (by simp [ht.1]) (validName_ends ht).1 (validName_ends ht).2
    simp at h2 h3
    simp [h2, h3]
  have hexit : name ++ (w' ++ '=' :: (u ++ text)) ≠ str "exit" := by
    intro h
    have : '=' ∈ str "exit" := by rw [← h]; simp
    revert this; decide
  refine ⟨{ c with variables := Map.insert sameString c.variables name v }, ?_, ?_, ?_, ⟨rfl, rfl, rfl, rfl, rfl⟩⟩
  · unfold Session.line
    simp only [hline]
    rw [if_neg hexit, if_pos (by simp), hsplit]
    simp only [hv]
    rw [assign_ok S c name v hn hc]
    rfl
  · rw [get_after_set, if_pos rfl]
  · intro y hy
    rw [get_after_set, if_neg (Ne.symm hy)]

/-- C63. A variable other than `$result` keeps its value until a line assigns to it, whatever is entered. -/
theorem C63_kept (S : Session N) (x : Str) (hx : x ≠ resultName) (ls : List Str) (hl : ∀ l ∈ ls, ¬ AssignsTo x l)
    (s s' : List (Printed N) × Context N) (h : S.enterAll s ls = .ok s') :
    (s'.2.view S.K).getVariable x = (s.2.view S.K).getVariable x := by
  induction ls generalizing s with
  | nil => simp [Session.enterAll] at h; subst h; rfl
  | cons l ls ih =>
    simp only [Session.enterAll] at h
    cases hr : S.line s.2 l with
    | err k => rw [hr] at h; simp at h
    | panic => rw [hr] at h; simp at h
    | ok r =>
      obtain ⟨fl, out, c'⟩ := r
      have h1 : (c'.view S.K).getVariable x = (s.2.view S.K).getVariable x := by
        rcases line_cases S s.2 l fl out c' hr with ⟨rfl, -⟩ | ⟨name, v, ha, -, rfl⟩ | ⟨n, -, ha, -⟩
        · rfl
        · have : name ≠ x := by rintro rfl; exact hl l (by simp) ha
          rw [get_after_set, if_neg this]
        · rcases assign_cases S s.2 resultName n with h' | h' <;> rw [ha] at h' <;> simp only [Res.ok.injEq, Prod.mk.injEq] at h' <;>
            obtain ⟨-, rfl⟩ := h'
          · rfl
          · rw [get_after_set, if_neg (Ne.symm hx)]
      rw [hr] at h
      simp only [Res.bind_ok] at h
      cases fl with
      | break_ => simp at h; subst h; exact h1
      | none => exact (ih (fun l hl' => hl l (by simp [hl'])) _ h).trans h1
      | continue_ => exact (ih (fun l hl' => hl l (by simp [hl'])) _ h).trans h1

/-- C63. Nothing that is entered changes the configuration, the constants, the functions or the operators. -/
theorem C63_only_variables (S : Session N) (ls : List Str) (s s' : List (Printed N) × Context N) (h : S.enterAll s ls = .ok s') :
    SameTables s.2 s'.2 := by
  induction ls generalizing s with
  | nil => simp [Session.enterAll] at h; subst h; exact .rfl' _
  | cons l ls ih =>
    simp only [Session.enterAll] at h
    cases hr : S.line s.2 l with
    | err k => rw [hr] at h; simp at h
    | panic => rw [hr] at h; simp at h
    | ok r =>
      obtain ⟨fl, out, c'⟩ := r
      have h1 := line_tables S s.2 l fl out c' hr
      rw [hr] at h
      simp only [Res.bind_ok] at h
      cases fl with
      | break_ => simp at h; subst h; exact h1
      | none => exact h1.trans' (ih _ h)
      | continue_ => exact h1.trans' (ih _ h)

/-- The hypotheses of C63 hold for `x = 40`. -/
example : ValidName (str "x") ∧ ValidName (str "40") ∧ Demo.session.parse (str "40") = some 40 ∧ NoConstant Demo.keys Demo.prompt (str "x") :=
  ⟨⟨by decide, by unfold str; decide⟩, ⟨by decide, by unfold str; decide⟩, by decide, by unfold NoConstant; decide⟩

/-! ## C44: expressions at the prompt -/

/-- The splitter of the evaluator for the same numbers: `DefaultSplitter::default()` or `binary_number_splitter()`. -/
def plainRules (isBinary : Bool) : List Rule := if isBinary then binaryRules else defaultRules

theorem takeWhile_congr {p q : Char → Bool} (l : Str) (h : ∀ x ∈ l, p x = q x) : l.takeWhile p = l.takeWhile q := by
  induction l with
  | nil => rfl
  | cons c l ih => simp only [List.takeWhile_cons, h c (by simp), ih fun x hx => h x (by simp [hx])]

theorem runRules_suffix (rules : List Rule) (c : Char) (rest : Str) : (runRules rules c rest).2 <:+ rest := by
  induction rules generalizing rest with
  | nil => simp [runRules]
  | cons r rules ih =>
    simp only [runRules]
    split
    · exact List.drop_suffix _ _
    · exact List.drop_suffix _ _
    · exact (ih _).trans (List.drop_suffix _ _)

theorem runRules_repl (b : Bool) (c : Char) (rest : Str) (hc : c ≠ '$') (hr : '$' ∉ rest) :
    runRules (replRules b) c rest = runRules (plainRules b) c rest := by
  have hcont : ∀ x : Char, x ≠ '$' → (operatorChars.filter (· != '$')).contains x = operatorChars.contains x := by
    intro x hx
    rw [Bool.eq_iff_iff]
    simp [List.contains_iff_mem, hx]
  have h1 : splitRepl c rest = (.cont, 0) := by simp [splitRepl, spanRule, hc]
  have h2 : splitWithOperators (operatorChars.filter (· != '$')) c rest = splitOperator c rest := by
    unfold splitOperator splitWithOperators spanRule
    have hq := takeWhile_congr (p := fun c => (operatorChars.filter (· != '$')).contains c) (q := fun c => operatorChars.contains c) rest
      (fun x hx => hcont x (by rintro rfl; exact hr hx))
    simp only [hcont c hc, hq]
  have h3 : ∀ rules, runRules (splitWithOperators (operatorChars.filter (· != '$')) :: rules) c rest =
      runRules (splitOperator :: rules) c rest := by intro rules; simp only [runRules, h2]
  have hn : ∀ n rules, splitNumeric c rest = (.cont, n) → runRules (splitNumeric :: rules) c rest = runRules rules c rest := by
    intro n rules h
    have := (splitNumeric_good.cont c rest n h).1
    simp [runRules, h, this]
  have hid : ∀ n rules, splitIdentifier c rest = (.cont, n) → runRules (splitIdentifier :: rules) c rest = runRules rules c rest := by
    intro n rules h
    have := (splitIdentifier_good.cont c rest n h).1
    simp [runRules, h, this]
  have h4 : runRules [splitNumeric, splitIdentifier, splitWithOperators (operatorChars.filter (· != '$')), skipWhitespace] c rest =
      runRules [splitNumeric, splitIdentifier, splitOperator, skipWhitespace] c rest := by
    cases h5 : splitNumeric c rest with
    | mk o n =>
      cases o with
      | data s => simp only [runRules, h5]
      | skip => simp only [runRules, h5]
      | cont =>
        rw [hn n _ h5, hn n _ h5]
        cases h6 : splitIdentifier c rest with
        | mk o n =>
          cases o with
          | data s => simp only [runRules, h6]
          | skip => simp only [runRules, h6]
          | cont => rw [hid n _ h6, hid n _ h6, h3]
  have h7 : runRules (splitRepl :: [splitNumeric, splitIdentifier, splitWithOperators (operatorChars.filter (· != '$')), skipWhitespace]) c rest =
      runRules [splitNumeric, splitIdentifier, splitOperator, skipWhitespace] c rest := by
    rw [← h4]
    conv => lhs; unfold runRules
    rw [h1]; rfl
  cases b with
  | false => exact h7
  | true =>
    show runRules (splitBinary :: splitRepl :: _) c rest = runRules (splitBinary :: _) c rest
    cases h8 : splitBinary c rest with
    | mk o n =>
      cases o with
      | data s => simp only [runRules, h8]
      | skip => simp only [runRules, h8]
      | cont =>
        have h9 := (splitBinary_good.cont c rest n h8).1
        subst h9
        have : ∀ rules, runRules (splitBinary :: rules) c rest = runRules rules c rest := by intro rules; simp [runRules, h8]
        rw [this, this]
        exact h7

/-- Texts without `$` have the same words for the prompt and for the evaluator. -/
theorem split_repl (b : Bool) (s : Str) (h : '$' ∉ s) : split (replRules b) s = split (plainRules b) s := by
  generalize hn : s.length = n
  induction n using Nat.strongRecOn generalizing s with
  | ind n ih =>
    cases s with
    | nil => rfl
    | cons c rest =>
      simp only [List.mem_cons, not_or] at h
      rw [split_cons, split_cons, runRules_repl b c rest (Ne.symm h.1) h.2]
      have hl := runRules_length (plainRules b) c rest
      have hsuf := runRules_suffix (plainRules b) c rest
      cases hr : runRules (plainRules b) c rest with
      | mk o r =>
        rw [hr] at hl hsuf
        simp only at hl hsuf
        simp only [List.length_cons] at hn
        have := ih r.length (by omega) r (fun hm => h.2 (hsuf.subset hm)) rfl
        cases o <;> simp [this]

/-- C44, for lines without `=` and `$` other than `exit`: the line is evaluated exactly as the evaluator would evaluate the text in the same
context. It prints the value, or an error if the evaluator reports one, and the session goes on. -/
theorem C44_evaluated_partial (S : Session N) (c : Context N) (hc : NoConstant S.K c resultName) (l : Str) (h1 : '=' ∉ l) (h2 : '$' ∉ l)
    (h3 : trim l ≠ str "exit") :
    (∀ n, eval S.parse (split (plainRules S.isBinary)) (c.view S.K) l = .ok n → ∃ c', S.line c l = .ok (.none, [.value n], c')) ∧
    (∀ k, eval S.parse (split (plainRules S.isBinary)) (c.view S.K) l = .err k → S.line c l = .ok (.none, [.error], c)) := by
  obtain ⟨w, w', h4, h5, h6⟩ := trim_split l
  have hd : '$' ∉ trim l := fun h => h2 (by rw [h4]; simp [h])
  have he : '=' ∉ trim l := fun h => h1 (by rw [h4]; simp [h])
  have hg : AllGood (plainRules S.isBinary) := by unfold plainRules; split; exact binaryRules_good; exact defaultRules_good
  have hw : SkipsWs (plainRules S.isBinary) := by unfold plainRules; split; exact binaryRules_skips; exact defaultRules_skips
  have hev : eval S.parse (split (replRules S.isBinary)) (c.view S.K) (trim l) =
      eval S.parse (split (plainRules S.isBinary)) (c.view S.K) l := by
    conv => rhs; rw [h4]
    rw [((C16_white_space S.parse hg hw (c.view S.K) (trim l) [] h5 h6).1).2]
    unfold eval tokenize
    rw [split_repl _ _ hd]
  have hline : S.line c l = match eval S.parse (split (plainRules S.isBinary)) (c.view S.K) l with
      | .ok n => (S.assign c resultName n).bind fun r => .ok (.none, .value n :: r.1, r.2)
      | .err _ => .ok (.none, [.error], c)
      | .panic => .panic := by
    unfold Session.line
    simp only
    rw [if_neg h3, if_neg (by simpa using he), hev]
    cases eval S.parse (split (plainRules S.isBinary)) (c.view S.K) l <;> rfl
  constructor
  · intro n hn
    rw [hline, hn]
    simp only
    rw [assign_ok S c resultName n resultName_valid hc]
    exact ⟨_, rfl⟩
  · intro k hk
    rw [hline, hk]

/-- The hypotheses of C44 hold for `1 + 2`. -/
example : eval Demo.parse (split (plainRules false)) (Demo.prompt.view Demo.keys) (str " 1 + 2") = .ok 3 ∧
    NoConstant Demo.keys Demo.prompt resultName := ⟨by decide, by unfold NoConstant; decide⟩

/-- C44, counterexample to the full claim: the binary context evaluates `b1 == b1` to 1, but entering it is an error, whatever the context. -/
theorem C44_comparison_counterexample :
    ((Binary.context Demo.keys true (Config.new.withImplicitMul true)).bind fun c =>
      eval Binary.parse (split binaryRules) (c.view Demo.keys) (str "b1 == b1")) = .ok 1 ∧
    ∀ (S : Session Binary) (c : Context Binary), S.line c (str "b1 == b1") = .ok (.none, [.error], c) := by
  refine ⟨by decide +kernel, fun S c => ?_⟩
  have h1 : trim (str "b1 == b1") = str "b1 == b1" := by decide
  have h2 : (splitChar '=' (str "b1 == b1")).map trim = [str "b1", [], str "b1"] := by decide
  unfold Session.line
  simp only [h1]
  rw [if_neg (by decide), if_pos (by decide), h2]

end Prexel
