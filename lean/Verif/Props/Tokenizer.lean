import Verif.Lemmas.Text
import Verif.Props.Evaluator
/-!
# Properties of the splitter and the tokenizer (C14-C23)

`rules` is any list of well-behaved splitting rules (`AllGood`, `SkipsWs`); the three rule sets of the code base are instances
(`defaultRules_good`, `binaryRules_good`, `replRules_good` and `…_skips`). `parse` is the `FromStr` of the number type.
-/

set_option linter.unusedVariables false
set_option linter.unusedSimpArgs false

namespace Prexel
variable {N : Type}

open Demo (ctx)

/-! ## C14: blank input -/

theorem tokenizeLoop_ne_empty (parse : Str → Option N) (c : Ctx N) (ws : List Str) (prev : Option Str) :
    tokenizeLoop parse c prev ws ≠ .err .empty := by
  generalize hn : ws.length = n
  induction n using Nat.strongRecOn generalizing ws prev with
  | ind n ih =>
    cases ws with
    | nil => simp [tokenizeLoop]
    | cons w rest =>
      simp only [List.length_cons] at hn
      have hbind : ∀ (t : Token N) (p : Option Str) (l : List Str), l.length < n →
          ((tokenizeLoop parse c p l).bind fun ts => Res.ok (t :: ts)) ≠ .err .empty := by
        intro t p l hl
        have := ih l.length hl l p rfl
        cases hr : tokenizeLoop parse c p l with
        | ok v => simp
        | err k => simp; rintro rfl; exact this hr
        | panic => simp
      unfold tokenizeLoop
      split
      · split
        · rename_i w' rest'
          simp only [List.length_cons] at hn
          split
          · split
            · simp
            · exact hbind _ _ _ (by omega)
          · exact hbind _ _ _ (by simp; omega)
        · simp
      · split
        · exact hbind _ _ _ (by omega)
        · split
          · exact hbind _ _ _ (by omega)
          · split
            · exact hbind _ _ _ (by omega)
            · split
              · have hop : operatorToken parse c prev w rest.isEmpty ≠ .err .empty := by
                  unfold operatorToken
                  generalize (if rest.isEmpty = true then none else some w) = nx
                  have hu : ∀ k, isUnaryOp parse c prev w nx ≠ .err k := by
                    intro k
                    have hfb : ∀ (p : Str) (k : ErrorKind), firstByte p ≠ .err k := by
                      intro p k; cases p with
                      | nil => simp [firstByte]
                      | cons c p => simp only [firstByte]; split <;> simp
                    unfold isUnaryOp
                    split
                    · simp
                    · split
                      · split
                        · simp
                        · split <;> simp
                      · split
                        · simp
                        · split
                          · simp
                          · rename_i p
                            split
                            · simp
                            · split
                              · simp
                              · cases hb : firstByte p with
                                | err k => exact absurd hb (hfb p k)
                                | panic => simp
                                | ok b =>
                                  simp only [Res.bind_ok]
                                  split
                                  · simp
                                  · split <;> simp
                  simp only
                  cases hu' : isUnaryOp parse c prev w nx with
                  | err k => exact absurd hu' (hu k)
                  | panic => rw [Res.bind_panic]; simp
                  | ok u =>
                    rw [Res.bind_ok]
                    split
                    · simp
                    · split <;> simp
                cases ho : operatorToken parse c prev w rest.isEmpty with
                | err k => simp; rintro rfl; exact hop ho
                | panic => simp
                | ok t => exact hbind _ _ _ (by omega)
              · split
                · exact hbind _ _ _ (by omega)
                · exact ih _ (by omega) _ _ rfl

/-- C14. Exactly the blank texts are reported as empty by the tokenizer, whatever splitter is used; and evaluating a blank text reports
the same. -/
theorem C14_empty_iff_blank (parse : Str → Option N) (splitter : Str → List Str) (c : Ctx N) (s : Str) :
    (tokenize parse splitter c s = .err .empty ↔ Blank s) ∧ (Blank s → eval parse splitter c s = .err .empty) := by
  have hb : Blank s ↔ s.all isWhitespace = true := by simp [Blank, List.all_eq_true]
  refine ⟨⟨fun h => ?_, fun h => ?_⟩, fun h => ?_⟩
  · unfold tokenize at h
    split at h
    · rename_i ha; exact hb.mpr ha
    · exact absurd h (tokenizeLoop_ne_empty _ _ _ _)
  · simp [tokenize, hb.mp h]
  · simp [eval, tokenize, hb.mp h]

example : Blank [' ', '\t', '\n', '\u3000'] ∧ ¬ Blank [' ', 'x'] := ⟨by decide, by decide⟩

/-! ## C15: panics -/

theorem split_chars {rules : List Rule} (hg : AllGood rules) (hs : SkipsWs rules) (s : Str) :
    ∀ w ∈ split rules s, w ≠ [] ∧ ∀ c ∈ w, c ∈ s := by
  refine split_induction hg hs (motive := fun s ws => ∀ w ∈ ws, w ≠ [] ∧ ∀ c ∈ w, c ∈ s) (by simp) ?_ ?_ ?_ s
  · intro c rest hc ih w hw
    exact ⟨(ih w hw).1, fun x hx => by simp [(ih w hw).2 x hx]⟩
  · intro c t rest hc ht _ ih w hw
    simp only [List.mem_cons] at hw
    rcases hw with rfl | hw
    · refine ⟨by simp, fun x hx => ?_⟩
      simp only [List.mem_cons, List.mem_append] at hx ⊢
      rcases hx with rfl | hx
      · exact .inl rfl
      · exact .inr (.inl hx)
    · exact ⟨(ih w hw).1, fun x hx => by simp [(ih w hw).2 x hx]⟩
  · intro c d1 d2 rest hc h1 h2 _ ih w hw
    simp only [List.mem_cons] at hw
    rcases hw with rfl | hw
    · refine ⟨by simp, fun x hx => ?_⟩
      simp only [List.mem_cons, List.mem_append] at hx ⊢
      rcases hx with rfl | hx | rfl | hx <;> simp_all
    · exact ⟨(ih w hw).1, fun x hx => by simp [(ih w hw).2 x hx]⟩

/-- C15, proved part: tokenizing a text of ASCII characters never panics. Missing: texts with other characters, for which the claim is
false (`C15_non_ascii_counterexample`). -/
theorem C15_ascii_no_panic_partial (parse : Str → Option N) {rules : List Rule} (hg : AllGood rules) (hs : SkipsWs rules) (c : Ctx N)
    (s : Str) (h : ∀ x ∈ s, x.toNat < 128) : tokenize parse (split rules) c s ≠ .panic := by
  unfold tokenize
  split
  · simp
  · refine tokenizeLoop_ne_panic (by simp) ?_
    intro w hw
    obtain ⟨h1, h2⟩ := split_chars hg hs s w hw
    cases w with
    | nil => exact absurd rfl h1
    | cons x t => exact ⟨x, t, rfl, h x (h2 x (by simp))⟩

/-- C15 and C04: evaluating ASCII text never panics when no registered function panics. -/
theorem C15_eval_ascii_no_panic_partial (parse : Str → Option N) {rules : List Rule} (hg : AllGood rules) (hs : SkipsWs rules) (c : Ctx N)
    (hc : c.Safe) (s : Str) (h : ∀ x ∈ s, x.toNat < 128) : eval parse (split rules) c s ≠ .panic := by
  have h1 := C15_ascii_no_panic_partial parse hg hs c s h
  unfold eval
  cases ht : tokenize parse (split rules) c s with
  | ok ts => exact evalTokens_ne_panic' c hc ts
  | err k => simp
  | panic => exact absurd ht h1

example : (∀ x ∈ str "max(1, ,))", x.toNat < 128) ∧ AllGood defaultRules ∧ SkipsWs defaultRules :=
  ⟨by decide, defaultRules_good, defaultRules_skips⟩

/-- C15 fails: `é - 2` panics (`&prev_str[..1]` cuts a character). -/
theorem C15_non_ascii_counterexample : tokenize Demo.parse (split defaultRules) (ctx false false) ['é', ' ', '-', ' ', '2'] = .panic := by
  decide

/-! ## C16: white space -/

/-- C16 for the words: white space at the ends does not matter, one run of white space can replace another, and white space can be inserted
wherever the words of the two parts are the words of the whole. -/
theorem C16_split {rules : List Rule} (hg : AllGood rules) (hs : SkipsWs rules) (a b : Str) {w w' : Str} (hw : Blank w) (hw' : Blank w') :
    split rules (w ++ a ++ w') = split rules a ∧
    (w ≠ [] → w' ≠ [] → split rules (a ++ w ++ b) = split rules (a ++ w' ++ b)) ∧
    (split rules (a ++ b) = split rules a ++ split rules b → split rules (a ++ w ++ b) = split rules (a ++ b)) := by
  have key : ∀ {w : Str}, Blank w → w ≠ [] → split rules (a ++ w ++ b) = split rules a ++ split rules b := by
    intro w hw hne
    cases w with
    | nil => exact absurd rfl hne
    | cons sp w =>
      have hb : Blank w := fun x hx => hw x (by simp [hx])
      rw [List.append_assoc, List.cons_append, split_append_ws hg hs a sp _ (hw sp (by simp)), split_blank_append hs hb]
  refine ⟨?_, ?_, ?_⟩
  · rw [split_append_blank hg hs _ hw', split_blank_append hs hw]
  · intro h1 h2
    rw [key hw h1, key hw' h2]
  · intro h
    cases w with
    | nil => simp
    | cons sp w => rw [key hw (by simp), h]

theorem tokenize_of_split (parse : Str → Option N) {rules : List Rule} (c : Ctx N) {s s' : Str} (h : split rules s = split rules s')
    (hb : Blank s ↔ Blank s') : tokenize parse (split rules) c s = tokenize parse (split rules) c s' := by
  have hb1 : ∀ s, Blank s ↔ s.all isWhitespace = true := by simp [Blank, List.all_eq_true]
  unfold tokenize
  rw [h]
  have : s.all isWhitespace = s'.all isWhitespace := by
    rw [hb1, hb1] at hb
    exact Bool.eq_iff_iff.mpr hb
  rw [this]

/-- C16. White space at the ends does not matter, one run of white space can replace another, and white space can be inserted at a
boundary between words. -/
theorem C16_white_space (parse : Str → Option N) {rules : List Rule} (hg : AllGood rules) (hs : SkipsWs rules) (c : Ctx N) (a b : Str)
    {w w' : Str} (hw : Blank w) (hw' : Blank w') :
    (tokenize parse (split rules) c (w ++ a ++ w') = tokenize parse (split rules) c a ∧
      eval parse (split rules) c (w ++ a ++ w') = eval parse (split rules) c a) ∧
    (w ≠ [] → w' ≠ [] → tokenize parse (split rules) c (a ++ w ++ b) = tokenize parse (split rules) c (a ++ w' ++ b) ∧
      eval parse (split rules) c (a ++ w ++ b) = eval parse (split rules) c (a ++ w' ++ b)) ∧
    (split rules (a ++ b) = split rules a ++ split rules b →
      tokenize parse (split rules) c (a ++ w ++ b) = tokenize parse (split rules) c (a ++ b) ∧
      eval parse (split rules) c (a ++ w ++ b) = eval parse (split rules) c (a ++ b)) := by
  obtain ⟨h1, h2, h3⟩ := C16_split hg hs a b hw hw'
  have happ : ∀ x y : Str, Blank (x ++ y) ↔ Blank x ∧ Blank y := by
    intro x y
    simp only [Blank, List.mem_append]
    exact ⟨fun h => ⟨fun c hc => h c (.inl hc), fun c hc => h c (.inr hc)⟩, fun h c hc => hc.elim (h.1 c) (h.2 c)⟩
  refine ⟨?_, fun hn hn' => ?_, fun h => ?_⟩
  · have := tokenize_of_split parse c h1 (by simp [happ, hw, hw'])
    exact ⟨this, by unfold eval; rw [this]⟩
  · have := tokenize_of_split parse c (h2 hn hn') (by simp [happ, hw, hw'])
    exact ⟨this, by unfold eval; rw [this]⟩
  · have := tokenize_of_split parse c (h3 h) (by simp [happ, hw])
    exact ⟨this, by unfold eval; rw [this]⟩

/-- A boundary between words: `2` and `*x`. -/
example : split defaultRules (['2'] ++ ['*', 'x']) = split defaultRules ['2'] ++ split defaultRules ['*', 'x'] := by decide
/-- Not a boundary: `4` and `2`. -/
example : split defaultRules (['4'] ++ ['2']) ≠ split defaultRules ['4'] ++ split defaultRules ['2'] := by decide

/-! ## C17: nothing but white space is lost -/

/-- C17, proved part: every text in which no number is followed by a second point (digit, digits, point, digits, point) is the
concatenation of its words, white space aside. Missing: texts with such numbers; the claim is false for them
(`C17_second_point_counterexample`), but only points are lost (`C17_only_points_lost_partial`). -/
theorem C17_flatten_partial {rules : List Rule} (hg : AllGood rules) (hs : SkipsWs rules) (s : Str)
    (h : ∀ d d1 d2, isDigit d = true → d1.all isDigit = true → d2.all isDigit = true → ¬ (d :: (d1 ++ '.' :: d2 ++ ['.'])) <:+: s) :
    (split rules s).flatten = s.filter (fun c => !isWhitespace c) := by
  revert h
  refine split_induction hg hs (motive := fun s ws =>
    (∀ d d1 d2, isDigit d = true → d1.all isDigit = true → d2.all isDigit = true → ¬ (d :: (d1 ++ '.' :: d2 ++ ['.'])) <:+: s) →
    ws.flatten = s.filter (fun c => !isWhitespace c)) (by simp) ?_ ?_ ?_ s
  · intro c rest hc ih h
    rw [List.filter_cons, if_neg (by simp [hc])]
    exact ih (fun d d1 d2 h0 h1 h2 hi => h d d1 d2 h0 h1 h2 (hi.trans (List.suffix_cons c rest).isInfix))
  · intro c t rest hc ht _ ih h
    have ht' : t.filter (fun c => !isWhitespace c) = t := by
      rw [List.filter_eq_self]; intro x hx; simp [ht x hx]
    rw [List.filter_cons, if_pos (by simp [hc]), List.filter_append, ht', List.flatten_cons,
      ih (fun d d1 d2 h0 h1 h2 hi => h d d1 d2 h0 h1 h2 (hi.trans (((List.suffix_append t rest).trans (List.suffix_cons c _)).isInfix)))]
    rfl
  · intro c d1 d2 rest hc h1 h2 _ ih h
    exact absurd ⟨[], rest, by simp⟩ (h c d1 d2 hc h1 h2)

example : (split defaultRules ['2', '.', '5', '*', ' ', 'x', ')']).flatten = ['2', '.', '5', '*', 'x', ')'] := by decide

/-- C17 for all texts: the concatenation of the words is the text without its white space and without some of its points. -/
theorem C17_only_points_lost_partial {rules : List Rule} (hg : AllGood rules) (hs : SkipsWs rules) (s : Str) :
    (split rules s).flatten.Sublist (s.filter (fun c => !isWhitespace c)) ∧
    (split rules s).flatten.filter (fun c => c != '.') = s.filter (fun c => !isWhitespace c && c != '.') := by
  refine split_induction hg hs (motive := fun s ws => ws.flatten.Sublist (s.filter (fun c => !isWhitespace c)) ∧
    ws.flatten.filter (fun c => c != '.') = s.filter (fun c => !isWhitespace c && c != '.')) (by simp) ?_ ?_ ?_ s
  · intro c rest hc ih
    rw [List.filter_cons, if_neg (by simp [hc]), List.filter_cons, if_neg (by simp [hc])]
    exact ih
  · intro c t rest hc ht _ ih
    have ht' : t.filter (fun c => !isWhitespace c) = t := by
      rw [List.filter_eq_self]; intro x hx; simp [ht x hx]
    have ht2 : t.filter (fun c => !isWhitespace c && c != '.') = t.filter (fun c => c != '.') := by
      apply List.filter_congr
      intro x hx; simp [ht x hx]
    constructor
    · rw [List.filter_cons, if_pos (by simp [hc]), List.filter_append, ht', List.flatten_cons, List.cons_append]
      exact ((List.Sublist.refl t).append ih.1).cons_cons c
    · rw [List.flatten_cons, List.filter_append, ih.2, List.filter_cons, List.filter_cons, List.filter_append, ht2]
      simp only [hc, Bool.not_false, Bool.true_and]
      split <;> rfl
  · intro c d1 d2 rest hc h1 h2 _ ih
    have hd : ∀ x, isDigit x = true → isWhitespace x = false := by
      intro x hx
      cases hw : isWhitespace x with
      | false => rfl
      | true => rw [ws_not_digit hw] at hx; cases hx
    have ht : ∀ x ∈ d1 ++ '.' :: d2, isWhitespace x = false := by
      rw [List.all_eq_true] at h1 h2
      intro x hx
      simp only [List.mem_append, List.mem_cons] at hx
      rcases hx with hx | rfl | hx
      · exact hd _ (h1 x hx)
      · decide
      · exact hd _ (h2 x hx)
    generalize d1 ++ '.' :: d2 = t at ht
    have hcw := hd c hc
    have ht' : t.filter (fun c => !isWhitespace c) = t := by
      rw [List.filter_eq_self]; intro x hx; simp [ht x hx]
    have ht2 : t.filter (fun c => !isWhitespace c && c != '.') = t.filter (fun c => c != '.') := by
      apply List.filter_congr
      intro x hx; simp [ht x hx]
    constructor
    · rw [List.filter_cons, if_pos (by simp [hcw]), List.filter_append, ht', List.flatten_cons, List.cons_append]
      refine ((List.Sublist.refl t).append ?_).cons_cons c
      rw [List.filter_cons, if_pos (by decide)]
      exact ih.1.cons _
    · have hpt : ('.' :: rest).filter (fun c => !isWhitespace c && c != '.') = rest.filter (fun c => !isWhitespace c && c != '.') := by
        rw [List.filter_cons, if_neg (by decide)]
      rw [List.flatten_cons, List.filter_append, ih.2, List.filter_cons, List.filter_cons, List.filter_append, ht2, hpt]
      simp only [hcw, Bool.not_false, Bool.true_and]
      split <;> rfl

/-- C17 fails: the second point of `1.2.3` is dropped, so that it reads as the two numbers `1.2` and `3`. -/
theorem C17_second_point_counterexample : split defaultRules ['1', '.', '2', '.', '3'] = [['1', '.', '2'], ['3']] := by decide

/-! ## C18: splitting undoes joining -/

/-- C18. Splitting a text made of single words with white space between them gives back the words. -/
theorem C18_split_join {rules : List Rule} (hg : AllGood rules) (hs : SkipsWs rules) {ws : List Str} {s : Str}
    (hw : ∀ w ∈ ws, split rules w = [w]) (h : Spaced ws s) : split rules s = ws := by
  rw [split_spaced hg hs h]
  clear h
  induction ws with
  | nil => rfl
  | cons w ws ih => simp [hw w (by simp), ih (fun x hx => hw x (by simp [hx]))]

/-- C18. Every word of a text is a single word when split again. -/
theorem C18_split_idempotent {rules : List Rule} (hg : AllGood rules) (hs : SkipsWs rules) (s : Str) :
    ∀ w ∈ split rules s, split rules w = [w] := by
  refine split_induction hg hs (motive := fun _ ws => ∀ w ∈ ws, split rules w = [w]) (by simp) ?_ ?_ ?_ s
  · intro c rest hc ih
    exact ih
  · intro c t rest hc ht hr ih w hw
    simp only [List.mem_cons] at hw
    rcases hw with rfl | hw
    · rw [split_cons, hr]; rfl
    · exact ih w hw
  · intro c d1 d2 rest hc h1 h2 hr ih w hw
    simp only [List.mem_cons] at hw
    rcases hw with rfl | hw
    · rw [split_cons, hr]; rfl
    · exact ih w hw

example : Spaced [['-'], ['2', '.', '5'], ['*', '*']] [' ', '-', '\t', '2', '.', '5', ' ', '*', '*'] :=
  .cons [' '] ['-'] '\t' _ _ _ (by decide) (by decide) (.cons [] ['2', '.', '5'] ' ' _ _ _ (by decide) (by decide)
    (.last [] ['*', '*'] [] (by decide) (by decide)))

/-! ## C19: the shape of words -/

theorem mem_takeWhile {p : Char → Bool} {l : Str} {x : Char} (h : x ∈ l.takeWhile p) : p x = true := by
  induction l with
  | nil => simp at h
  | cons a l ih =>
    rw [List.takeWhile_cons] at h
    split at h
    · rename_i ha
      simp only [List.mem_cons] at h
      rcases h with rfl | h
      · exact ha
      · exact ih h
    · simp at h

theorem numericLoop_shape (b : Bool) (a : Str) : (numericLoop b a).1.all isDigit = true ∨
    (b = false ∧ ∃ d1 d2, (numericLoop b a).1 = d1 ++ '.' :: d2 ∧ d1.all isDigit = true ∧ d2.all isDigit = true) := by
  induction a generalizing b with
  | nil => left; rfl
  | cons c a ih =>
    unfold numericLoop
    split
    · rename_i hc
      rcases ih b with h | ⟨rfl, d1, d2, h, h1, h2⟩
      · left; simp [hc, h]
      · right; exact ⟨rfl, c :: d1, d2, by simp [h], by simp [hc, h1], h2⟩
    · split
      · rename_i hp
        have hp : c = '.' := by simpa using hp
        subst hp
        cases b with
        | true => left; rfl
        | false =>
          right
          rcases ih true with h | ⟨h, _⟩
          · exact ⟨rfl, [], _, rfl, rfl, h⟩
          · cases h
      · left; rfl

/-- C19. -/
theorem C19_shape (s : Str) : ∀ w ∈ split defaultRules s, Shape w := by
  have key : ∀ (c : Char) (t : Str), isWhitespace c = false → runRules defaultRules c t = (.data (c :: t), []) → Shape (c :: t) := by
    intro c t hc h
    simp only [defaultRules, splitterNew, if_true, List.cons_append, List.nil_append, runRules] at h
    by_cases hd : isDigit c = true
    · simp only [splitNumeric, hd, if_true, Prod.mk.injEq, Outcome.data.injEq, List.cons.injEq, true_and] at h
      rcases numericLoop_shape false t with h1 | ⟨_, d1, d2, h1, h2, h3⟩
      · exact .integer c t hd (by rw [← h.1]; exact h1)
      · rw [← h.1, h1]; exact .decimal c d1 d2 hd h2 h3
    · simp only [splitNumeric, hd, Bool.false_eq_true, if_false, List.drop_zero] at h
      by_cases hi : (isLetter c || c == '_') = true
      · simp only [splitIdentifier, spanRule, hi, if_true, Prod.mk.injEq, Outcome.data.injEq, List.cons.injEq, true_and] at h
        refine .ident c t (by simpa using hi) ?_
        intro x hx
        rw [← h.1] at hx
        have := mem_takeWhile hx
        simp only [Bool.or_eq_true, beq_iff_eq] at this
        rcases this with (h | h) | h
        · exact .inl h
        · exact .inr (.inl h)
        · exact .inr (.inr h)
      · simp only [splitIdentifier, spanRule, hi, Bool.false_eq_true, if_false, List.drop_zero] at h
        by_cases ho : operatorChars.contains c = true
        · simp only [splitOperator, splitWithOperators, spanRule, ho, if_true, Prod.mk.injEq, Outcome.data.injEq, List.cons.injEq,
            true_and] at h
          refine .operator c t (by rintro rfl; simp at hi) ?_
          intro x hx
          simp only [List.mem_cons] at hx
          rcases hx with rfl | hx
          · simpa using ho
          · rw [← h.1] at hx
            simpa using mem_takeWhile hx
        · simp only [splitOperator, splitWithOperators, spanRule, ho, Bool.false_eq_true, if_false, List.drop_zero, skipWhitespace, hc,
            Prod.mk.injEq, Outcome.data.injEq, List.cons.injEq, true_and] at h
          obtain ⟨h1, rfl⟩ := h
          simp only [Bool.or_eq_true, not_or] at hi
          exact .other c hc (by simpa using hd) (by simpa using hi.1) (by simpa using ho)
  refine split_induction defaultRules_good defaultRules_skips (motive := fun _ ws => ∀ w ∈ ws, Shape w) (by simp) ?_ ?_ ?_ s
  · intro c rest hc ih
    exact ih
  · intro c t rest hc ht hr ih w hw
    simp only [List.mem_cons] at hw
    rcases hw with rfl | hw
    · exact key c t hc hr
    · exact ih w hw
  · intro c d1 d2 rest hc h1 h2 hr ih w hw
    simp only [List.mem_cons] at hw
    rcases hw with rfl | hw
    · exact .decimal c d1 d2 hc h1 h2
    · exact ih w hw

example : split defaultRules (str "2.5max_1+-(") = [['2', '.', '5'], str "max_1", ['+', '-'], ['(']] := by decide

/-! ## C20, C22: words and tokens -/

/-- C22. The tokens are, one by one and in order, what the words of the text stand for; a number and a following `i` count as one word
when complex numbers are on. -/
theorem C22_words_in_order (parse : Str → Option N) {rules : List Rule} (hg : AllGood rules) (hs : SkipsWs rules) (c : Ctx N) (s : Str)
    (ts : List (Token N)) (h : tokenize parse (split rules) c s = .ok ts) :
    Pairwise2 (StandsFor parse c) (wordsFor parse c (split rules s)) ts := by
  unfold tokenize at h
  split at h
  · cases h
  · refine tokenizeLoop_standsFor ?_ h
    intro hm
    have := (split_no_ws hg hs s _ hm).2 ' ' (by simp)
    revert this; decide

/-- C20. A word stands for at most one token, except that an operator word may be read as unary or as binary: the token is fixed by the
registered names alone, in the order number, variable, constant, function, operator. -/
theorem C20_determined (parse : Str → Option N) (c : Ctx N) (w : Str) (t t' : Token N) (h : StandsFor parse c w t) (h' : StandsFor parse c w t') :
    t = t' ∨ (t = .unary w ∧ t' = .binary w) ∨ (t = .binary w ∧ t' = .unary w) := by
  cases t <;> cases t' <;> simp only [StandsFor, NoName, NotValue] at h h' <;> grind

/-- C20, for texts: the same word in any two texts gives the same token in both, wherever it stands, unless it is an operator word. -/
theorem C20_same_word_same_token (parse : Str → Option N) {rules : List Rule} (hg : AllGood rules) (hs : SkipsWs rules) (c : Ctx N)
    (s s' : Str) (ts ts' : List (Token N)) (h : tokenize parse (split rules) c s = .ok ts) (h' : tokenize parse (split rules) c s' = .ok ts')
    (i j : Nat) (w : Str) (hi : (wordsFor parse c (split rules s))[i]? = some w) (hj : (wordsFor parse c (split rules s'))[j]? = some w)
    (ho : ¬ (NotValue parse c w ∧ (c.getUnary w ≠ none ∨ c.getBinary w ≠ none))) : ∃ t, ts[i]? = some t ∧ ts'[j]? = some t := by
  have hget : ∀ {ws : List Str} {ts : List (Token N)}, Pairwise2 (StandsFor parse c) ws ts → ∀ i : Nat, ws[i]? = some w →
      ∃ t, ts[i]? = some t ∧ StandsFor parse c w t := by
    intro ws ts hp
    induction hp with
    | nil => intro i hi; simp at hi
    | @cons a b l m hab _ ih =>
      intro i hi
      cases i with
      | zero => simp at hi; subst hi; exact ⟨b, rfl, hab⟩
      | succ i => simp at hi; simpa using ih i hi
  obtain ⟨t, ht, h1⟩ := hget (C22_words_in_order parse hg hs c s ts h) i hi
  obtain ⟨t', ht', h1'⟩ := hget (C22_words_in_order parse hg hs c s' ts' h') j hj
  refine ⟨t, ht, ?_⟩
  rw [ht']
  rcases C20_determined parse c w t t' h1 h1' with rfl | ⟨rfl, rfl⟩ | ⟨rfl, rfl⟩
  · rfl
  · exact absurd ⟨h1.2.1, .inl h1.2.2⟩ ho
  · exact absurd ⟨h1'.2.1, .inl h1'.2.2⟩ ho

example : tokenize Demo.parse (split defaultRules) (ctx false false) (str "-x*(2 - k)") =
    .ok [.unary ['-'], .variable_ ['x'], .binary ['*'], .gopen '(', .number 2, .binary ['-'], .constant ['k'], .gclose ')'] := by decide

/-! ## C21: signs -/

theorem tokenizeLoop_operator {parse : Str → Option N} {c : Ctx N} (hc : c.config.complexNumber = false) {ws : List Str}
    (hsp : [' '] ∉ ws) {prev : Option Str} {ts : List (Token N)} (h : tokenizeLoop parse c prev ws = .ok ts) (i : Nat) (w : Str) (t : Token N)
    (ht : ts[i]? = some t) (hw : t = .unary w ∨ t = .binary w) :
    ∃ last, operatorToken parse c (if i = 0 then prev else ws[i - 1]?) w last = .ok t := by
  have hst := tokenizeLoop_standsFor hsp h
  simp only [wordsFor, hc, Bool.false_eq_true, if_false] at hst
  have hst0 : ∀ {ws : List Str} {ts : List (Token N)}, Pairwise2 (StandsFor parse c) ws ts → ∀ i : Nat, ts[i]? = some t →
      ∃ v, ws[i]? = some v ∧ StandsFor parse c v t := by
    intro ws ts hp
    induction hp with
    | nil => intro i hi; simp at hi
    | @cons a b l m hab _ ih =>
      intro i hi
      cases i with
      | zero => simp at hi; subst hi; exact ⟨a, rfl, hab⟩
      | succ i => simp at hi; simpa using ih i hi
  obtain ⟨v, hv, hvt⟩ := hst0 hst i ht
  have hvw : v = w := by rcases hw with rfl | rfl <;> exact hvt.1.symm
  subst hvw
  have hnv : NotValue parse c v := by rcases hw with rfl | rfl <;> exact hvt.2.1
  have hop : (c.isBinary v || c.isUnary v) = true := by
    rcases hw with rfl | rfl
    · simp [Ctx.isUnary, ne_none_isSome hvt.2.2]
    · rcases hvt.2.2 with h | h
      · simp [Ctx.isBinary, ne_none_isSome h]
      · simp [Ctx.isUnary, ne_none_isSome h]
  clear hst0 hst hvt
  induction ws generalizing prev ts i with
  | nil => simp at hv
  | cons x ws ih =>
    have hsp' : [' '] ∉ ws := fun hm => hsp (by simp [hm])
    cases i with
    | zero =>
      simp at hv
      subst hv
      unfold tokenizeLoop at h
      obtain ⟨a, b, d, e⟩ := hnv
      simp only [a, Ctx.isVariable, b, Option.isSome_none, Bool.false_eq_true, if_false, Ctx.isConstant, d, Ctx.isFunction, e, hop, if_true] at h
      refine ⟨ws.isEmpty, ?_⟩
      simp only [if_true]
      cases ho : operatorToken parse c prev x ws.isEmpty with
      | err k => simp [ho] at h
      | panic => simp [ho] at h
      | ok t' =>
        simp only [ho, Res.bind_ok] at h
        cases hl : tokenizeLoop parse c (some x) ws with
        | err k => simp [hl] at h
        | panic => simp [hl] at h
        | ok ts' => simp [hl] at h; subst h; simp at ht; rw [ht]
    | succ i =>
      simp at hv
      have key : ∃ t0 ts', ts = t0 :: ts' ∧ tokenizeLoop parse c (some x) ws = .ok ts' := by
        have hb : ∀ t0, ((tokenizeLoop parse c (some x) ws).bind fun ts => Res.ok (t0 :: ts)) = .ok ts →
            ∃ t0 ts', ts = t0 :: ts' ∧ tokenizeLoop parse c (some x) ws = .ok ts' := by
          intro t0 hb
          cases hl : tokenizeLoop parse c (some x) ws with
          | err k => simp [hl] at hb
          | panic => simp [hl] at hb
          | ok ts' => simp [hl] at hb; exact ⟨t0, ts', hb.symm, rfl⟩
        unfold tokenizeLoop at h
        split at h
        · split at h
          · simp only [hc, Bool.false_and, Bool.false_eq_true, if_false] at h
            exact hb _ h
          · simp at hv
        · split at h
          · exact hb _ h
          · split at h
            · exact hb _ h
            · split at h
              · exact hb _ h
              · split at h
                · cases ho : operatorToken parse c prev x ws.isEmpty with
                  | err k => simp [ho] at h
                  | panic => simp [ho] at h
                  | ok t' => simp only [ho, Res.bind_ok] at h; exact hb _ h
                · split at h
                  · exact hb _ h
                  · rename_i ho
                    exfalso
                    have hx : x ≠ [' '] := fun hm => hsp (by simp [hm])
                    unfold otherToken at ho
                    split at ho
                    · cases ho
                    · repeat' split at ho
                      all_goals cases ho
      obtain ⟨t0, ts', rfl, hl⟩ := key
      simp at ht
      obtain ⟨last, hlast⟩ := ih hsp' hl i ht hv
      refine ⟨last, ?_⟩
      simp only [Nat.add_eq_zero_iff, Nat.succ_ne_self, and_false, if_false, Nat.add_sub_cancel]
      cases i with
      | zero => simpa using hlast
      | succ i => simpa using hlast

/-- C21 for words. -/
theorem sign_words (parse : Str → Option N) (c : Ctx N) (hc : c.config.complexNumber = false) (hl : Lexical c) (ws : List Str) (hsp : [' '] ∉ ws)
    (ts : List (Token N)) (h : tokenizeLoop parse c none ws = .ok ts)
    (w : Str) (f : UnFn N) (hf : c.getUnary w = some f) (hn : f.notation_ = .pre) (hb : c.getBinary w ≠ none)
    (i : Nat) (hi : ts[i]? = some (.unary w) ∨ ts[i]? = some (.binary w)) :
    (i = 0 → ts[i]? = some (.unary w)) ∧
    ∀ p, 0 < i → ts[i - 1]? = some p →
      ((∃ x, p = .gopen x) ∨ p = .comma ∨ (∃ o, p = .binary o ∧ c.getBinary o ≠ none) → ts[i]? = some (.unary w)) ∧
      ((∃ n, p = .number n) ∨ (∃ x, p = .variable_ x) ∨ (∃ x, p = .constant x) ∨ (∃ x, p = .gclose x) ∨
        (∃ x g, p = .unary x ∧ c.getUnary x = some g ∧ g.notation_ = .post) → ts[i]? = some (.binary w)) := by
  have hst := tokenizeLoop_standsFor hsp h
  simp only [wordsFor, hc, Bool.false_eq_true, if_false] at hst
  obtain ⟨t, hti, htw⟩ : ∃ t, ts[i]? = some t ∧ (t = .unary w ∨ t = .binary w) := by
    rcases hi with hi | hi
    · exact ⟨_, hi, .inl rfl⟩
    · exact ⟨_, hi, .inr rfl⟩
  obtain ⟨last, hop⟩ := tokenizeLoop_operator hc hsp h i w t hti htw
  have hunary : ∀ prev, PrevOK parse c prev .start → operatorToken parse c prev w last = .ok t → t = .unary w := by
    intro prev hp hop
    unfold operatorToken at hop
    cases last with
    | true =>
      have : isUnaryOp parse c prev w none = .ok false := by simp [isUnaryOp, hf, hn]
      simp [this] at hop
    | false =>
      simp only [Bool.false_eq_true, if_false] at hop
      rw [isUnaryOp_pre_start hf hn hp] at hop
      simp at hop
      exact hop.symm
  have hbinary : ∀ p k, k = .done ∨ k = .post → PrevOK parse c (some p) k → operatorToken parse c (some p) w last = .ok t → t = .binary w := by
    intro p k hk hp hop
    unfold operatorToken at hop
    cases last with
    | true =>
      have : isUnaryOp parse c (some p) w none = .ok false := by simp [isUnaryOp, hf, hn]
      simp [this] at hop
    | false =>
      simp only [Bool.false_eq_true, if_false] at hop
      rw [isUnaryOp_pre_not hf hn hk hp] at hop
      simp at hop
      exact hop.symm
  rw [hti]
  refine ⟨?_, ?_⟩
  · rintro rfl
    rw [if_pos rfl] at hop
    rw [hunary none rfl hop]
  · intro p hpos hp
    have hst0 : ∀ {ws : List Str} {ts : List (Token N)}, Pairwise2 (StandsFor parse c) ws ts → ∀ i : Nat, ts[i]? = some p →
        ∃ v, ws[i]? = some v ∧ StandsFor parse c v p := by
      intro ws ts hp
      induction hp with
      | nil => intro i hi; simp at hi
      | @cons a b l m hab _ ih =>
        intro i hi
        cases i with
        | zero => simp at hi; subst hi; exact ⟨a, rfl, hab⟩
        | succ i => simp at hi; simpa using ih i hi
    obtain ⟨v, hv, hvp⟩ := hst0 hst (i - 1) hp
    rw [if_neg (by omega), hv] at hop
    refine ⟨?_, ?_⟩
    · intro hcase
      have : t = .unary w := by
        apply hunary (some v) ?_ hop
        rcases hcase with ⟨x, rfl⟩ | rfl | ⟨o, rfl, ho⟩
        · obtain ⟨rfl, hm, ⟨⟨h1, h2, h3, h4⟩, h5, h6⟩⟩ := hvp
          have hm' : x.toNat < 128 ∧ x ∉ [')', ']', '}'] ∧ isAsciiPunctuation x = true := by
            simp only [List.mem_cons, List.not_mem_nil, or_false] at hm
            rcases hm with rfl | rfl | rfl <;> decide
          refine ⟨?_, h1, h2, h3, x, [], rfl, hm'.1, .inl h5⟩
          intro y hy; cases hy; exact hm'.2
        · obtain ⟨rfl, ⟨⟨h1, h2, h3, h4⟩, h5, h6⟩⟩ := hvp
          refine ⟨?_, h1, h2, h3, ',', [], rfl, by decide, .inl h5⟩
          intro y hy; cases hy; exact ⟨by decide, by decide⟩
        · obtain ⟨rfl, ⟨h1, h2, h3, h4⟩, h5⟩ := hvp
          obtain ⟨x, tl, rfl, hx⟩ := hl.ascii o (.inr ho)
          refine ⟨?_, h1, h2, h3, x, tl, rfl, hx, hl.binary x tl ho⟩
          intro y hy; cases hy
          have := hl.punct x (.inr ho)
          exact ⟨this.2, this.1⟩
      rw [this]
    · intro hcase
      have : t = .binary w := by
        rcases hcase with ⟨n, rfl⟩ | ⟨x, rfl⟩ | ⟨x, rfl⟩ | ⟨x, rfl⟩ | ⟨x, g, rfl, hx, hg'⟩
        · refine hbinary v .done (.inl rfl) (.inr (.inl ?_)) hop
          have : parse v = some n := hvp
          rw [this]; simp
        · obtain ⟨rfl, h1, h2⟩ := hvp
          exact hbinary _ .done (.inl rfl) (.inr (.inr (.inl h2))) hop
        · obtain ⟨rfl, h1, h2, h3⟩ := hvp
          exact hbinary _ .done (.inl rfl) (.inr (.inr (.inr h3))) hop
        · obtain ⟨rfl, h1, h2⟩ := hvp
          exact hbinary _ .done (.inl rfl) (.inl ⟨x, rfl, h1⟩) hop
        · obtain ⟨rfl, ⟨h1, h2, h3, h4⟩, h5⟩ := hvp
          obtain ⟨y, tl, rfl, hy⟩ := hl.ascii x (.inl (by rw [hx]; simp))
          have hpo := hl.postfix_ y tl g hx hg'
          exact hbinary _ .post (.inr rfl) ⟨h1, h2, h3, y, tl, rfl, hy, hpo.1, hpo.2.1⟩ hop
      rw [this]

/-- C21. Let `w` be registered as a prefix and as a binary operator (as `-` and `+` are). In a tokenized text, `w` is unary at the start
and after an opening bracket, a comma or a binary operator, and binary after a number, variable, constant, closing bracket or postfix
operator. -/
theorem C21_sign (parse : Str → Option N) {rules : List Rule} (hg : AllGood rules) (hs : SkipsWs rules) (c : Ctx N)
    (hc : c.config.complexNumber = false) (hl : Lexical c) (s : Str) (ts : List (Token N)) (h : tokenize parse (split rules) c s = .ok ts)
    (w : Str) (f : UnFn N) (hf : c.getUnary w = some f) (hn : f.notation_ = .pre) (hb : c.getBinary w ≠ none)
    (i : Nat) (hi : ts[i]? = some (.unary w) ∨ ts[i]? = some (.binary w)) :
    (i = 0 → ts[i]? = some (.unary w)) ∧
    ∀ p, 0 < i → ts[i - 1]? = some p →
      ((∃ x, p = .gopen x) ∨ p = .comma ∨ (∃ o, p = .binary o ∧ c.getBinary o ≠ none) → ts[i]? = some (.unary w)) ∧
      ((∃ n, p = .number n) ∨ (∃ x, p = .variable_ x) ∨ (∃ x, p = .constant x) ∨ (∃ x, p = .gclose x) ∨
        (∃ x g, p = .unary x ∧ c.getUnary x = some g ∧ g.notation_ = .post) → ts[i]? = some (.binary w)) := by
  unfold tokenize at h
  split at h
  · cases h
  have hsp : [' '] ∉ split rules s := by
    intro hm
    have := (split_no_ws hg hs s _ hm).2 ' ' (by simp)
    revert this; decide
  exact sign_words parse c hc hl _ hsp ts h w f hf hn hb i hi

/-- The demo context is lexical. -/
theorem demo_lexical (b1 b2 : Bool) : Lexical (ctx b1 b2) where
  ascii := by
    intro s h
    simp only [ctx] at h
    have : s ∈ [['+'], ['-'], ['*'], ['/'], ['^'], ['%']] := by
      simp only [List.mem_cons, List.not_mem_nil, or_false]
      repeat' split at h
      all_goals simp_all
    simp only [List.mem_cons, List.not_mem_nil, or_false] at this
    rcases this with rfl | rfl | rfl | rfl | rfl | rfl <;> exact ⟨_, _, rfl, by decide⟩
  punct := by
    intro c h
    simp only [ctx] at h
    have : c ∈ ['+', '-', '*', '/', '^', '%'] := by
      simp only [List.mem_cons, List.not_mem_nil, or_false]
      repeat' split at h
      all_goals simp_all
    simp only [List.mem_cons, List.not_mem_nil, or_false] at this
    rcases this with rfl | rfl | rfl | rfl | rfl | rfl <;> decide
  binary := by
    intro c t h
    simp only [ctx] at h ⊢
    repeat' split at h
    all_goals simp_all
  postfix_ := by
    intro c t f h hf
    simp only [ctx] at h ⊢
    split at h
    · cases h; simp [Demo.neg] at hf
    · split at h
      · rename_i h'; cases h'; simp
      · cases h

/-- `2 % - - 3`: after the postfix `%` binary, after a binary operator unary. -/
example : tokenize Demo.parse (split defaultRules) (ctx false false) (str "2 % - - 3") =
    .ok [.number 2, .unary ['%'], .binary ['-'], .unary ['-'], .number 3] := by decide

/-- C21 needs the operators to be `Lexical`: with a postfix `!` and a binary `!=`, the sign in `1 != -1` is taken for a binary operator. -/
def bangCtx : Ctx Int :=
  { ctx false false with
    getUnary := fun s => if s = ['!'] then some Demo.pct else (ctx false false).getUnary s
    getBinary := fun s => if s = ['!', '='] then some Demo.add else (ctx false false).getBinary s }

theorem C21_not_lexical_counterexample : tokenize Demo.parse (split defaultRules) bangCtx (str "1 != -1") =
    .ok [.number 1, .binary ['!', '='], .binary ['-'], .number 1] := by decide

/-! ## C23: from text to value -/

/-- C23. Any text whose words are the words of a dictated tree evaluates to the value of the tree. -/
theorem C23_text (parse : Str → Option N) {rules : List Rule} (hs : SkipsWs rules) (c : Ctx N)
    (hc : c.config.complexNumber = false) (hl : Lexical c) (e : Expr N) (hw : e.WF c) (hp : e.Plain c) (s : Str)
    (h : Pairwise2 (StandsFor parse c) (split rules s) e.render) :
    tokenize parse (split rules) c s = .ok e.render ∧ eval parse (split rules) c s = e.denote c := by
  have ht : tokenize parse (split rules) c s = .ok e.render := by
    unfold tokenize
    split
    · rename_i hb
      have : split rules s = [] := split_blank hs (by simpa [Blank, List.all_eq_true] using hb)
      rw [this] at h
      have hne := e.render_ne_nil
      cases hr : e.render with
      | nil => exact absurd hr hne
      | cons t l => rw [hr] at h; cases h
    · exact tokenizeLoop_render hc hl e hw hp h
  exact ⟨ht, by rw [eval, ht, Res.bind_ok, C01_eval_eq_denote c e hw]⟩

/-- C23, for spaced text: write the words of the tree with white space between them; if every word is a single word for the splitter
and stands for its token, the text evaluates to the value of the tree. -/
theorem C23_spaced_text (parse : Str → Option N) {rules : List Rule} (hg : AllGood rules) (hs : SkipsWs rules) (c : Ctx N)
    (hc : c.config.complexNumber = false) (hl : Lexical c) (e : Expr N) (hw : e.WF c) (hp : e.Plain c) (ws : List Str) (s : Str)
    (hws : ∀ w ∈ ws, split rules w = [w]) (h : Pairwise2 (StandsFor parse c) ws e.render) (hsp : Spaced ws s) :
    eval parse (split rules) c s = e.denote c := by
  have := C18_split_join hg hs hws hsp
  exact (C23_text parse hs c hc hl e hw hp s (by rw [this]; exact h)).2

/-- The hypotheses are met by `-2^3*sum(1, (x+4)%)`. -/
example : sampleExpr.Plain (ctx false false) ∧
    Pairwise2 (StandsFor Demo.parse (ctx false false)) (split defaultRules (str "-2^3*sum(1, (x+4)%)")) sampleExpr.render := by
  constructor
  · simp [sampleExpr, Expr.Plain, Args.Plain]
  · have : split defaultRules (str "-2^3*sum(1, (x+4)%)") =
        [['-'], ['2'], ['^'], ['3'], ['*'], ['s', 'u', 'm'], ['('], ['1'], [','], ['('], ['x'], ['+'], ['4'], [')'], ['%'], [')']] := by decide
    rw [this]
    simp only [sampleExpr, Expr.render, Args.render, Atom.token, List.cons_append, List.nil_append]
    repeat' first | exact Pairwise2.nil | refine Pairwise2.cons ?_ ?_
    all_goals simp [StandsFor, NotValue, NoName, ctx, Demo.parse, Grouping.opn, Grouping.cls]

example : eval Demo.parse (split defaultRules) (ctx false false) (str "-2^3*sum(1, (x+4)%)") = .ok (-5608) := by decide

/-- Two adjacent operator characters are one word, so a sign directly behind a comma or an operator is not read: `sum(1,-2)` fails,
`sum(1, -2)` does not. -/
theorem C23_adjacent_operators_counterexample :
    eval Demo.parse (split defaultRules) (ctx false false) (str "sum(1,-2)") = .err .invalidInput ∧
    eval Demo.parse (split defaultRules) (ctx false false) (str "sum(1, -2)") = .ok (-1) := by decide

end Prexel
