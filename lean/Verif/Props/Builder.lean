import Verif.Spec.Builder
import Verif.Props.Tokenizer
import Verif.Examples.Demo
/-!
# C119: splitters made with the builder
-/

namespace Prexel

open SplitterBuilder

/-- C119. The splitters of the crate are those of the builder. -/
theorem C119_presets (kind : Bool) (r : Rule) (isBinary : Bool) :
    splitterNew kind = (((new.rule splitNumeric).rule splitIdentifier).rule splitOperator |>.whitespace kind).build ∧
    withNumericRule r = (((new.rule r).rule splitIdentifier).rule splitOperator |>.whitespace true).build ∧
    withIdentifierRule r = ((((new.rule splitNumeric).rule r).rule splitIdentifier).rule splitOperator |>.whitespace true).build ∧
    (∀ c, splitOperator c = (OperatorsBuilder.new.build) c) ∧
    replRules isBinary = ((((if isBinary then new.rule splitBinary else new).rule splitRepl).rule splitNumeric).rule splitIdentifier
      |>.rule (OperatorsBuilder.new.except '$').build |>.whitespace true).build := by
  refine ⟨by cases kind <;> rfl, rfl, rfl, fun c => rfl, ?_⟩
  cases isBinary <;> rfl

theorem build_eq (b : SplitterBuilder) : b.build = b.rules ++ if b.whitespaceOption.getD false then [skipWhitespace] else [] := rfl

theorem run_ordered (b : SplitterBuilder) (calls : List Call) :
    (b.run calls).bind (fun b => .ok b.build) = match ordered b.rules calls with
      | some l => .ok (l ++ if removes (b.whitespaceOption.getD false) calls then [skipWhitespace] else [])
      | none => .panic := by
  induction calls generalizing b with
  | nil => simp only [SplitterBuilder.run, ordered, removes, Res.bind_ok, build_eq, List.filterMap_nil, List.getLast?_nil, Option.getD_none]; rfl
  | cons call calls ih =>
    cases call with
    | insertRule i r =>
      simp only [SplitterBuilder.run, SplitterBuilder.insertRule, ordered]
      split
      · rw [Res.bind_ok, ih]
        simp only [removes, List.filterMap_cons, whitespaceSaid]
        rfl
      · rfl
    | rule r =>
      simp only [SplitterBuilder.run, ordered]
      rw [ih]
      simp only [removes, List.filterMap_cons, whitespaceSaid, SplitterBuilder.rule]
      rfl
    | whitespace w =>
      simp only [SplitterBuilder.run, ordered]
      rw [ih]
      simp only [removes, List.filterMap_cons, whitespaceSaid, SplitterBuilder.whitespace, List.getLast?_cons, Option.getD_some]
      rfl

/-- C119. The splitter that a chain of builder calls makes has the rules in the order in which the calls put them, and after all of
them, wherever the `whitespace` call stood in the chain, the rule that skips white space if the last `whitespace` call says so. The
chain panics exactly if an `insert_rule` has an index greater than the number of rules put before it. -/
theorem C119_builder (calls : List Call) :
    (new.run calls).bind (fun b => .ok b.build) = match ordered [] calls with
      | some l => .ok (l ++ if removes false calls then [skipWhitespace] else [])
      | none => .panic := run_ordered new calls

example : (ordered [] [.whitespace true, .rule splitNumeric, .insertRule 0 splitBinary]).isSome = true ∧
    (ordered [] [.rule splitNumeric, .insertRule 2 splitBinary]).isSome = false := by decide

theorem stock_good {r : Rule} (h : Stock r) : r.Good := by
  cases h with
  | numeric => exact splitNumeric_good
  | identifier => exact splitIdentifier_good
  | operator => exact splitOperator_good
  | binary => exact splitBinary_good
  | operators b h => exact splitWithOperators_good h

theorem stock_ws {r : Rule} (h : Stock r) {c : Char} (hc : isWhitespace c = true) (rest : Str) : r c rest = (.cont, 0) := by
  cases h with
  | numeric => exact splitNumeric_ws hc rest
  | identifier => exact splitIdentifier_ws hc rest
  | operator => exact splitWithOperators_ws operatorChars_not_ws hc rest
  | binary => exact splitBinary_ws hc rest
  | operators b h => exact splitWithOperators_ws h hc rest

theorem ordered_stock {rules : List Rule} {calls : List Call} {l : List Rule} (hr : ∀ r ∈ rules, Stock r) (hc : StockCalls calls)
    (h : ordered rules calls = some l) : ∀ r ∈ l, Stock r := by
  induction calls generalizing rules with
  | nil => simp only [ordered, Option.some.injEq] at h; subst h; exact hr
  | cons call calls ih =>
    have hc' : StockCalls calls := fun c hm => hc c (by simp [hm])
    have h1 := hc call (by simp)
    cases call with
    | insertRule i r =>
      simp only [ordered] at h
      split at h
      · refine ih ?_ hc' h
        intro x hx
        simp only [List.mem_append, List.mem_cons] at hx
        rcases hx with hx | rfl | hx
        · exact hr x (List.mem_of_mem_take hx)
        · exact h1
        · exact hr x (List.mem_of_mem_drop hx)
      · cases h
    | rule r =>
      refine ih ?_ hc' h
      intro x hx
      simp only [List.mem_append, List.mem_singleton] at hx
      rcases hx with hx | rfl
      · exact hr x hx
      · exact h1
    | whitespace w => exact ih hr hc' h

theorem stock_built {calls : List Call} {rules : List Rule} (hc : StockCalls calls) (h : (new.run calls).bind (fun b => .ok b.build) = .ok rules) :
    ∃ l, (∀ r ∈ l, Stock r) ∧ rules = l ++ if removes false calls then [skipWhitespace] else [] := by
  rw [C119_builder] at h
  cases ho : ordered [] calls with
  | none => rw [ho] at h; cases h
  | some l =>
    rw [ho] at h
    simp only [Res.ok.injEq] at h
    exact ⟨l, ordered_stock (by simp) hc ho, h.symm⟩

/-- C119. Every splitter built of the crate's rules, in any order and any number, that removes white space: the words
have no white space in them and are not empty; together they are the text without its white space and without some of its points; each word splits to
itself; and white space can be put between any words. -/
theorem C119_removing {calls : List Call} {rules : List Rule} (hc : StockCalls calls)
    (h : (new.run calls).bind (fun b => .ok b.build) = .ok rules) (hr : removes false calls = true) (s : Str) :
    (∀ w ∈ split rules s, w ≠ [] ∧ (∀ c ∈ w, isWhitespace c = false) ∧ split rules w = [w]) ∧
    (split rules s).flatten.Sublist (s.filter (fun c => !isWhitespace c)) ∧
    (split rules s).flatten.filter (fun c => c != '.') = s.filter (fun c => !isWhitespace c && c != '.') ∧
    (∀ a sp rest, isWhitespace sp = true → split rules (a ++ sp :: rest) = split rules a ++ split rules rest) := by
  obtain ⟨l, hl, rfl⟩ := stock_built hc h
  rw [if_pos hr]
  have hg : AllGood (l ++ [skipWhitespace]) := by
    intro r hr
    simp only [List.mem_append, List.mem_singleton] at hr
    rcases hr with hr | rfl
    · exact stock_good (hl r hr)
    · exact skipWhitespace_good
  have hs : SkipsWs (l ++ [skipWhitespace]) := skipsWs_of fun r hr c rest hc => stock_ws (hl r hr) hc rest
  have h17 := C17_only_points_lost_partial hg hs s
  refine ⟨fun w hw => ⟨?_, fun c hc => ?_, C18_split_idempotent hg hs s w hw⟩, h17.1, h17.2, fun a sp rest h => split_append_ws hg hs a sp rest h⟩
  · rintro rfl
    have := C18_split_idempotent hg hs s _ hw
    simp at this
  · have h1 : c ∈ (split (l ++ [skipWhitespace]) s).flatten := List.mem_flatten.2 ⟨w, hw, hc⟩
    have := h17.1.subset h1
    simpa using (List.mem_filter.1 this).2

theorem runRules_stock {l : List Rule} (hl : ∀ r ∈ l, Stock r) (c : Char) (rest : Str) (hc : isWhitespace c = true) :
    runRules l c rest = (.data [c], rest) := by
  induction l with
  | nil => rfl
  | cons r l ih =>
    simp only [runRules, stock_ws (hl r (by simp)) hc rest, List.drop_zero]
    exact ih fun r hr => hl r (by simp [hr])

theorem split_keeping {l : List Rule} (hl : ∀ r ∈ l, Stock r) {motive : Str → List Str → Prop}
    (nil : motive [] [])
    (data : ∀ c t rest, motive rest (split l rest) → (∀ x ∈ t, isWhitespace x = false) → (isWhitespace c = true → t = []) →
      motive (c :: (t ++ rest)) ((c :: t) :: split l rest))
    (point : ∀ c t rest, motive rest (split l rest) → (∀ x ∈ t, isWhitespace x = false) → isDigit c = true →
      motive (c :: (t ++ '.' :: rest)) ((c :: t) :: split l rest))
    (s : Str) : motive s (split l s) := by
  have hg : AllGood l := fun r hr => stock_good (hl r hr)
  generalize hn : s.length = n
  induction n using Nat.strongRecOn generalizing s with
  | ind n ih =>
    cases s with
    | nil => exact nil
    | cons c rest =>
      simp only [List.length_cons] at hn
      rw [split_cons]
      cases hr : runRules l c rest with
      | mk o r =>
        have hlen := runRules_length l c rest
        rw [hr] at hlen
        simp only at hlen
        cases o with
        | cont => exact absurd (by rw [hr]) (runRules_ne_cont l c rest)
        | skip =>
          obtain ⟨h1, h2⟩ := runRules_skip hg (c := c) (rest := rest) (by rw [hr])
          rw [runRules_stock hl c rest h1] at hr
          simp at hr
        | data s =>
          obtain ⟨t, h1, h2, h3, h4, h5⟩ := runRules_data hg (c := c) (rest := rest) (s := s) (by rw [hr])
          have hws : isWhitespace c = true → t = [] := by
            intro hw
            rw [runRules_stock hl c rest hw] at hr
            simp only [Prod.mk.injEq, Outcome.data.injEq] at hr
            rw [h1] at hr
            simpa using hr.1.symm
          rw [hr] at h4
          simp only at h4 ⊢
          subst h1
          have ih := ih r.length (by omega) r rfl
          rcases h4 with h4 | ⟨hd, h4, d1, d2, ht, hd1, hd2⟩
          · rw [h4]; exact data c t r ih h5 hws
          · rw [h4]; exact point c t r ih h5 hd

/-- C119. Every splitter built of the crate's rules, in any order and any number, that does not remove white space: the words together
are the text without some of its points, and every white space character is a word of its own. -/
theorem C119_keeping {calls : List Call} {rules : List Rule} (hc : StockCalls calls)
    (h : (new.run calls).bind (fun b => .ok b.build) = .ok rules) (hr : removes false calls = false) (s : Str) :
    (∀ w ∈ split rules s, w ≠ [] ∧ ((∀ c ∈ w, isWhitespace c = false) ∨ ∃ c, w = [c])) ∧
    (split rules s).flatten.Sublist s ∧
    (split rules s).flatten.filter (fun c => c != '.') = s.filter (fun c => c != '.') := by
  obtain ⟨l, hl, rfl⟩ := stock_built hc h
  rw [hr]
  simp only [Bool.false_eq_true, if_false, List.append_nil]
  refine split_keeping hl (motive := fun s ws => (∀ w ∈ ws, w ≠ [] ∧ ((∀ c ∈ w, isWhitespace c = false) ∨ ∃ c, w = [c])) ∧
    ws.flatten.Sublist s ∧ ws.flatten.filter (fun c => c != '.') = s.filter (fun c => c != '.')) (by simp) ?_ ?_ s
  · intro c t rest ⟨i1, i2, i3⟩ ht hw
    refine ⟨?_, ?_, ?_⟩
    · intro w hw'
      simp only [List.mem_cons] at hw'
      rcases hw' with rfl | hw'
      · refine ⟨by simp, ?_⟩
        cases hcw : isWhitespace c with
        | true => exact .inr ⟨c, by rw [hw hcw]⟩
        | false => exact .inl (by simpa using ⟨hcw, ht⟩)
      · exact i1 w hw'
    · simp only [List.flatten_cons, List.cons_append]
      exact ((List.Sublist.refl t).append i2).cons_cons c
    · simp only [List.flatten_cons, List.cons_append, List.filter_cons, List.filter_append, i3]
  · intro c t rest ⟨i1, i2, i3⟩ ht hd
    have hcw : isWhitespace c = false := by
      cases hw : isWhitespace c with
      | false => rfl
      | true => rw [ws_not_digit hw] at hd; cases hd
    refine ⟨?_, ?_, ?_⟩
    · intro w hw'
      simp only [List.mem_cons] at hw'
      rcases hw' with rfl | hw'
      · exact ⟨by simp, .inl (by simpa using ⟨hcw, ht⟩)⟩
      · exact i1 w hw'
    · simp only [List.flatten_cons, List.cons_append]
      exact ((List.Sublist.refl t).append (i2.cons _)).cons_cons c
    · simp only [List.flatten_cons, List.cons_append, List.filter_cons, List.filter_append, i3]
      simp

/-- The first theorem at work: operators before numbers, white space removed although it is said first. -/
example : ∃ rules, (new.run [.whitespace true, .rule splitOperator, .rule splitNumeric]).bind (fun b => .ok b.build) = .ok rules ∧
    split rules ['.', '5', ' ', '.', '2'] = [['.'], ['5'], ['.'], ['2']] := ⟨_, rfl, by decide⟩

/-- C119. Whether a character is an operator character of the rule built by calls of `add_operator` and `except` is decided by the last
of the calls for that character, and without one by whether the builder started with it. -/
theorem C119_operators (b : OperatorsBuilder) (calls : List (Bool × Char)) (c : Char) (rest : Str) :
    ((b.run calls).build c rest).1 = (if lastSays (decide (c ∈ b.operators)) c calls
      then .data (c :: rest.takeWhile fun d => lastSays (decide (d ∈ b.operators)) d calls) else .cont) := by
  have key : ∀ d, (b.run calls).operators.contains d = lastSays (decide (d ∈ b.operators)) d calls := by
    intro d
    induction calls generalizing b with
    | nil => simp [OperatorsBuilder.run, lastSays]
    | cons call calls ih =>
      obtain ⟨add, x⟩ := call
      have : b.run ((add, x) :: calls) = (if add then b.addOperator x else b.except x).run calls := rfl
      rw [this, ih]
      simp only [lastSays]
      cases add with
      | true =>
        simp only [if_true, OperatorsBuilder.addOperator]
        by_cases hx : x = d
        · subst hx
          rw [if_pos rfl]
          congr 1
          split <;> simp [*]
        · rw [if_neg hx]
          congr 1
          split
          · rfl
          · simp [Ne.symm hx]
      | false =>
        simp only [Bool.false_eq_true, if_false, OperatorsBuilder.except]
        by_cases hx : x = d
        · subst hx
          rw [if_pos rfl]
          simp
        · rw [if_neg hx]
          congr 1
          simp [Ne.symm hx]
  simp only [OperatorsBuilder.build, splitWithOperators, spanRule, key]
  split <;> rfl

/-- C119. `SplitWithOperatorsBuilder::empty` starts with no character and `new` with the ASCII punctuation that is no bracket. -/
theorem C119_operators_start (calls : List (Bool × Char)) (c : Char) (rest : Str) :
    ((OperatorsBuilder.empty.run calls).build c rest).1 =
      (if lastSays false c calls then .data (c :: rest.takeWhile fun d => lastSays false d calls) else .cont) ∧
    ((OperatorsBuilder.new.run calls).build c rest).1 =
      (if lastSays (isAsciiPunctuation c && !"()[]{}".toList.contains c) c calls
        then .data (c :: rest.takeWhile fun d => lastSays (isAsciiPunctuation d && !"()[]{}".toList.contains d) d calls) else .cont) := by
  have he : ∀ d, decide (d ∈ OperatorsBuilder.empty.operators) = false := by intro d; simp [OperatorsBuilder.empty]
  have hn : ∀ d, decide (d ∈ OperatorsBuilder.new.operators) = (isAsciiPunctuation d && !"()[]{}".toList.contains d) := by
    intro d
    by_cases h : d.toNat < 128
    · have hall : ∀ n < 128, decide (Char.ofNat n ∈ OperatorsBuilder.new.operators) =
          (isAsciiPunctuation (Char.ofNat n) && !"()[]{}".toList.contains (Char.ofNat n)) := by decide +kernel
      have := hall d.toNat h
      rwa [Char.ofNat_toNat] at this
    · have h1 : isAsciiPunctuation d = false := by simp [isAsciiPunctuation]; omega
      have h2 : ∀ x ∈ OperatorsBuilder.new.operators, x.toNat < 128 := by decide
      rw [h1]
      simp only [Bool.false_and, decide_eq_false_iff_not]
      exact fun hm => h (h2 d hm)
  refine ⟨?_, ?_⟩
  · rw [C119_operators]; simp only [he]
  · rw [C119_operators]; simp only [hn]

/-- The REPL's rule, where `$` is not an operator; and `^` and `-` added to none. -/
example : ((OperatorsBuilder.new.run [(false, '$')]).build '$' ['+']).1 = .cont ∧
    ((OperatorsBuilder.empty.run [(true, '^'), (true, '-')]).build '^' ['-', '+']).1 = .data ['^', '-'] := by decide

/-- C119. White space is not just spacing unless it is removed: with the same context `2 * 3` is 6 with both splitters, but `2 * -3` is
−6 with the default splitter and an error with one that keeps white space, because the sign follows a space and not an operator; and white
space other than a space is an error. -/
theorem C119_keeping_counterexample :
    (∀ remove, eval Demo.parse (split (splitterNew remove)) (Demo.ctx false false) ['2', ' ', '*', ' ', '3'] = .ok 6) ∧
    eval Demo.parse (split (splitterNew true)) (Demo.ctx false false) ['2', ' ', '*', ' ', '-', '3'] = .ok (-6) ∧
    eval Demo.parse (split (splitterNew false)) (Demo.ctx false false) ['2', ' ', '*', ' ', '-', '3'] = .err .invalidExpression ∧
    eval Demo.parse (split (splitterNew false)) (Demo.ctx false false) ['2', '\t', '*', '3'] ≠ .ok 6 := by
  refine ⟨fun r => by cases r <;> decide +kernel, by decide +kernel, by decide +kernel, by decide +kernel⟩

end Prexel
