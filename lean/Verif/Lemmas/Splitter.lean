import Verif.Model.Splitter
/-!
# Lemmas about the splitter
-/

set_option linter.unusedVariables false
set_option linter.unusedSimpArgs false

namespace Prexel

/-! ## Well-behaved rules -/

/-- The rule stops at white space, does not look beyond it, and skips or takes only what it looked at. -/
structure Rule.Good (r : Rule) : Prop where
  stops : ∀ c a sp rest, isWhitespace sp = true → r c (a ++ sp :: rest) = r c a
  bound : ∀ c a, (r c a).2 ≤ a.length
  data : ∀ c a s n, r c a = (.data s, n) → ∃ t, s = c :: t ∧ t <+: a ∧ r c t = (.data s, t.length) ∧
    (a.drop n = a.drop t.length ∨ (isDigit c = true ∧ a.drop t.length = '.' :: a.drop n ∧
      ∃ d1 d2, t = d1 ++ '.' :: d2 ∧ d1.all isDigit = true ∧ d2.all isDigit = true)) ∧ ∀ x ∈ t, isWhitespace x = false
  cont : ∀ c a n, r c a = (.cont, n) → n = 0 ∧ ∀ t, t <+: a → r c t = (.cont, 0)
  skip : ∀ c a n, r c a = (.skip, n) → n = 0 ∧ isWhitespace c = true

/-- White space characters are skipped. -/
def SkipsWs (rules : List Rule) : Prop := ∀ sp rest, isWhitespace sp = true → runRules rules sp rest = (.skip, rest)

theorem takeWhile_append_stop {p : Char → Bool} (a : Str) (sp : Char) (rest : Str) (h : p sp = false) :
    (a ++ sp :: rest).takeWhile p = a.takeWhile p := by
  induction a with
  | nil => simp [List.takeWhile_cons, h]
  | cons c a ih => simp only [List.cons_append, List.takeWhile_cons, ih]

theorem takeWhile_takeWhile_self (p : Char → Bool) (a : Str) : (a.takeWhile p).takeWhile p = a.takeWhile p := by
  induction a with
  | nil => rfl
  | cons c a ih =>
    simp only [List.takeWhile_cons]
    split
    · simp [List.takeWhile_cons, *]
    · rfl

theorem spanRule_good {start valid : Char → Bool} (hv : ∀ c, isWhitespace c = true → valid c = false) :
    (spanRule start valid).Good where
  stops c a sp rest h := by simp only [spanRule, takeWhile_append_stop a sp rest (hv sp h)]
  bound c a := by
    simp only [spanRule]
    split
    · exact (List.takeWhile_prefix valid).length_le
    · simp
  data c a s n h := by
    simp only [spanRule] at h ⊢
    split at h
    · rename_i hs
      simp only [Prod.mk.injEq, Outcome.data.injEq] at h
      refine ⟨a.takeWhile valid, h.1.symm, List.takeWhile_prefix _, ?_, .inl (by rw [h.2]), ?_⟩
      · rw [if_pos hs, takeWhile_takeWhile_self, h.1]
      · intro x hx
        have := List.all_takeWhile (l := a) (p := valid)
        rw [List.all_eq_true] at this
        have hx := this x hx
        cases hw : isWhitespace x with
        | false => rfl
        | true => rw [hv x hw] at hx; cases hx
    · simp at h
  cont c a n h := by
    simp only [spanRule] at h ⊢
    split at h
    · simp at h
    · rename_i hs
      simp only [Prod.mk.injEq, true_and] at h
      exact ⟨h.symm, fun t _ => by rw [if_neg hs]⟩
  skip c a n h := by
    simp only [spanRule] at h
    split at h <;> simp at h

theorem ws_not_digit {c : Char} (h : isWhitespace c = true) : isDigit c = false := by
  simp only [isWhitespace, isDigit, Bool.or_eq_true, Bool.and_eq_true, decide_eq_true_eq, beq_iff_eq, Bool.and_eq_false_iff,
    decide_eq_false_iff_not, Char.le_def, UInt32.le_iff_toNat_le, Char.toNat] at h ⊢
  have e1 : ('0' : Char).val.toNat = 48 := rfl
  have e2 : ('9' : Char).val.toNat = 57 := rfl
  rw [e1, e2]
  omega

theorem ws_not_letter {c : Char} (h : isWhitespace c = true) : isLetter c = false := by
  simp only [isWhitespace, isLetter, Bool.or_eq_true, Bool.and_eq_true, decide_eq_true_eq, beq_iff_eq, Bool.and_eq_false_iff,
    Bool.or_eq_false_iff, decide_eq_false_iff_not, Char.le_def, UInt32.le_iff_toNat_le, Char.toNat] at h ⊢
  have e1 : ('a' : Char).val.toNat = 97 := rfl
  have e2 : ('z' : Char).val.toNat = 122 := rfl
  have e3 : ('A' : Char).val.toNat = 65 := rfl
  have e4 : ('Z' : Char).val.toNat = 90 := rfl
  rw [e1, e2, e3, e4]
  omega

theorem ws_ne {c d : Char} (h : isWhitespace c = true) (hd : isWhitespace d = false) : c ≠ d := by
  rintro rfl; rw [h] at hd; cases hd

theorem operatorChars_not_ws : ∀ c ∈ operatorChars, isWhitespace c = false := by decide

theorem splitIdentifier_good : splitIdentifier.Good :=
  spanRule_good fun c h => by
    simp [ws_not_letter h, ws_not_digit h]
    exact ws_ne h (by decide)

theorem splitRepl_good : splitRepl.Good :=
  spanRule_good fun c h => by
    simp [ws_not_letter h, ws_not_digit h]
    exact ws_ne h (by decide)

theorem splitWithOperators_good {ops : List Char} (h : ∀ c ∈ ops, isWhitespace c = false) : (splitWithOperators ops).Good :=
  spanRule_good fun c hc => by
    simp only [List.contains_eq_mem, decide_eq_false_iff_not]
    intro hm
    rw [h c hm] at hc
    cases hc

theorem splitOperator_good : splitOperator.Good := splitWithOperators_good operatorChars_not_ws

theorem skipWhitespace_good : skipWhitespace.Good where
  stops c a sp rest h := rfl
  bound c a := by simp only [skipWhitespace]; split <;> simp
  data c a s n h := by simp only [skipWhitespace] at h; split at h <;> simp at h
  cont c a n h := by
    simp only [skipWhitespace] at h ⊢
    split at h
    · simp at h
    · rename_i hc
      simp only [Prod.mk.injEq, true_and] at h
      exact ⟨h.symm, fun t _ => by rw [if_neg hc]⟩
  skip c a n h := by
    simp only [skipWhitespace] at h
    split at h
    · rename_i hc
      simp only [Prod.mk.injEq, true_and] at h
      exact ⟨h.symm, hc⟩
    · simp at h

theorem numericLoop_bound (b : Bool) (a : Str) : (numericLoop b a).2 ≤ a.length := by
  induction a generalizing b with
  | nil => simp [numericLoop]
  | cons c a ih =>
    have h1 := ih b
    have h2 := ih true
    simp only [numericLoop]
    split
    · simpa using h1
    · split
      · split
        · simp
        · simpa using h2
      · simp

theorem numericLoop_stops (b : Bool) (a : Str) (sp : Char) (rest : Str) (h : isWhitespace sp = true) :
    numericLoop b (a ++ sp :: rest) = numericLoop b a := by
  induction a generalizing b with
  | nil =>
    have h2 : (sp == '.') = false := by simpa using ws_ne h (by decide)
    simp [numericLoop, ws_not_digit h, h2]
  | cons c a ih => simp only [List.cons_append, numericLoop, ih]

theorem numericLoop_self (b : Bool) (a : Str) : numericLoop b (numericLoop b a).1 = ((numericLoop b a).1, (numericLoop b a).1.length) := by
  induction a generalizing b with
  | nil => simp [numericLoop]
  | cons c a ih =>
    simp only [numericLoop]
    split
    · rename_i hd
      simp [numericLoop, hd, ih]
    · rename_i hd
      split
      · rename_i hp
        split
        · simp [numericLoop]
        · rename_i hb
          simp [numericLoop, hd, hp, hb, ih]
      · simp [numericLoop]

theorem numericLoop_prefix (b : Bool) (a : Str) : (numericLoop b a).1 <+: a := by
  induction a generalizing b with
  | nil => simp [numericLoop]
  | cons c a ih =>
    simp only [numericLoop]
    split
    · exact List.cons_prefix_cons.2 ⟨rfl, ih b⟩
    · split
      · split
        · exact List.nil_prefix
        · exact List.cons_prefix_cons.2 ⟨rfl, ih true⟩
      · exact List.nil_prefix

theorem numericLoop_not_ws (b : Bool) (a : Str) : ∀ x ∈ (numericLoop b a).1, isWhitespace x = false := by
  induction a generalizing b with
  | nil => simp [numericLoop]
  | cons c a ih =>
    have key : isDigit c = true ∨ c = '.' → isWhitespace c = false := by
      intro h
      cases hw : isWhitespace c with
      | false => rfl
      | true =>
        rcases h with h | h
        · rw [ws_not_digit hw] at h; cases h
        · subst h; revert hw; decide
    simp only [numericLoop]
    split
    · rename_i hd
      intro x hx
      simp only [List.mem_cons] at hx
      rcases hx with rfl | hx
      · exact key (.inl hd)
      · exact ih b x hx
    · split
      · rename_i hp
        split
        · simp
        · intro x hx
          simp only [List.mem_cons] at hx
          rcases hx with rfl | hx
          · exact key (.inr (by simpa using hp))
          · exact ih true x hx
      · simp

/-- What the numeric loop drops: nothing, or one point after digits, a point, and digits. -/
theorem numericLoop_drop (b : Bool) (a : Str) :
    a.drop (numericLoop b a).2 = a.drop (numericLoop b a).1.length ∨
    (a.drop (numericLoop b a).1.length = '.' :: a.drop (numericLoop b a).2 ∧
      if b then (numericLoop b a).1.all isDigit = true
      else ∃ d1 d2, (numericLoop b a).1 = d1 ++ '.' :: d2 ∧ d1.all isDigit = true ∧ d2.all isDigit = true) := by
  induction a generalizing b with
  | nil => simp [numericLoop]
  | cons c a ih =>
    simp only [numericLoop]
    split
    · rename_i hd
      rcases ih b with h | ⟨h, h'⟩
      · left; simpa using h
      · right
        refine ⟨by simpa using h, ?_⟩
        cases b with
        | true => simpa [hd] using h'
        | false =>
          simp only [Bool.false_eq_true, if_false] at h' ⊢
          obtain ⟨d1, d2, e, h1, h2⟩ := h'
          exact ⟨c :: d1, d2, by simp [e], by simp [hd, h1], h2⟩
    · split
      · rename_i hp
        have hc : c = '.' := by simpa using hp
        subst hc
        cases b with
        | true => right; simp
        | false =>
          simp only [Bool.false_eq_true, if_false]
          rcases ih true with h | ⟨h, h'⟩
          · left; simpa using h
          · right
            refine ⟨by simpa using h, ?_⟩
            simp only [if_true] at h'
            exact ⟨[], _, rfl, by simp, h'⟩
      · left; simp

theorem splitNumeric_good : splitNumeric.Good where
  stops c a sp rest h := by simp only [splitNumeric, numericLoop_stops false a sp rest h]
  bound c a := by
    simp only [splitNumeric]
    split
    · exact numericLoop_bound _ _
    · simp
  data c a s n h := by
    simp only [splitNumeric] at h ⊢
    split at h
    · rename_i hs
      simp only [Prod.mk.injEq, Outcome.data.injEq] at h
      refine ⟨(numericLoop false a).1, h.1.symm, numericLoop_prefix _ _, ?_, ?_, numericLoop_not_ws _ _⟩
      · rw [if_pos hs, numericLoop_self, h.1]
      · rw [← h.2]
        rcases numericLoop_drop false a with h | ⟨h, h'⟩
        · exact .inl h
        · exact .inr ⟨hs, h, by simpa using h'⟩
    · simp at h
  cont c a n h := by
    simp only [splitNumeric] at h ⊢
    split at h
    · simp at h
    · rename_i hs
      simp only [Prod.mk.injEq, true_and] at h
      exact ⟨h.symm, fun t _ => by rw [if_neg hs]⟩
  skip c a n h := by
    simp only [splitNumeric] at h
    split at h <;> simp at h

theorem splitBinary_good : splitBinary.Good where
  stops c a sp rest h := by
    have h1 : sp ≠ '1' := ws_ne h (by decide)
    have h0 : sp ≠ '0' := ws_ne h (by decide)
    simp only [splitBinary, takeWhile_append_stop a sp rest (ws_not_digit h)]
    cases a with
    | nil => simp [h1, h0]
    | cons x a => simp
  bound c a := by
    simp only [splitBinary]
    split
    · exact (List.takeWhile_prefix _).length_le
    · simp
  data c a s n h := by
    simp only [splitBinary] at h ⊢
    split at h
    · rename_i hs
      simp only [Prod.mk.injEq, Outcome.data.injEq] at h
      refine ⟨a.takeWhile isDigit, h.1.symm, List.takeWhile_prefix _, ?_, .inl (by rw [h.2]), fun x hx => ?_⟩
      case refine_2 =>
        have := List.all_takeWhile (l := a) (p := isDigit)
        rw [List.all_eq_true] at this
        have hx := this x hx
        cases hw : isWhitespace x with
        | false => rfl
        | true => rw [ws_not_digit hw] at hx; cases hx
      have hh : (a.takeWhile isDigit).head? = a.head? := by
        cases a with
        | nil => rfl
        | cons x a =>
          simp only [Bool.and_eq_true, beq_iff_eq, List.head?_cons, Option.some.injEq, Bool.or_eq_true] at hs
          have : isDigit x = true := by rcases hs.2 with h | h <;> subst h <;> decide
          simp [List.takeWhile_cons, this]
      rw [hh, if_pos hs, takeWhile_takeWhile_self, h.1]
    · simp at h
  cont c a n h := by
    simp only [splitBinary] at h ⊢
    split at h
    · simp at h
    · rename_i hs
      simp only [Prod.mk.injEq, true_and] at h
      refine ⟨h.symm, fun t ht => ?_⟩
      rw [if_neg]
      intro h'
      apply hs
      cases t with
      | nil => simp at h'
      | cons x t =>
        obtain ⟨u, rfl⟩ := ht
        simpa using h'
  skip c a n h := by
    simp only [splitBinary] at h
    split at h <;> simp at h

def AllGood (rules : List Rule) : Prop := ∀ r ∈ rules, Rule.Good r

theorem defaultRules_good : AllGood defaultRules := by
  intro r hr
  simp only [defaultRules, splitterNew, if_true, List.cons_append, List.nil_append, List.mem_cons, List.not_mem_nil, or_false] at hr
  rcases hr with rfl | rfl | rfl | rfl
  · exact splitNumeric_good
  · exact splitIdentifier_good
  · exact splitOperator_good
  · exact skipWhitespace_good

theorem binaryRules_good : AllGood binaryRules := by
  intro r hr
  simp only [binaryRules, List.mem_cons, List.not_mem_nil, or_false] at hr
  rcases hr with rfl | rfl | rfl | rfl | rfl
  · exact splitBinary_good
  · exact splitNumeric_good
  · exact splitIdentifier_good
  · exact splitOperator_good
  · exact skipWhitespace_good

theorem replRules_good (b : Bool) : AllGood (replRules b) := by
  intro r hr
  have hop : (splitWithOperators (operatorChars.filter (· != '$'))).Good :=
    splitWithOperators_good fun c hc => operatorChars_not_ws c (List.mem_filter.1 hc).1
  simp only [replRules, List.mem_append, List.mem_cons, List.not_mem_nil, or_false] at hr
  rcases hr with hr | rfl | rfl | rfl | rfl | rfl
  · cases b <;> simp at hr
    subst hr; exact splitBinary_good
  · exact splitRepl_good
  · exact splitNumeric_good
  · exact splitIdentifier_good
  · exact hop
  · exact skipWhitespace_good

/-- Rules that ignore white space characters, followed by `SkipWhitespace`. -/
theorem skipsWs_of {rules : List Rule} (h : ∀ r ∈ rules, ∀ c rest, isWhitespace c = true → r c rest = (.cont, 0)) :
    SkipsWs (rules ++ [skipWhitespace]) := by
  intro sp rest hsp
  induction rules with
  | nil => simp [runRules, skipWhitespace, hsp]
  | cons r rules ih =>
    simp only [List.cons_append, runRules, h r (by simp) sp rest hsp]
    exact ih (fun r hr => h r (by simp [hr]))

theorem spanRule_ws {start valid : Char → Bool} {c : Char} (h : start c = false) (rest : Str) : spanRule start valid c rest = (.cont, 0) := by
  simp [spanRule, h]

theorem splitIdentifier_ws {c : Char} (h : isWhitespace c = true) (rest : Str) : splitIdentifier c rest = (.cont, 0) :=
  spanRule_ws (by simp [ws_not_letter h]; exact ws_ne h (by decide)) rest
theorem splitNumeric_ws {c : Char} (h : isWhitespace c = true) (rest : Str) : splitNumeric c rest = (.cont, 0) := by
  simp [splitNumeric, ws_not_digit h]
theorem splitWithOperators_ws {ops : List Char} (ho : ∀ c ∈ ops, isWhitespace c = false) {c : Char} (h : isWhitespace c = true) (rest : Str) :
    splitWithOperators ops c rest = (.cont, 0) :=
  spanRule_ws (by
    simp only [List.contains_eq_mem, decide_eq_false_iff_not]
    intro hm
    rw [ho c hm] at h
    cases h) rest
theorem splitBinary_ws {c : Char} (h : isWhitespace c = true) (rest : Str) : splitBinary c rest = (.cont, 0) := by
  have : (c == 'b') = false := by simpa using ws_ne h (by decide)
  simp [splitBinary, this]
theorem splitRepl_ws {c : Char} (h : isWhitespace c = true) (rest : Str) : splitRepl c rest = (.cont, 0) :=
  spanRule_ws (by simpa using ws_ne h (by decide)) rest

theorem defaultRules_skips : SkipsWs defaultRules := by
  apply skipsWs_of (rules := [splitNumeric, splitIdentifier, splitOperator])
  intro r hr c rest h
  simp only [List.mem_cons, List.not_mem_nil, or_false] at hr
  rcases hr with rfl | rfl | rfl
  · exact splitNumeric_ws h rest
  · exact splitIdentifier_ws h rest
  · exact splitWithOperators_ws operatorChars_not_ws h rest

theorem binaryRules_skips : SkipsWs binaryRules := by
  apply skipsWs_of (rules := [splitBinary, splitNumeric, splitIdentifier, splitOperator])
  intro r hr c rest h
  simp only [List.mem_cons, List.not_mem_nil, or_false] at hr
  rcases hr with rfl | rfl | rfl | rfl
  · exact splitBinary_ws h rest
  · exact splitNumeric_ws h rest
  · exact splitIdentifier_ws h rest
  · exact splitWithOperators_ws operatorChars_not_ws h rest

theorem replRules_skips (b : Bool) : SkipsWs (replRules b) := by
  have hop : ∀ c ∈ operatorChars.filter (· != '$'), isWhitespace c = false :=
    fun c hc => operatorChars_not_ws c (List.mem_filter.1 hc).1
  have e : replRules b = ((if b then [splitBinary] else []) ++ [splitRepl, splitNumeric, splitIdentifier,
      splitWithOperators (operatorChars.filter (· != '$'))]) ++ [skipWhitespace] := by simp [replRules]
  rw [e]
  apply skipsWs_of
  intro r hr c rest h
  simp only [List.mem_append, List.mem_cons, List.not_mem_nil, or_false] at hr
  rcases hr with hr | rfl | rfl | rfl | rfl
  · cases b <;> simp at hr
    subst hr; exact splitBinary_ws h rest
  · exact splitRepl_ws h rest
  · exact splitNumeric_ws h rest
  · exact splitIdentifier_ws h rest
  · exact splitWithOperators_ws hop h rest

/-! ## The loop -/

theorem runRules_length (rules : List Rule) (c : Char) (rest : Str) : (runRules rules c rest).2.length ≤ rest.length := by
  induction rules generalizing rest with
  | nil => simp [runRules]
  | cons r rules ih =>
    simp only [runRules]
    split
    · simp
    · simp
    · exact Nat.le_trans (ih _) (by simp)

theorem splitLoop_fuel (rules : List Rule) (n : Nat) : ∀ (m : Nat) (s : Str), s.length ≤ n → s.length ≤ m →
    splitLoop rules n s = splitLoop rules m s := by
  induction n with
  | zero =>
    intro m s h _
    have : s = [] := by simpa using h
    subst this
    cases m <;> rfl
  | succ n ih =>
    intro m s h h'
    cases s with
    | nil => cases m <;> rfl
    | cons c rest =>
      cases m with
      | zero => simp at h'
      | succ m =>
        have hl := runRules_length rules c rest
        simp only [List.length_cons] at h h'
        simp only [splitLoop]
        cases hr : runRules rules c rest with
        | mk o r =>
          rw [hr] at hl
          simp only at hl
          have := ih m r (by omega) (by omega)
          cases o <;> simp [this]

/-- The natural equation of the loop; in particular the fuel is never exhausted. -/
theorem split_cons (rules : List Rule) (c : Char) (rest : Str) :
    split rules (c :: rest) =
      match runRules rules c rest with
      | (.data s, rest') => s :: split rules rest'
      | (_, rest') => split rules rest' := by
  have hl := runRules_length rules c rest
  simp only [split, List.length_cons, splitLoop]
  cases hr : runRules rules c rest with
  | mk o r =>
    rw [hr] at hl
    simp only at hl
    have := splitLoop_fuel rules rest.length r.length r hl (by omega)
    cases o <;> simp [this]

@[simp] theorem split_nil (rules : List Rule) : split rules [] = [] := rfl

theorem runRules_stops {rules : List Rule} (hg : AllGood rules) (c : Char) (a : Str) (sp : Char) (rest : Str)
    (h : isWhitespace sp = true) :
    runRules rules c (a ++ sp :: rest) = ((runRules rules c a).1, (runRules rules c a).2 ++ sp :: rest) := by
  induction rules generalizing a with
  | nil => simp [runRules]
  | cons r rules ih =>
    have hr := hg r (by simp)
    have hb := hr.bound c a
    simp only [runRules, hr.stops c a sp rest h]
    cases ho : r c a with
    | mk o n =>
      rw [ho] at hb
      simp only at hb
      cases o with
      | data s => simp [List.drop_append_of_le_length hb]
      | skip => simp [List.drop_append_of_le_length hb]
      | cont =>
        simp only
        rw [List.drop_append_of_le_length hb]
        exact ih (fun r hr => hg r (by simp [hr])) _

theorem split_append_ws {rules : List Rule} (hg : AllGood rules) (hs : SkipsWs rules) (a : Str) (sp : Char) (rest : Str)
    (h : isWhitespace sp = true) : split rules (a ++ sp :: rest) = split rules a ++ split rules rest := by
  generalize hn : a.length = n
  induction n using Nat.strongRecOn generalizing a with
  | ind n ih =>
    cases a with
    | nil => simp [split_cons, hs sp rest h]
    | cons c a =>
      rw [List.cons_append, split_cons, split_cons, runRules_stops hg c a sp rest h]
      have hl := runRules_length rules c a
      simp only [List.length_cons] at hn
      cases hr : runRules rules c a with
      | mk o r =>
        rw [hr] at hl
        simp only at hl
        have := ih r.length (by omega) r rfl
        cases o <;> simp [this]

/-- The outcome of the rules is never `cont`, and skips are white space. -/
theorem runRules_ne_cont (rules : List Rule) (c : Char) (rest : Str) : (runRules rules c rest).1 ≠ .cont := by
  induction rules generalizing rest with
  | nil => simp [runRules]
  | cons r rules ih => simp only [runRules]; split <;> simp [ih]

theorem runRules_skip {rules : List Rule} (hg : AllGood rules) {c : Char} {rest : Str} (h : (runRules rules c rest).1 = .skip) :
    isWhitespace c = true ∧ (runRules rules c rest).2 = rest := by
  induction rules generalizing rest with
  | nil => simp [runRules] at h
  | cons r rules ih =>
    have hr := hg r (by simp)
    simp only [runRules] at h ⊢
    cases ho : r c rest with
    | mk o n =>
      cases o with
      | data s => simp [ho] at h
      | skip => obtain ⟨rfl, h2⟩ := hr.skip c rest n ho; simp [h2]
      | cont =>
        simp only [ho] at h
        obtain ⟨rfl, _⟩ := hr.cont c rest n ho
        simpa using ih (fun r hr => hg r (by simp [hr])) (by simpa using h)

theorem runRules_data {rules : List Rule} (hg : AllGood rules) {c : Char} {rest s : Str} (h : (runRules rules c rest).1 = .data s) :
    ∃ t, s = c :: t ∧ t <+: rest ∧ runRules rules c t = (.data s, []) ∧
      (rest = t ++ (runRules rules c rest).2 ∨ (isDigit c = true ∧ rest = t ++ '.' :: (runRules rules c rest).2 ∧
        ∃ d1 d2, t = d1 ++ '.' :: d2 ∧ d1.all isDigit = true ∧ d2.all isDigit = true)) ∧ ∀ x ∈ t, isWhitespace x = false := by
  induction rules generalizing rest with
  | nil =>
    simp [runRules] at h
    subst h
    exact ⟨[], rfl, List.nil_prefix, rfl, .inl rfl, by simp⟩
  | cons r rules ih =>
    have hr := hg r (by simp)
    simp only [runRules] at h ⊢
    cases ho : r c rest with
    | mk o n =>
      cases o with
      | data s' =>
        simp [ho] at h
        subst h
        obtain ⟨t, h1, hp, h2, h3, h4⟩ := hr.data c rest s' n ho
        refine ⟨t, h1, hp, by simp [h2], ?_, h4⟩
        obtain ⟨u, rfl⟩ := hp
        simp only [List.drop_left] at h3 ⊢
        rcases h3 with h3 | ⟨ha, hb, hc⟩
        · exact .inl (by rw [h3])
        · exact .inr ⟨ha, by conv => lhs; rw [hb], hc⟩
      | skip => simp [ho] at h
      | cont =>
        obtain ⟨rfl, h2⟩ := hr.cont c rest n ho
        simp only [ho, List.drop_zero] at h ⊢
        obtain ⟨t, h3, hp, h4, h5, h6⟩ := ih (fun r hr => hg r (by simp [hr])) h
        exact ⟨t, h3, hp, by simpa [h2 t hp] using h4, h5, h6⟩

/-- Induction principle for `split`: the empty input, a skipped white space, a token. -/
theorem split_induction {rules : List Rule} (hg : AllGood rules) (hs : SkipsWs rules) {motive : Str → List Str → Prop}
    (nil : motive [] [])
    (ws : ∀ c rest, isWhitespace c = true → motive rest (split rules rest) → motive (c :: rest) (split rules rest))
    (data : ∀ c t rest, isWhitespace c = false → (∀ x ∈ t, isWhitespace x = false) → runRules rules c t = (.data (c :: t), []) →
      motive rest (split rules rest) → motive (c :: (t ++ rest)) ((c :: t) :: split rules rest))
    (point : ∀ c d1 d2 rest, isDigit c = true → d1.all isDigit = true → d2.all isDigit = true →
      runRules rules c (d1 ++ '.' :: d2) = (.data (c :: (d1 ++ '.' :: d2)), []) →
      motive rest (split rules rest) → motive (c :: ((d1 ++ '.' :: d2) ++ '.' :: rest)) ((c :: (d1 ++ '.' :: d2)) :: split rules rest))
    (s : Str) : motive s (split rules s) := by
  generalize hn : s.length = n
  induction n using Nat.strongRecOn generalizing s with
  | ind n ih =>
    cases s with
    | nil => exact nil
    | cons c rest =>
      simp only [List.length_cons] at hn
      rw [split_cons]
      cases hr : runRules rules c rest with
      | mk o r =>
        have hl := runRules_length rules c rest
        rw [hr] at hl
        simp only at hl
        cases o with
        | cont => exact absurd (by rw [hr]) (runRules_ne_cont rules c rest)
        | skip =>
          obtain ⟨h1, h2⟩ := runRules_skip hg (c := c) (rest := rest) (by rw [hr])
          rw [hr] at h2
          simp only at h2
          subst h2
          exact ws c r h1 (ih r.length (by omega) r rfl)
        | data s =>
          have hws : isWhitespace c = false := by
            cases hw : isWhitespace c with
            | false => rfl
            | true => rw [hs c rest hw] at hr; simp at hr
          obtain ⟨t, h1, h2, h3, h4, h5⟩ := runRules_data hg (c := c) (rest := rest) (s := s) (by rw [hr])
          rw [hr] at h4
          simp only at h4 ⊢
          subst h1
          have ih := ih r.length (by omega) r rfl
          rcases h4 with h4 | ⟨hd, h4, d1, d2, ht, hd1, hd2⟩
          · rw [h4]; exact data c t r hws h5 h3 ih
          · subst ht
            rw [h4]
            exact point c d1 d2 r hd hd1 hd2 h3 ih

end Prexel
