import Verif.Spec.Munch
import Verif.Props.Tokenizer
import Verif.Lemmas.Numerals

/-!
# Where words end (C115)
-/
namespace Prexel
open Demo (ctx)
variable {N : Type}

theorem takeWhile_stop {p : Char → Bool} (t s : Str) (ht : ∀ x ∈ t, p x = true) (hs : ∀ c ∈ s.head?, p c = false) : (t ++ s).takeWhile p = t := by
  induction t with
  | nil =>
    cases s with
    | nil => rfl
    | cons c s => rw [List.nil_append, List.takeWhile_cons, hs c (by simp)]; rfl
  | cons c t ih => rw [List.cons_append, List.takeWhile_cons, ht c (by simp), if_pos rfl, ih fun x hx => ht x (by simp [hx])]

theorem numericLoop_stop' (b : Bool) (t s : Str) (ht : t.all isDigit = true) (hs : ∀ c ∈ s.head?, isDigit c = false ∧ c ≠ '.') :
    numericLoop b (t ++ s) = (t, t.length) := by
  induction t with
  | nil =>
    cases s with
    | nil => rfl
    | cons c s => have := hs c (by simp); simp [numericLoop, this.1, this.2]
  | cons c t ih =>
    simp only [List.all_cons, Bool.and_eq_true] at ht
    simp [numericLoop, ht.1, ih ht.2]

theorem numericLoop_decimal' (t t' s : Str) (ht : t.all isDigit = true) (ht' : t'.all isDigit = true) (hs : ∀ c ∈ s.head?, isDigit c = false ∧ c ≠ '.') :
    numericLoop false (t ++ '.' :: (t' ++ s)) = (t ++ '.' :: t', (t ++ '.' :: t').length) := by
  induction t with
  | nil => simp [numericLoop, isDigit, numericLoop_stop' true t' s ht' hs]
  | cons c t ih =>
    simp only [List.all_cons, Bool.and_eq_true] at ht
    simp only [List.cons_append, numericLoop, ht.1, if_true, ih ht.2, List.length_cons]

theorem run_number (c : Char) (rest : Str) (h : isDigit c = true) :
    runRules defaultRules c rest = (.data (c :: (numericLoop false rest).1), rest.drop (numericLoop false rest).2) :=
  defaultRules_plain.digit c rest h

theorem run_ident (c : Char) (rest : Str) (h : isLetter c = true ∨ c = '_') :
    runRules defaultRules c rest = (.data (c :: rest.takeWhile fun x => isLetter x || isDigit x || x == '_'),
      rest.drop (rest.takeWhile fun x => isLetter x || isDigit x || x == '_').length) := by
  rcases h with h | rfl
  · exact defaultRules_plain.letter c rest h
  · have h1 : isDigit '_' = false := by decide
    simp [defaultRules, splitterNew, runRules, splitNumeric, splitIdentifier, spanRule, h1]

theorem operator_not_digit {c : Char} (h : c ∈ operatorChars) : isDigit c = false ∧ isLetter c = false := by
  revert c
  decide

theorem run_operator (c : Char) (rest : Str) (h : c ∈ operatorChars) (hc : c ≠ '_') :
    runRules defaultRules c rest = (.data (c :: rest.takeWhile fun x => operatorChars.contains x),
      rest.drop (rest.takeWhile fun x => operatorChars.contains x).length) := by
  obtain ⟨h1, h2⟩ := operator_not_digit h
  have h3 : operatorChars.contains c = true := by simpa using h
  simp only [defaultRules, splitterNew, runRules, splitNumeric, splitIdentifier, splitOperator, splitWithOperators, spanRule, h1, h2, h3, hc, if_true,
    List.cons_append, List.nil_append, Bool.false_eq_true, if_false, Bool.false_or, beq_iff_eq, List.drop_zero]

theorem run_other (c : Char) (rest : Str) (hw : isWhitespace c = false) (hd : isDigit c = false) (hl : isLetter c = false) (ho : c ∉ operatorChars) :
    runRules defaultRules c rest = (.data [c], rest) := by
  have h3 : operatorChars.contains c = false := by simpa using ho
  have hc : c ≠ '_' := by rintro rfl; exact ho (by decide)
  simp only [defaultRules, splitterNew, runRules, splitNumeric, splitIdentifier, splitOperator, splitWithOperators, spanRule, hd, hl, h3, hc, if_true,
    List.cons_append, List.nil_append, Bool.false_eq_true, if_false, Bool.false_or, beq_iff_eq, List.drop_zero, skipWhitespace, hw]

/-- A word is split from what follows it if the next character does not continue it. -/
theorem split_word {w s : Str} (hw : Shape w) (hs : ∀ c ∈ s.head?, ¬ Continues w c) : split defaultRules (w ++ s) = w :: split defaultRules s := by
  cases hw with
  | integer c t hc h =>
    have hs' : ∀ x ∈ s.head?, isDigit x = false ∧ x ≠ '.' := fun x hx => by
      have := hs x hx; simp only [Continues, hc, if_true, not_or] at this; exact ⟨by simpa using this.1, this.2⟩
    rw [List.cons_append, split_cons, run_number c _ hc, numericLoop_stop' false t s h hs']
    simp
  | decimal c t t' hc h h' =>
    have hs' : ∀ x ∈ s.head?, isDigit x = false ∧ x ≠ '.' := fun x hx => by
      have := hs x hx; simp only [Continues, hc, if_true, not_or] at this; exact ⟨by simpa using this.1, this.2⟩
    rw [List.cons_append, split_cons, run_number c _ hc, List.append_assoc, List.cons_append, numericLoop_decimal' t t' s h h' hs']
    simp
  | ident c t hc h =>
    have hd : isDigit c = false := by
      rcases hc with hc | rfl
      · exact (letter_not_digit hc).1
      · decide
    have hs' : ∀ x ∈ s.head?, (isLetter x || isDigit x || x == '_') = false := fun x hx => by
      have := hs x hx
      simp only [Continues, hd, Bool.false_eq_true, if_false, if_pos hc, not_or] at this
      simp [this.1, this.2.1, this.2.2]
    rw [List.cons_append, split_cons, run_ident c _ hc, takeWhile_stop t s (fun x hx => by rcases h x hx with h | h | h <;> simp [h]) hs']
    simp
  | operator c t hc h =>
    have ho := h c (by simp)
    obtain ⟨h1, h2⟩ := operator_not_digit ho
    have hs' : ∀ x ∈ s.head?, operatorChars.contains x = false := fun x hx => by
      have := hs x hx
      simp only [Continues, h1, Bool.false_eq_true, if_false, h2, hc, or_self, ho, true_and] at this
      simpa using this
    rw [List.cons_append, split_cons, run_operator c _ ho hc, takeWhile_stop t s (fun x hx => by simpa using h x (by simp [hx])) hs']
    simp
  | other c hw hd hl ho =>
    rw [List.cons_append, split_cons, run_other c _ hw hd hl ho]
    rfl

theorem split_pre {pre s : Str} (h : Blank pre) : split defaultRules (pre ++ s) = split defaultRules s := by
  induction pre with
  | nil => rfl
  | cons c pre ih =>
    rw [List.cons_append, split_cons, defaultRules_skips c _ (h c (by simp))]
    exact ih fun x hx => h x (by simp [hx])

/-- C115. A text that consists of words, each as long as it can be, is split into exactly these words. -/
theorem C115_words {ws : List Str} {s : Str} (h : Written ws s) (hw : ∀ w ∈ ws, Shape w) : split defaultRules s = ws := by
  induction h with
  | nil h => simpa [split, splitLoop] using split_pre (s := []) h
  | cons h hs hc ih => rw [split_pre h, split_word (hw _ (by simp)) hc, ih fun w hm => hw w (by simp [hm])]

theorem takeWhile_max {p : Char → Bool} (l : Str) : ∀ c ∈ (l.drop (l.takeWhile p).length).head?, p c = false := by
  induction l with
  | nil => simp
  | cons c l ih =>
    rw [List.takeWhile_cons]
    cases hc : p c with
    | false => simp [hc]
    | true => simpa using ih

theorem numericLoop_max (b : Bool) (l : Str) : ∀ c r, l.drop (numericLoop b l).1.length = c :: r → isDigit c = false ∧ (c = '.' → l.drop (numericLoop b l).2 = r) := by
  induction l generalizing b with
  | nil => simp [numericLoop]
  | cons d l ih =>
    intro c r
    simp only [numericLoop]
    by_cases hd : isDigit d = true
    · simp only [hd, if_true, List.length_cons, List.drop_succ_cons]
      exact ih b c r
    · simp only [hd, Bool.false_eq_true, if_false]
      by_cases hp : d = '.'
      · subst hp
        cases b with
        | true =>
          simp only [beq_self_eq_true, if_true, List.length_nil, List.drop_zero, List.cons.injEq, List.drop_succ_cons]
          rintro ⟨rfl, rfl⟩
          exact ⟨by decide, fun _ => rfl⟩
        | false =>
          simp only [beq_self_eq_true, if_true, Bool.false_eq_true, if_false, List.length_cons, List.drop_succ_cons]
          exact ih true c r
      · have : (d == '.') = false := by simpa using hp
        simp only [this, Bool.false_eq_true, if_false, List.length_nil, List.drop_zero, List.cons.injEq]
        rintro ⟨rfl, rfl⟩
        exact ⟨by simpa using hd, fun h => absurd h hp⟩

theorem blank_cons {c : Char} {s : Str} (hc : isWhitespace c = true) (hs : Blank s) : Blank (c :: s) := by
  intro x hx
  rcases List.mem_cons.1 hx with rfl | hx
  · exact hc
  · exact hs x hx

theorem take_drop_prefix {a l : Str} (h : a <+: l) : l = a ++ l.drop a.length := by
  obtain ⟨t, rfl⟩ := h
  simp

/-- C115, the converse: a text in which no number has a second point consists of the words that it is split into, each as long as it can be. -/
theorem C115_longest (s : Str)
    (h : ∀ d d1 d2, isDigit d = true → d1.all isDigit = true → d2.all isDigit = true → ¬ (d :: (d1 ++ '.' :: d2 ++ ['.'])) <:+: s) :
    Written (split defaultRules s) s := by
  generalize hn : s.length = n
  induction n using Nat.strongRecOn generalizing s with
  | ind n ih =>
    cases s with
    | nil => exact .nil (by simp [Blank])
    | cons c rest =>
      have next : ∀ (t : Str), t <+: rest → (∀ x ∈ (rest.drop t.length).head?, ¬ Continues (c :: t) x) →
          Written ((c :: t) :: split defaultRules (rest.drop t.length)) (c :: rest) := by
        intro t ht hx
        have e := take_drop_prefix ht
        have hlen : (rest.drop t.length).length < n := by
          simp only [List.length_cons] at hn
          simp only [List.length_drop]
          omega
        have := Written.cons (pre := []) (w := c :: t) (s := rest.drop t.length) (by simp [Blank])
          (ih _ hlen (rest.drop t.length) (fun d d1 d2 h0 h1 h2 hi => h d d1 d2 h0 h1 h2 (hi.trans ⟨c :: t, [], by simp [← e]⟩)) rfl) hx
        have e' : c :: rest = [] ++ ((c :: t) ++ rest.drop t.length) := by simp [← e]
        rw [e']
        exact this
      by_cases hw : isWhitespace c = true
      · rw [split_cons, defaultRules_skips c _ hw]
        show Written (split defaultRules rest) (c :: rest)
        have hlen : rest.length < n := by simp only [List.length_cons] at hn; omega
        have := ih _ hlen rest (fun d d1 d2 h0 h1 h2 hi => h d d1 d2 h0 h1 h2 (hi.trans (List.suffix_cons c rest).isInfix)) rfl
        revert this
        generalize split defaultRules rest = ws
        intro this
        cases this with
        | nil hb => exact .nil (blank_cons hw hb)
        | cons hb hs hc =>
          rw [← List.cons_append]
          exact .cons (blank_cons hw hb) hs hc
      · have hw' : isWhitespace c = false := by simpa using hw
        rw [split_cons]
        by_cases hd : isDigit c = true
        · rw [run_number c _ hd]
          have hp := numericLoop_prefix false rest
          have hmax := numericLoop_max false rest
          have hdrop : rest.drop (numericLoop false rest).2 = rest.drop (numericLoop false rest).1.length := by
            rcases numericLoop_drop false rest with h1 | ⟨h1, h2⟩
            · exact h1
            · simp only [Bool.false_eq_true, if_false] at h2
              obtain ⟨d1, d2, e, h3, h4⟩ := h2
              refine absurd ?_ (h c d1 d2 hd h3 h4)
              have := take_drop_prefix hp
              rw [h1, e] at this
              exact ⟨[], rest.drop (numericLoop false rest).2, by simpa using this.symm⟩
          simp only [hdrop]
          refine next _ hp fun x hx => ?_
          cases hr : rest.drop (numericLoop false rest).1.length with
          | nil => rw [hr] at hx; simp at hx
          | cons y r =>
            rw [hr] at hx
            simp only [List.head?_cons, Option.mem_def, Option.some.injEq] at hx
            subst hx
            obtain ⟨h1, h2⟩ := hmax y r hr
            simp only [Continues, hd, if_true, not_or]
            refine ⟨by simpa using h1, fun he => ?_⟩
            have := h2 he
            rw [hdrop, hr] at this
            exact absurd (congrArg List.length this) (by simp)
        · have hd' : isDigit c = false := by simpa using hd
          by_cases hi : isLetter c = true ∨ c = '_'
          · rw [run_ident c _ hi]
            refine next _ (List.takeWhile_prefix _) fun x hx => ?_
            have := takeWhile_max rest x hx
            simp only [Bool.or_eq_false_iff, beq_eq_false_iff_ne] at this
            simp only [Continues, hd', Bool.false_eq_true, if_false, if_pos hi, this.1.1, this.1.2, this.2, or_self, not_false_eq_true]
          · obtain ⟨hl, hu⟩ := not_or.1 hi
            by_cases ho : c ∈ operatorChars
            · rw [run_operator c _ ho hu]
              refine next _ (List.takeWhile_prefix _) fun x hx => ?_
              have := takeWhile_max rest x hx
              simp only [Continues, hd', Bool.false_eq_true, if_false, if_neg hi]
              intro hm
              rw [List.contains_iff_mem.2 hm.2] at this
              exact absurd this (by simp)
            · rw [run_other c _ hw' hd' (by simpa using hl) ho]
              have := next [] (List.nil_prefix) fun x hx => by
                simp only [Continues, hd', Bool.false_eq_true, if_false, if_neg hi, ho, false_and, not_false_eq_true]
              simpa using this

/-- C115: the two directions together. -/
theorem C115_iff (s : Str)
    (h : ∀ d d1 d2, isDigit d = true → d1.all isDigit = true → d2.all isDigit = true → ¬ (d :: (d1 ++ '.' :: d2 ++ ['.'])) <:+: s) (ws : List Str) :
    split defaultRules s = ws ↔ Written ws s ∧ ∀ w ∈ ws, Shape w :=
  ⟨fun e => e ▸ ⟨C115_longest s h, C19_shape s⟩, fun ⟨h1, h2⟩ => C115_words h1 h2⟩

theorem takeWhile_longer {p : Char → Bool} (t : Str) (c : Char) (v : Str) (ht : ∀ x ∈ t, p x = true) (hc : p c = true) :
    t.length < ((t ++ c :: v).takeWhile p).length := by
  induction t with
  | nil => simp [hc]
  | cons d t ih =>
    rw [List.cons_append, List.takeWhile_cons, ht d (by simp), if_pos rfl]
    simpa using ih fun x hx => ht x (by simp [hx])

theorem numericLoop_longer (b : Bool) (t : Str) (c : Char) (v : Str) (ht : t.all isDigit = true) (hc : isDigit c = true ∨ (c = '.' ∧ b = false)) :
    t.length < (numericLoop b (t ++ c :: v)).1.length := by
  induction t with
  | nil =>
    rcases hc with hc | ⟨rfl, rfl⟩
    · simp [numericLoop, hc]
    · simp [numericLoop, isDigit]
  | cons d t ih =>
    simp only [List.all_cons, Bool.and_eq_true] at ht
    simp only [List.cons_append, numericLoop, ht.1, if_true, List.length_cons]
    have := ih ht.2
    omega

theorem numericLoop_decimal_longer (t t' : Str) (c : Char) (v : Str) (ht : t.all isDigit = true) (ht' : t'.all isDigit = true) (hc : isDigit c = true) :
    (t ++ '.' :: t').length < (numericLoop false (t ++ '.' :: (t' ++ c :: v))).1.length := by
  induction t with
  | nil =>
    have := numericLoop_longer true t' c v ht' (.inl hc)
    simp [numericLoop, isDigit]
    omega
  | cons d t ih =>
    simp only [List.all_cons, Bool.and_eq_true] at ht
    simp only [List.cons_append, numericLoop, ht.1, if_true, List.length_cons]
    have := ih ht.2
    omega

theorem numericLoop_lost (t t' : Str) (v : Str) (ht : t.all isDigit = true) (ht' : t'.all isDigit = true) :
    numericLoop false (t ++ '.' :: (t' ++ '.' :: v)) = (t ++ '.' :: t', (t ++ '.' :: t').length + 1) := by
  have key : ∀ t' : Str, t'.all isDigit = true → numericLoop true (t' ++ '.' :: v) = (t', t'.length + 1) := by
    intro t' ht'
    induction t' with
    | nil => simp [numericLoop, isDigit]
    | cons d t' ih =>
      simp only [List.all_cons, Bool.and_eq_true] at ht'
      simp [numericLoop, ht'.1, ih ht'.2]
  induction t with
  | nil => simp [numericLoop, isDigit, key t' ht']
  | cons d t ih =>
    simp only [List.all_cons, Bool.and_eq_true] at ht
    simp only [List.cons_append, numericLoop, ht.1, if_true, ih ht.2, List.length_cons]

theorem not_word {w v : Str} {c : Char} (hw : Shape w) (h : Continues w c) : split defaultRules (w ++ c :: v) ≠ [w, c :: v] := by
  intro he
  cases hw with
  | integer d t hd ht =>
    simp only [Continues, hd, if_true] at h
    rw [List.cons_append, split_cons, run_number d _ hd] at he
    have := numericLoop_longer false t c v ht (h.imp id fun h => ⟨h, rfl⟩)
    simp only [List.cons.injEq, true_and] at he
    rw [he.1] at this
    omega
  | decimal d t t' hd ht ht' =>
    simp only [Continues, hd, if_true] at h
    rw [List.cons_append, split_cons, run_number d _ hd, List.append_assoc, List.cons_append] at he
    rcases h with h | rfl
    · have := numericLoop_decimal_longer t t' c v ht ht' h
      simp only [List.cons.injEq, true_and] at he
      rw [he.1] at this
      omega
    · rw [numericLoop_lost t t' v ht ht'] at he
      have hdr : (t ++ '.' :: (t' ++ '.' :: v)).drop ((t ++ '.' :: t').length + 1) = v := by
        have : t ++ '.' :: (t' ++ '.' :: v) = (t ++ '.' :: t' ++ ['.']) ++ v := by simp
        rw [this, List.drop_left' (by simp; omega)]
      simp only [hdr, List.cons.injEq, true_and] at he
      have h1 := (C17_only_points_lost_partial defaultRules_good defaultRules_skips v).1.length_le
      rw [he] at h1
      have h2 := List.length_filter_le (fun c => !isWhitespace c) v
      simp at h1
      omega
  | ident d t hd ht =>
    have hdd : isDigit d = false := by
      rcases hd with hc | rfl
      · exact (letter_not_digit hc).1
      · decide
    simp only [Continues, hdd, Bool.false_eq_true, if_false, if_pos hd] at h
    rw [List.cons_append, split_cons, run_ident d _ hd] at he
    have := takeWhile_longer (p := fun x => isLetter x || isDigit x || x == '_') t c v (fun x hx => by rcases ht x hx with h | h | h <;> simp [h])
      (by rcases h with h | h | h <;> simp [h])
    simp only [List.cons.injEq, true_and] at he
    rw [he.1] at this
    omega
  | operator d t hd ht =>
    have ho := ht d (by simp)
    obtain ⟨h1, h2⟩ := operator_not_digit ho
    simp only [Continues, h1, Bool.false_eq_true, if_false, h2, hd, or_self, ho, true_and] at h
    rw [List.cons_append, split_cons, run_operator d _ ho hd] at he
    have := takeWhile_longer (p := fun x => operatorChars.contains x) t c v (fun x hx => by simpa using ht x (by simp [hx])) (by simpa using h)
    simp only [List.cons.injEq, true_and] at he
    rw [he.1] at this
    omega
  | other d hw hd hl ho =>
    have hu : d ≠ '_' := by rintro rfl; exact ho (by decide)
    simp [Continues, hd, hl, hu, ho] at h

/-- C115: two words next to each other run together exactly if the first character of the second continues the first. -/
theorem C115_adjacent {w v : Str} (hw : Shape w) (hv : Shape v) : split defaultRules (w ++ v) = [w, v] ↔ ∀ c ∈ v.head?, ¬ Continues w c := by
  constructor
  · intro h c hc hco
    cases v with
    | nil => simp at hc
    | cons d v =>
      simp only [List.head?_cons, Option.mem_def, Option.some.injEq] at hc
      subst hc
      exact not_word hw hco h
  · intro h
    refine C115_words (ws := [w, v]) (.cons (pre := []) (by simp [Blank]) (s := v) ?_ h) (by simp [hw, hv])
    have := Written.cons (pre := []) (w := v) (s := []) (ws := []) (by simp [Blank]) (.nil (by simp [Blank])) (by simp)
    simpa using this

/-- C115 for values: an expression whose words are written with or without white space between them, but so that no two of them run together,
evaluates to the value of its tree. -/
theorem C115_text (parse : Str → Option N) (c : Ctx N) (hc : c.config.complexNumber = false) (hl : Lexical c) (e : Expr N) (hw : e.WF c)
    (hp : e.Plain c) {ws : List Str} {s : Str} (hws : ∀ w ∈ ws, Shape w) (h : Pairwise2 (StandsFor parse c) ws e.render) (hs : Written ws s) :
    eval parse (split defaultRules) c s = e.denote c :=
  (C23_text parse defaultRules_skips c hc hl e hw hp s (by rw [C115_words hs hws]; exact h)).2

/-- `-2^3*sum(1,(x+4)%)` is written so. -/
example : Written [['-'], ['2'], ['^'], ['3'], ['*'], str "sum", ['('], ['1'], [',']] (str "-2^3*sum(1,") ∧
    ∀ w ∈ [['-'], ['2'], ['^'], ['3'], ['*'], str "sum", ['('], ['1'], [',']], Shape w := by
  have h : split defaultRules (str "-2^3*sum(1,") = [['-'], ['2'], ['^'], ['3'], ['*'], str "sum", ['('], ['1'], [',']] := by decide
  have hw : Written (split defaultRules (str "-2^3*sum(1,")) (str "-2^3*sum(1,") := by
    rw [h]
    exact .cons (pre := []) (w := ['-']) (by decide) (.cons (pre := []) (w := ['2']) (by decide) (.cons (pre := []) (w := ['^']) (by decide)
      (.cons (pre := []) (w := ['3']) (by decide) (.cons (pre := []) (w := ['*']) (by decide) (.cons (pre := []) (w := str "sum") (by decide)
      (.cons (pre := []) (w := ['(']) (by decide) (.cons (pre := []) (w := ['1']) (by decide) (.cons (pre := []) (w := [',']) (by decide)
      (.nil (pre := []) (by decide)) (by decide)) (by decide)) (by decide)) (by decide)) (by decide)) (by decide)) (by decide)) (by decide)) (by decide)
  exact ⟨h ▸ hw, h ▸ C19_shape _⟩

/-- Words that run together and words that do not. -/
example : Continues [','] '-' ∧ Continues ['*'] '-' ∧ Continues ['!'] '+' ∧ Continues ['2'] '.' ∧ ¬ Continues ['2'] 'x' ∧ Continues ['x'] '2' ∧
    ¬ Continues ['('] '-' ∧ ¬ Continues [')'] '(' := by decide

end Prexel
