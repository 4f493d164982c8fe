import Verif.Lemmas.Splitter
import Verif.Lemmas.Universal2
import Verif.Spec.Words
/-!
# Lemmas about the tokenizer
-/

set_option linter.unusedVariables false
set_option linter.unusedSimpArgs false

namespace Prexel
variable {N : Type}

/-! ## Splitting spaced text -/

theorem split_blank_append {rules : List Rule} (hs : SkipsWs rules) {pre : Str} (h : Blank pre) (s : Str) :
    split rules (pre ++ s) = split rules s := by
  induction pre with
  | nil => rfl
  | cons c pre ih =>
    rw [List.cons_append, split_cons, hs c _ (h c (by simp))]
    exact ih (fun x hx => h x (by simp [hx]))

theorem split_blank {rules : List Rule} (hs : SkipsWs rules) {pre : Str} (h : Blank pre) : split rules pre = [] := by
  have := split_blank_append hs h []
  simpa using this

theorem split_append_blank {rules : List Rule} (hg : AllGood rules) (hs : SkipsWs rules) (a : Str) {post : Str} (h : Blank post) :
    split rules (a ++ post) = split rules a := by
  cases post with
  | nil => simp
  | cons c post =>
    have hb : Blank post := fun x hx => h x (by simp [hx])
    rw [split_append_ws hg hs a c post (h c (by simp)), split_blank hs hb]
    simp

theorem split_spaced {rules : List Rule} (hg : AllGood rules) (hs : SkipsWs rules) {ws : List Str} {s : Str} (h : Spaced ws s) :
    split rules s = ws.flatMap (split rules) := by
  induction h with
  | nil pre h => simpa using split_blank hs h
  | last pre w post h h' => simp [split_blank_append hs h, split_append_blank hg hs w h']
  | cons pre w sp w' ws s h hsp _ ih =>
    rw [split_blank_append hs h, split_append_ws hg hs w sp s hsp, ih]
    simp

/-! ## Tokens of the splitter contain no white space -/

theorem split_no_ws {rules : List Rule} (hg : AllGood rules) (hs : SkipsWs rules) (s : Str) :
    ∀ w ∈ split rules s, w ≠ [] ∧ ∀ c ∈ w, isWhitespace c = false := by
  refine split_induction hg hs (motive := fun _ ws => ∀ w ∈ ws, w ≠ [] ∧ ∀ c ∈ w, isWhitespace c = false) (by simp) ?_ ?_ ?_ s
  · intro c rest hc ih
    exact ih
  · intro c t rest hc ht _ ih w hw
    simp only [List.mem_cons] at hw
    rcases hw with rfl | hw
    · refine ⟨by simp, fun x hx => ?_⟩
      simp only [List.mem_cons] at hx
      rcases hx with rfl | hx
      · exact hc
      · exact ht x hx
    · exact ih w hw
  · intro c d1 d2 rest hc h1 h2 _ ih w hw
    have hd : ∀ x, isDigit x = true → isWhitespace x = false := by
      intro x hx
      cases hw : isWhitespace x with
      | false => rfl
      | true => rw [ws_not_digit hw] at hx; cases hx
    simp only [List.mem_cons] at hw
    rcases hw with rfl | hw
    · refine ⟨by simp, fun x hx => ?_⟩
      rw [List.all_eq_true] at h1 h2
      simp only [List.mem_cons, List.mem_append] at hx
      rcases hx with rfl | hx | rfl | hx
      · exact hd _ hc
      · exact hd _ (h1 x hx)
      · decide
      · exact hd _ (h2 x hx)
    · exact ih w hw

/-! ## What tokens stand for -/

theorem otherToken_standsFor (parse : Str → Option N) (ctx : Ctx N) (w : Str) (hn : NoName parse ctx w) (t : Token N)
    (h : otherToken ctx w = some t) : StandsFor parse ctx w t := by
  unfold otherToken at h
  split at h
  · cases h; rename_i hw; exact ⟨hw, hn⟩
  · rename_i hc
    split at h
    · cases h
    · rename_i hsp
      split at h
      · rename_i c
        split at h
        · rename_i hlt
          simp only [Config.getGroupSymbol] at h
          cases hg : Grouping.new c with
          | none =>
            simp only [hg, Option.map_none] at h
            cases h
            refine ⟨rfl, hn, ?_⟩
            rintro x hx hm
            cases hx
            unfold Grouping.new at hg
            simp only [List.mem_cons, List.not_mem_nil, or_false] at hm
            rcases hm with rfl | rfl | rfl | rfl | rfl | rfl | rfl | rfl <;> simp_all
          | some g =>
            simp only [hg, Option.map_some, Grouping.symbols] at h
            unfold Grouping.new at hg
            split at h
            · rename_i ho
              cases h
              refine ⟨rfl, ?_, hn⟩
              cases g <;> simp_all [Grouping.opn]
            · rename_i ho
              cases h
              refine ⟨rfl, ?_, hn⟩
              split at hg
              · cases hg; simp_all [Grouping.opn]
              · split at hg
                · cases hg; simp_all [Grouping.opn]
                · split at hg
                  · cases hg; simp_all [Grouping.opn]
                  · cases hg
        · rename_i hlt
          cases h
          refine ⟨rfl, hn, ?_⟩
          rintro x hx hm
          cases hx
          simp only [List.mem_cons, List.not_mem_nil, or_false] at hm
          rcases hm with rfl | rfl | rfl | rfl | rfl | rfl | rfl | rfl <;> exact hlt (by decide)
      · rename_i hne
        cases h
        refine ⟨rfl, hn, ?_⟩
        rintro x rfl
        exact absurd rfl (hne x)

theorem isSome_false {α : Type} {o : Option α} (h : ¬ o.isSome = true) : o = none := by cases o <;> simp_all
theorem isSome_ne {α : Type} {o : Option α} (h : o.isSome = true) : o ≠ none := by cases o <;> simp_all

theorem operatorToken_cases {parse : Str → Option N} {ctx : Ctx N} {prev : Option Str} {w : Str} {b : Bool} {t : Token N}
    (h : operatorToken parse ctx prev w b = .ok t) : (t = .unary w ∧ ctx.getUnary w ≠ none) ∨ t = .binary w := by
  unfold operatorToken at h
  generalize (if b = true then none else some w) = nx at h
  simp only at h
  cases hu : isUnaryOp parse ctx prev w nx with
  | err k => rw [hu] at h; simp at h
  | panic => rw [hu] at h; simp at h
  | ok u =>
    cases u with
    | false =>
      simp only [hu, Res.bind_ok, Bool.false_eq_true, if_false] at h
      split at h
      · cases h
      · cases h; exact .inr rfl
    | true =>
      simp [hu] at h
      refine .inl ⟨h.symm, ?_⟩
      unfold isUnaryOp at hu
      cases hw : ctx.getUnary w with
      | none => simp [hw] at hu
      | some f => simp

theorem tokenizeLoop_standsFor {parse : Str → Option N} {ctx : Ctx N} {ws : List Str}
    (hsp : [' '] ∉ ws) {prev : Option Str} {ts : List (Token N)} (h : tokenizeLoop parse ctx prev ws = .ok ts) :
    Pairwise2 (StandsFor parse ctx) (wordsFor parse ctx ws) ts := by
  generalize hlen : ws.length = n
  induction n using Nat.strongRecOn generalizing ws prev ts with
  | ind n ih =>
  cases ws with
  | nil => simp [tokenizeLoop] at h; subst h; simp [wordsFor, joinImaginary]; exact .nil
  | cons w ws =>
    simp only [List.length_cons] at hlen
    have hw : w ≠ [' '] := fun hm => hsp (by simp [hm])
    have key : ∀ (t : Token N) (pr : Option Str) (v : Str) (l : List Str), StandsFor parse ctx v t → l.length < n → [' '] ∉ l →
        ((tokenizeLoop parse ctx pr l).bind fun ts => Res.ok (t :: ts)) = .ok ts →
        Pairwise2 (StandsFor parse ctx) (v :: wordsFor parse ctx l) ts := by
      intro t pr v l ht hl hsp' hb
      cases hl' : tokenizeLoop parse ctx pr l with
      | err k => simp [hl'] at hb
      | panic => simp [hl'] at hb
      | ok ts' =>
        simp [hl'] at hb
        subst hb
        exact .cons ht (ih l.length hl hsp' hl' rfl)
    have hsp' : [' '] ∉ ws := fun hm => hsp (by simp [hm])
    unfold tokenizeLoop at h
    cases hp : parse w with
    | some n' =>
      simp only [hp] at h
      cases ws with
      | nil => simp at h; subst h; simp [wordsFor, joinImaginary]; exact .cons hp .nil
      | cons w' rest =>
        simp only at h
        split at h
        · rename_i hi
          simp only [Bool.and_eq_true, beq_iff_eq] at hi
          obtain ⟨hcx, rfl⟩ := hi
          split at h
          · cases h
          · rename_i m hm
            simp only [List.length_cons] at hlen
            have := key (.number m) _ _ rest hm (by omega) (fun hm => hsp' (by simp [hm])) h
            simpa [wordsFor, hcx, joinImaginary, hp] using this
        · rename_i hi
          have := key (.number n') _ _ (w' :: rest) hp (by omega) hsp' h
          rw [Bool.and_eq_true, beq_iff_eq] at hi
          cases hcx : ctx.config.complexNumber with
          | false => simpa [wordsFor, hcx] using this
          | true =>
            have hi' : w' ≠ ['i'] := fun h => hi ⟨hcx, h⟩
            simpa [wordsFor, hcx, joinImaginary, hi'] using this
    | none =>
      have hcons : wordsFor parse ctx (w :: ws) = w :: wordsFor parse ctx ws := by
        cases hcx : ctx.config.complexNumber <;> cases ws <;> simp [wordsFor, hcx, joinImaginary, hp]
      rw [hcons]
      have key := fun t pr ht => key t pr w ws ht (by omega) hsp'
      simp only [hp] at h
      split at h
      · rename_i hv
        exact key (.variable_ w) _ ⟨rfl, hp, isSome_ne hv⟩ h
      · rename_i hv
        split at h
        · rename_i hk
          exact key (.constant w) _ ⟨rfl, hp, isSome_false hv, isSome_ne hk⟩ h
        · rename_i hk
          split at h
          · rename_i hf
            exact key (.function w) _ ⟨rfl, hp, isSome_false hv, isSome_false hk, isSome_ne hf⟩ h
          · rename_i hf
            have hnv : NotValue parse ctx w := ⟨hp, isSome_false hv, isSome_false hk, isSome_false hf⟩
            split at h
            · rename_i hb
              cases ho : operatorToken parse ctx prev w ws.isEmpty with
              | err k => simp [ho] at h
              | panic => simp [ho] at h
              | ok t =>
                simp only [ho, Res.bind_ok] at h
                refine key t _ ?_ h
                rcases operatorToken_cases ho with ⟨rfl, hu⟩ | rfl
                · exact ⟨rfl, hnv, hu⟩
                · refine ⟨rfl, hnv, ?_⟩
                  simp only [Bool.or_eq_true] at hb
                  exact hb.imp isSome_ne isSome_ne
            · rename_i hb
              simp only [Bool.or_eq_true, not_or] at hb
              have hnn : NoName parse ctx w := ⟨hnv, isSome_false hb.2, isSome_false hb.1⟩
              cases ho : otherToken ctx w with
              | some t =>
                simp only [ho] at h
                exact key t _ (otherToken_standsFor parse ctx w hnn t ho) h
              | none =>
                exfalso
                unfold otherToken at ho
                split at ho
                · cases ho
                · repeat' split at ho
                  all_goals cases ho

/-! ## No panics on ASCII text -/

theorem isUnaryOp_ne_panic {parse : Str → Option N} {ctx : Ctx N} {prev : Option Str} {w : Str} {next : Option Str}
    (h : ∀ p, prev = some p → ∃ c t, p = c :: t ∧ c.toNat < 128) : isUnaryOp parse ctx prev w next ≠ .panic := by
  unfold isUnaryOp
  split
  · simp
  · split
    · split
      · simp
      · split <;> simp
    · split
      · simp
      · split
        · simp
        · rename_i p
          split
          · simp
          · split
            · simp
            · obtain ⟨c, t, rfl, hlt⟩ := h p rfl
              simp only [firstByte, hlt, if_true, Res.bind_ok]
              split
              · simp
              · split <;> simp

theorem tokenizeLoop_ne_panic {parse : Str → Option N} {ctx : Ctx N} {ws : List Str} {prev : Option Str}
    (hp : ∀ p, prev = some p → ∃ c t, p = c :: t ∧ c.toNat < 128) (hw : ∀ w ∈ ws, ∃ c t, w = c :: t ∧ c.toNat < 128) :
    tokenizeLoop parse ctx prev ws ≠ .panic := by
  generalize hn : ws.length = n
  induction n using Nat.strongRecOn generalizing ws prev with
  | ind n ih =>
    cases ws with
    | nil => simp [tokenizeLoop]
    | cons w rest =>
      have hbind : ∀ (t : Token N) (p : Str) (l : List Str), l.length < n → (∃ c t, p = c :: t ∧ c.toNat < 128) →
          (∀ w ∈ l, ∃ c t, w = c :: t ∧ c.toNat < 128) →
          ((tokenizeLoop parse ctx (some p) l).bind fun ts => Res.ok (t :: ts)) ≠ .panic := by
        intro t p l hl hp hw'
        have := ih l.length hl (ws := l) (prev := some p) (by intro q hq; cases hq; exact hp) hw' rfl
        cases hr : tokenizeLoop parse ctx (some p) l with
        | ok v => simp
        | err k => simp
        | panic => exact absurd hr this
      have hw0 := hw w (by simp)
      have hwr : ∀ w ∈ rest, ∃ c t, w = c :: t ∧ c.toNat < 128 := fun x hx => hw x (by simp [hx])
      simp only [List.length_cons] at hn
      unfold tokenizeLoop
      split
      · split
        · rename_i w' rest'
          split
          · split
            · simp
            · simp only [List.length_cons] at hn
              exact hbind _ _ _ (by omega) (hw w' (by simp)) (fun x hx => hw x (by simp [hx]))
          · exact hbind _ _ _ (by simp at hn ⊢; omega) hw0 hwr
        · simp
      · split
        · exact hbind _ _ _ (by omega) hw0 hwr
        · split
          · exact hbind _ _ _ (by omega) hw0 hwr
          · split
            · exact hbind _ _ _ (by omega) hw0 hwr
            · split
              · cases ho : operatorToken parse ctx prev w rest.isEmpty with
                | err k => simp
                | ok t => exact hbind _ _ _ (by omega) hw0 hwr
                | panic =>
                  exfalso
                  unfold operatorToken at ho
                  generalize (if rest.isEmpty = true then none else some w) = nx at ho
                  simp only at ho
                  have := isUnaryOp_ne_panic (parse := parse) (ctx := ctx) (prev := prev) (w := w) (next := nx) hp
                  cases hu : isUnaryOp parse ctx prev w nx with
                  | panic => exact this hu
                  | err k => rw [hu] at ho; simp at ho
                  | ok u =>
                    simp only [hu, Res.bind_ok] at ho
                    split at ho
                    · cases ho
                    · split at ho <;> cases ho
              · split
                · exact hbind _ _ _ (by omega) hw0 hwr
                · have := ih rest.length (by omega) (ws := rest) (prev := some w) (by intro q hq; cases hq; exact hw0) hwr rfl
                  exact this

end Prexel
