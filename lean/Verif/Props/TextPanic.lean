import Verif.Props.Tokenizer
/-!
# C15: exactly which texts the tokenizer stumbles over
-/

namespace Prexel
variable {N : Type}

/-- The word `p` begins with a character outside ASCII and is no number, variable or constant, and the word `w` behind it is a prefix operator (and
not a number, variable, constant or function). -/
def Stumbles (parse : Str → Option N) (ctx : Ctx N) (p w : Str) : Prop :=
  (∃ x t, p = x :: t ∧ 128 ≤ x.toNat) ∧ parse p = none ∧ ctx.getVariable p = none ∧ ctx.getConstant p = none ∧
  NotValue parse ctx w ∧ ∃ f, ctx.getUnary w = some f ∧ f.notation_ = .pre

theorem operatorToken_panic {parse : Str → Option N} {ctx : Ctx N} {prev : Option Str} {w : Str} {last : Bool} (hprev : prev ≠ some [])
    (h : operatorToken parse ctx prev w last = .panic) : last = false ∧ ∃ p, prev = some p ∧ (∃ x t, p = x :: t ∧ 128 ≤ x.toNat) ∧ parse p = none ∧
      ctx.getVariable p = none ∧ ctx.getConstant p = none ∧ ∃ f, ctx.getUnary w = some f ∧ f.notation_ = .pre := by
  have hu : isUnaryOp parse ctx prev w (if last then none else some w) = .panic := by
    unfold operatorToken at h
    simp only at h
    cases hu : isUnaryOp parse ctx prev w (if last then none else some w) with
    | panic => rfl
    | err k => rw [hu] at h; cases h
    | ok b =>
      rw [hu, Res.bind_ok] at h
      repeat' split at h
      all_goals cases h
  unfold isUnaryOp at hu
  cases hf : ctx.getUnary w with
  | none => rw [hf] at hu; cases hu
  | some f =>
    rw [hf] at hu
    cases hn : f.notation_ with
    | post =>
      simp only [hn] at hu
      cases prev with
      | none => cases hu
      | some p =>
        simp only at hu
        split at hu <;> cases hu
    | pre =>
      simp only [hn] at hu
      cases last with
      | true => simp at hu
      | false =>
        refine ⟨rfl, ?_⟩
        cases prev with
        | none => simp at hu
        | some p =>
          simp only [Bool.false_eq_true, if_false, Option.isNone_some] at hu
          split at hu
          · cases hu
          · split at hu
            · cases hu
            · rename_i hv
              simp only [Ctx.isVariable, Ctx.isConstant, Bool.or_eq_true, not_or, Bool.not_eq_true, Option.isSome_eq_false_iff, Option.isNone_iff_eq_none] at hv
              refine ⟨p, rfl, ?_, hv.1.1, hv.1.2, hv.2, f, rfl, hn⟩
              cases p with
              | nil => exact absurd rfl hprev
              | cons x t =>
                refine ⟨x, t, rfl, ?_⟩
                by_cases hx : x.toNat < 128
                · simp only [firstByte, hx, if_true, Res.bind_ok] at hu
                  split at hu
                  · cases hu
                  · split at hu <;> cases hu
                · omega

theorem operatorToken_stumbles {parse : Str → Option N} {ctx : Ctx N} {p w : Str} (h : Stumbles parse ctx p w) :
    operatorToken parse ctx (some p) w false = .panic := by
  obtain ⟨⟨x, t, rfl, hx⟩, h1, h2, h3, -, f, hf, hn⟩ := h
  have hc : ((singleChar (x :: t)).any (ctx.config.isGroupClose ·)) = false := by
    rw [Bool.eq_false_iff]
    intro hc
    obtain ⟨c, hc, hm⟩ := (singleChar_close ctx.config (x :: t)).mp hc
    cases hc
    simp only [List.mem_cons, List.not_mem_nil, or_false] at hm
    rcases hm with rfl | rfl | rfl <;> revert hx <;> decide
  have hu : isUnaryOp parse ctx (some (x :: t)) w (some w) = .panic := by
    unfold isUnaryOp
    simp only [hf, hn, Option.isNone_some, Bool.false_eq_true, if_false, hc, h1, Ctx.isVariable, h2, Ctx.isConstant, h3, Option.isSome_none, Bool.or_self,
      firstByte, show ¬ x.toNat < 128 by omega, Res.bind_panic]
  unfold operatorToken
  simp only [Bool.false_eq_true, if_false, hu, Res.bind_panic]

theorem tokenizeLoop_panic {parse : Str → Option N} {ctx : Ctx N} {ws : List Str} {prev : Option Str} (hprev : prev ≠ some []) (hne : [] ∉ ws)
    (h : tokenizeLoop parse ctx prev ws = .panic) : ∃ l p w r, prev.toList ++ ws = l ++ p :: w :: r ∧ r ≠ [] ∧ Stumbles parse ctx p w := by
  generalize hn : ws.length = n
  induction n using Nat.strongRecOn generalizing ws prev with
  | ind n ih =>
    cases ws with
    | nil => cases h
    | cons w rest =>
      have hbind : ∀ {t : Token N} {p : Str} {l : List Str}, ((tokenizeLoop parse ctx (some p) l).bind fun ts => Res.ok (t :: ts)) = .panic →
          tokenizeLoop parse ctx (some p) l = .panic := by
        intro t p l h
        cases hr : tokenizeLoop parse ctx (some p) l with
        | ok v => rw [hr] at h; cases h
        | err k => rw [hr] at h; cases h
        | panic => rfl
      simp only [List.length_cons] at hn
      simp only [List.mem_cons, not_or] at hne
      have hw0 : (some w : Option Str) ≠ some [] := fun e => hne.1 (Option.some.inj e).symm
      have next : tokenizeLoop parse ctx (some w) rest = .panic → ∃ l p v r, prev.toList ++ w :: rest = l ++ p :: v :: r ∧ r ≠ [] ∧ Stumbles parse ctx p v := by
        intro h
        obtain ⟨l, p, v, r, e, hr, hs⟩ := ih rest.length (by omega) hw0 hne.2 h rfl
        refine ⟨prev.toList ++ l, p, v, r, ?_, hr, hs⟩
        rw [List.append_assoc, ← e]
        rfl
      rw [tokenizeLoop.eq_2] at h
      cases hpw : parse w with
      | some n =>
        simp only [hpw] at h
        cases rest with
        | nil => cases h
        | cons w' rest' =>
          simp only at h
          split at h
          · split at h
            · cases h
            · have h := hbind h
              simp only [List.mem_cons, not_or] at hne
              obtain ⟨l, p, v, r, e, hr, hs⟩ := ih rest'.length (by simp at hn; omega) (fun e => hne.2.1 (Option.some.inj e).symm) hne.2.2 h rfl
              refine ⟨prev.toList ++ w :: l, p, v, r, ?_, hr, hs⟩
              rw [List.append_assoc, List.cons_append, ← e]
              rfl
          · exact next (hbind h)
      | none =>
        simp only [hpw] at h
        split at h
        · exact next (hbind h)
        · split at h
          · exact next (hbind h)
          · split at h
            · exact next (hbind h)
            · rename_i hv hk hf
              split at h
              · cases ho : operatorToken parse ctx prev w rest.isEmpty with
                | err k => rw [ho] at h; cases h
                | ok t => rw [ho, Res.bind_ok] at h; exact next (hbind h)
                | panic =>
                  obtain ⟨hl, p, rfl, h1, h2, h3, h4, h5⟩ := operatorToken_panic hprev ho
                  refine ⟨[], p, w, rest, rfl, ?_, h1, h2, h3, h4, ⟨hpw, ?_, ?_, ?_⟩, h5⟩
                  · rintro rfl; cases hl
                  · simpa [Ctx.isVariable] using hv
                  · simpa [Ctx.isConstant] using hk
                  · simpa [Ctx.isFunction] using hf
              · split at h
                · exact next (hbind h)
                · exact next h

theorem tokenizeLoop_tail {parse : Str → Option N} {ctx : Ctx N} {w : Str} {rest : List Str} {prev : Option Str} {ts : List (Token N)}
    (h : tokenizeLoop parse ctx prev (w :: rest) = .ok ts) : (∃ ts', tokenizeLoop parse ctx (some w) rest = .ok ts') ∨
      (parse w ≠ none ∧ ∃ rest' ts', rest = ['i'] :: rest' ∧ tokenizeLoop parse ctx (some ['i']) rest' = .ok ts') := by
  have hbind : ∀ {t : Token N} {p : Str} {l : List Str}, ((tokenizeLoop parse ctx (some p) l).bind fun ts => Res.ok (t :: ts)) = .ok ts →
      ∃ ts', tokenizeLoop parse ctx (some p) l = .ok ts' := by
    intro t p l h
    cases hr : tokenizeLoop parse ctx (some p) l with
    | ok v => exact ⟨v, rfl⟩
    | err k => rw [hr] at h; cases h
    | panic => rw [hr] at h; cases h
  rw [tokenizeLoop.eq_2] at h
  cases hpw : parse w with
  | some n =>
    simp only [hpw] at h
    cases rest with
    | nil => exact .inl ⟨[], rfl⟩
    | cons w' rest' =>
      simp only at h
      split at h
      · rename_i hi
        split at h
        · cases h
        · simp only [Bool.and_eq_true, beq_iff_eq] at hi
          obtain ⟨ts', h'⟩ := hbind h
          exact .inr ⟨by simp, rest', ts', by rw [hi.2], by rw [← hi.2]; exact h'⟩
      · exact .inl (hbind h)
  | none =>
    left
    simp only [hpw] at h
    split at h
    · exact hbind h
    · split at h
      · exact hbind h
      · split at h
        · exact hbind h
        · split at h
          · cases ho : operatorToken parse ctx prev w rest.isEmpty with
            | err k => rw [ho] at h; cases h
            | ok t => rw [ho, Res.bind_ok] at h; exact hbind h
            | panic => rw [ho] at h; cases h
          · split at h
            · exact hbind h
            · exact ⟨_, h⟩

theorem tokenizeLoop_stumbles {parse : Str → Option N} {ctx : Ctx N} {l r : List Str} {p w : Str} (hr : r ≠ []) (hs : Stumbles parse ctx p w)
    {prev : Option Str} {ts : List (Token N)} : tokenizeLoop parse ctx prev (l ++ p :: w :: r) ≠ .ok ts := by
  have base : ∀ {ts : List (Token N)}, tokenizeLoop parse ctx (some p) (w :: r) ≠ .ok ts := by
    intro ts h
    have ho := operatorToken_stumbles hs
    obtain ⟨-, -, -, -, ⟨h1, h2, h3, h4⟩, f, hf, hn⟩ := hs
    have he : r.isEmpty = false := by cases r with
      | nil => exact absurd rfl hr
      | cons a b => rfl
    rw [tokenizeLoop.eq_2] at h
    simp only [h1, Ctx.isVariable, h2, Ctx.isConstant, h3, Ctx.isFunction, h4, Option.isSome_none, Bool.false_eq_true, if_false, Ctx.isUnary, hf,
      Option.isSome_some, Bool.or_true, if_true, he, ho] at h
    cases h
  have hi : p ≠ ['i'] := by
    obtain ⟨⟨x, t, rfl, hx⟩, -⟩ := hs
    intro e
    cases e
    revert hx
    decide
  have hpp : parse p = none := hs.2.1
  generalize hn : l.length = n
  induction n using Nat.strongRecOn generalizing l prev ts with
  | ind n ih =>
    intro h
    cases l with
    | nil =>
      rcases tokenizeLoop_tail h with ⟨ts', h'⟩ | ⟨hp, -⟩
      · exact base h'
      · exact hp hpp
    | cons v l =>
      simp only [List.length_cons] at hn
      rcases tokenizeLoop_tail h with ⟨ts', h'⟩ | ⟨-, rest', ts', he, h'⟩
      · exact ih l.length (by omega) rfl h'
      · cases l with
        | nil => exact hi (List.cons.inj he).1
        | cons u l =>
          obtain ⟨rfl, rfl⟩ := List.cons.inj he
          exact ih l.length (by simp at hn; omega) rfl h'

/-- C15: the only cause of a panic. If the tokenizer panics, the text has a word that begins with a character outside ASCII and is no number, variable
or constant, directly before a prefix operator that is not the last word. So every other text is read or refused with an error. -/
theorem C15_panic_cause_partial (parse : Str → Option N) {rules : List Rule} (hg : AllGood rules) (hs : SkipsWs rules) (c : Ctx N) (s : Str)
    (h : tokenize parse (split rules) c s = .panic) : ∃ l p w r, split rules s = l ++ p :: w :: r ∧ r ≠ [] ∧ Stumbles parse c p w := by
  unfold tokenize at h
  split at h
  · cases h
  · refine tokenizeLoop_panic (prev := none) (by simp) ?_ h
    intro hm
    exact (split_chars hg hs s _ hm).1 rfl

/-- C15: no text with that cause is ever read: the tokenizer panics, or has refused the text before it gets there. -/
theorem C15_stumbles_counterexample (parse : Str → Option N) (rules : List Rule) (c : Ctx N) (s : Str) (l r : List Str) (p w : Str)
    (hw : split rules s = l ++ p :: w :: r) (hr : r ≠ []) (hs : Stumbles parse c p w) (ts : List (Token N)) :
    tokenize parse (split rules) c s ≠ .ok ts := by
  unfold tokenize
  split
  · simp
  · rw [hw]
    exact tokenizeLoop_stumbles hr hs

/-- `é - 2` has the cause; `1 - é` and `é * 2` have not. -/
example : Stumbles Demo.parse (Demo.ctx false false) ['é'] ['-'] ∧ split defaultRules (str "é - 2") = [] ++ ['é'] :: ['-'] :: [['2']] ∧
    tokenize Demo.parse (split defaultRules) (Demo.ctx false false) (str "1 - é") ≠ .panic ∧
    tokenize Demo.parse (split defaultRules) (Demo.ctx false false) (str "é * 2") ≠ .panic := by
  refine ⟨⟨⟨'é', [], rfl, by decide⟩, by decide, rfl, rfl, ⟨by decide, rfl, rfl, rfl⟩, _, rfl, rfl⟩, by decide, by decide, by decide⟩

end Prexel
