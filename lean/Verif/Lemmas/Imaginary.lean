import Verif.Spec.Imaginary
import Verif.Lemmas.Text
/-!
# Lemmas: a text with imaginary numbers is read as the text with the joined words
-/

namespace Prexel
variable {N : Type}

/-- The same context without complex numbers. -/
def Ctx.plain (c : Ctx N) : Ctx N := { c with config := { c.config with complexNumber := false } }

theorem plain_okSeq (c : Ctx N) (k : Kind) (ts : List (Token N)) : OKSeq c.plain k ts ↔ OKSeq c k ts := by
  induction ts generalizing k with
  | nil => exact Iff.rfl
  | cons t ts ih =>
    have e : Kind.after c.plain t = Kind.after c t := rfl
    unfold OKSeq
    rw [e]
    exact and_congr Iff.rfl (ih _)

theorem plain_lexical {c : Ctx N} (h : Lexical c) : Lexical c.plain := ⟨h.ascii, h.punct, h.binary, h.postfix_⟩

theorem plain_standsFor (parse : Str → Option N) (c : Ctx N) (w : Str) (t : Token N) : StandsFor parse c.plain w t ↔ StandsFor parse c w t := by
  cases t <;> exact Iff.rfl

theorem Pairwise2.mono {α β : Type} {R S : α → β → Prop} (h : ∀ a b, R a b → S a b) {l : List α} {m : List β} (hp : Pairwise2 R l m) : Pairwise2 S l m := by
  induction hp with
  | nil => exact .nil
  | cons hab _ ih => exact .cons (h _ _ hab) ih

/-- The word is an operand. -/
def Operand (parse : Str → Option N) (ctx : Ctx N) (p : Str) : Prop := ((parse p).isSome || ctx.isVariable p || ctx.isConstant p) = true

theorem isUnaryOp_operand {parse : Str → Option N} {c : Ctx N} {p : Str} (h : Operand parse c p) (w : Str) (next : Option Str) :
    isUnaryOp parse c (some p) w next = match c.getUnary w with
      | none => .ok false
      | some f => .ok (f.notation_ = .post) := by
  unfold isUnaryOp
  cases hu : c.getUnary w with
  | none => rfl
  | some f =>
    have h' : ((parse p).isSome || c.isConstant p || c.isVariable p) = true := by
      unfold Operand at h
      rw [Bool.or_assoc, Bool.or_comm (c.isConstant p), ← Bool.or_assoc]
      exact h
    cases hn : f.notation_ with
    | post =>
      simp only [hn, h']
      split <;> simp
    | pre =>
      unfold Operand at h
      simp only [hn, h, if_true]
      cases next with
      | none => simp
      | some x => simp

theorem operatorToken_prev {parse : Str → Option N} {c : Ctx N} {p p' : Option Str}
    (hp : p = p' ∨ ∃ q q', p = some q ∧ p' = some q' ∧ Operand parse c q ∧ Operand parse c q') (w : Str) (last : Bool) :
    operatorToken parse c p w last = operatorToken parse c.plain p' w last := by
  rcases hp with rfl | ⟨q, q', rfl, rfl, h, h'⟩
  · rfl
  · have h1 := isUnaryOp_operand h w (if last then none else some w)
    have h2 := isUnaryOp_operand (c := c.plain) h' w (if last then none else some w)
    unfold operatorToken
    simp only [h1, h2]
    rfl

theorem Joined.isEmpty {parse : Str → Option N} {ws ws' : List Str} (h : Joined parse ws ws') : ws.isEmpty = ws'.isEmpty := by cases h <;> rfl

theorem tokenizeLoop_joined {parse : Str → Option N} {c : Ctx N} (hc : c.config.complexNumber = true) (hi : ReadsI parse c)
    {ws ws' : List Str} (h : Joined parse ws ws') {p p' : Option Str}
    (hp : p = p' ∨ ∃ q q', p = some q ∧ p' = some q' ∧ Operand parse c q ∧ Operand parse c q') :
    tokenizeLoop parse c p ws = tokenizeLoop parse c.plain p' ws' := by
  have hI : Operand parse c ['i'] := by
    unfold Operand Ctx.isVariable Ctx.isConstant
    rcases hi with h | h | h <;> simp [ne_none_isSome h]
  induction h generalizing p p' with
  | nil => rfl
  | @keep w ws ws' hw h ih =>
    have ih' := ih (p := some w) (p' := some w) (.inl rfl)
    have hcp : c.plain.config.complexNumber = false := rfl
    cases hpw : parse w with
    | some n =>
      have hh : ws.head? ≠ some ['i'] := by
        rcases hw with h | h
        · rw [hpw] at h; cases h
        · exact h
      cases h with
      | nil => unfold tokenizeLoop; simp only [hpw]
      | @keep v vs vs' hv hvs =>
        have hvi : (v == ['i']) = false := by
          rw [beq_eq_false_iff_ne]
          intro e
          exact hh (by rw [e]; rfl)
        rw [tokenizeLoop.eq_2 parse c p w, tokenizeLoop.eq_2 parse c.plain p' w]
        simp only [hpw, hvi, Bool.and_false, Bool.false_eq_true, if_false, hcp, Bool.false_and]
        rw [ih']
      | @join v vs vs' h1 h2 hvs =>
        have hvi : (v == ['i']) = false := by
          rw [beq_eq_false_iff_ne]
          intro e
          exact hh (by rw [e]; rfl)
        rw [tokenizeLoop.eq_2 parse c p w, tokenizeLoop.eq_2 parse c.plain p' w]
        simp only [hpw, hvi, Bool.and_false, Bool.false_eq_true, if_false, hcp, Bool.false_and]
        rw [ih']
    | none =>
      rw [tokenizeLoop.eq_2 parse c p w, tokenizeLoop.eq_2 parse c.plain p' w]
      simp only [hpw]
      rw [ih', operatorToken_prev hp, h.isEmpty]
      rfl
  | @join w ws ws' hw hwi h ih =>
    obtain ⟨n, hn⟩ := Option.ne_none_iff_exists'.mp hw
    obtain ⟨m, hm⟩ := Option.ne_none_iff_exists'.mp hwi
    have hO : Operand parse c (w ++ ['i']) := by unfold Operand; simp [hm]
    have ih' := ih (p := some ['i']) (p' := some (w ++ ['i'])) (.inr ⟨_, _, rfl, rfl, hI, hO⟩)
    have hcp : c.plain.config.complexNumber = false := rfl
    rw [tokenizeLoop.eq_2 parse c p w]
    simp only [hn, hc, beq_self_eq_true, Bool.and_self, if_true, hm]
    rw [ih', tokenizeLoop.eq_2 parse c.plain p' (w ++ ['i'])]
    simp only [hm, hcp, Bool.false_and, Bool.false_eq_true, if_false]
    cases h with
    | nil => simp [tokenizeLoop]
    | keep => rfl
    | join => rfl

/-- What is read successfully can be joined. -/
theorem joined_of_ok {parse : Str → Option N} {c : Ctx N} (hc : c.config.complexNumber = true) (ws : List Str) {p : Option Str} {ts : List (Token N)}
    (h : tokenizeLoop parse c p ws = .ok ts) : Joined parse ws (joinImaginary parse ws) := by
  have aux : ∀ {α : Type} {r : Res (List (Token N))} {f : List (Token N) → Res α} {y : α}, r.bind f = .ok y → ∃ x, r = .ok x := by
    intro α r f y h
    cases r with
    | ok x => exact ⟨x, rfl⟩
    | err k => cases h
    | panic => cases h
  fun_induction joinImaginary parse ws generalizing p ts with
  | case1 w w' rest hj ih =>
    obtain ⟨hw, rfl⟩ := hj
    obtain ⟨n, hn⟩ := Option.isSome_iff_exists.mp hw
    rw [tokenizeLoop.eq_2] at h
    simp only [hn, hc, beq_self_eq_true, Bool.and_self, if_true] at h
    cases hm : parse (w ++ ['i']) with
    | none => simp only [hm] at h; cases h
    | some m =>
      simp only [hm] at h
      obtain ⟨x, hx⟩ := aux h
      exact .join w (by simp [hn]) (by simp [hm]) (ih hx)
  | case2 w w' rest hj ih =>
    have hcond : parse w = none ∨ (w' :: rest).head? ≠ some ['i'] := by
      by_cases hw : parse w = none
      · exact .inl hw
      · right
        simp only [List.head?_cons, ne_eq, Option.some.injEq]
        intro e
        exact hj ⟨ne_none_isSome hw, e⟩
    have hrest : ∃ q x, tokenizeLoop parse c q (w' :: rest) = .ok x := by
      rw [tokenizeLoop.eq_2] at h
      cases hn : parse w with
      | some n =>
        have hvi : (w' == ['i']) = false := by
          rw [beq_eq_false_iff_ne]
          intro e
          exact hj ⟨by simp [hn], e⟩
        simp only [hn, hvi, Bool.and_false, Bool.false_eq_true, if_false] at h
        obtain ⟨x, hx⟩ := aux h
        exact ⟨_, x, hx⟩
      | none =>
        simp only [hn] at h
        split at h
        · exact ⟨_, aux h⟩
        · split at h
          · exact ⟨_, aux h⟩
          · split at h
            · exact ⟨_, aux h⟩
            · split at h
              · cases ho : operatorToken parse c p w (w' :: rest).isEmpty with
                | err k => rw [ho] at h; cases h
                | panic => rw [ho] at h; cases h
                | ok t =>
                  rw [ho, Res.bind_ok] at h
                  exact ⟨_, aux h⟩
              · split at h
                · exact ⟨_, aux h⟩
                · exact ⟨_, _, h⟩
    obtain ⟨q, x, hx⟩ := hrest
    exact .keep w hcond (ih hx)
  | case3 w => exact .keep w (.inr (by simp)) .nil
  | case4 => exact .nil

end Prexel
