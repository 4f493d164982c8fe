import Verif.Spec.Arith
import Verif.Spec.Words
/-!
# Lemmas: arithmetic trees as expressions
-/

set_option linter.unusedVariables false
set_option linter.unusedSimpArgs false

namespace Prexel
variable {N : Type}

/-- The precedence of the built-in operators, `Precedence::LOW`, `MEDIUM`, `HIGH`. -/
def ArOp.prec : ArOp → Nat
  | .add => 1
  | .sub => 1
  | .mul => 2
  | .div => 2
  | .mod => 2
  | .pow => 3
/-- The associativity of the built-in operators. -/
def ArOp.assoc : ArOp → Assoc
  | .pow => .right
  | _ => .left

/-- A context with the school operators, possibly without factorials. -/
structure Operators (c : Ctx N) (A : Arithmetic N) : Prop where
  binary : ∀ o : ArOp, c.getBinary o.symbol = some ⟨o.prec, o.assoc, A.op o⟩
  neg : c.getUnary ['-'] = some ⟨.pre, A.neg⟩

/-- A context with the school operators. -/
structure School (c : Ctx N) (A : Arithmetic N) : Prop extends Operators c A where
  fact : c.getUnary ['!'] = some ⟨.post, A.fact⟩

/-- In brackets if the level is too low. -/
def exprAt (need have_ : Nat) (e : Expr N) : Expr N := if need ≤ have_ then e else .paren .parenthesis e

/-- The syntax tree of the written form. -/
def Arith.toExpr : Arith N → Expr N
  | .num n => .atom (.num n)
  | .neg (.num n) => .signed ['-'] (.num n)
  | .neg e => .paren .parenthesis (.prefixed ['-'] (.paren .parenthesis e.toExpr))
  | .fact e => .postfixed ['!'] (exprAt 6 e.level e.toExpr)
  | .bin o l r => .bin o.symbol (exprAt o.leftLevel l.level l.toExpr) (exprAt o.rightLevel r.level r.toExpr)

theorem exprAt_render (a b : Nat) (e : Expr N) : (exprAt a b e).render = atLevel a b e.render := by
  unfold exprAt atLevel
  split <;> simp [Expr.render, bracketed, Grouping.opn, Grouping.cls]

theorem exprAt_denote (c : Ctx N) (a b : Nat) (e : Expr N) : (exprAt a b e).denote c = e.denote c := by
  unfold exprAt
  split <;> simp [Expr.denote]

theorem exprAt_wf {c : Ctx N} {e : Expr N} (h : e.WF c) (a b : Nat) : (exprAt a b e).WF c := by
  unfold exprAt
  split <;> simpa [Expr.WF] using h

theorem exprAt_plain {c : Ctx N} {e : Expr N} (h : e.Plain c) (a b : Nat) : (exprAt a b e).Plain c := by
  unfold exprAt
  split <;> simpa [Expr.Plain] using h

theorem Arith.toExpr_render (e : Arith N) : e.toExpr.render = e.tokens := by
  induction e with
  | num n => simp [toExpr, tokens, Expr.render, Atom.token]
  | neg e ih =>
    cases e with
    | num n => simp [toExpr, tokens, Expr.render, Atom.token]
    | neg e => simp only [toExpr, tokens, Expr.render, bracketed, Grouping.opn, Grouping.cls]; rw [ih]
    | fact e => simp only [toExpr, tokens, Expr.render, bracketed, Grouping.opn, Grouping.cls] at ih ⊢; rw [ih]
    | bin o l r => simp only [toExpr, tokens, Expr.render, bracketed, Grouping.opn, Grouping.cls] at ih ⊢; rw [ih]
  | fact e ih => simp [toExpr, tokens, Expr.render, exprAt_render, ih]
  | bin o l r ihl ihr => simp [toExpr, tokens, Expr.render, exprAt_render, ihl, ihr]

theorem Arith.toExpr_denote' {c : Ctx N} {A : Arithmetic N} (h : Operators c A) (e : Arith N)
    (hf : e.hasFact = true → c.getUnary ['!'] = some ⟨.post, A.fact⟩) : e.toExpr.denote c = e.value A := by
  have hneg : Res.ofOption (c.getUnary ['-']) .invalidInput = .ok ⟨.pre, A.neg⟩ := by rw [h.neg]; rfl
  induction e with
  | num n => rfl
  | neg e ih =>
    have ih := ih hf
    cases e with
    | num n => simp [toExpr, value, Expr.denote, Atom.denote, hneg, bind]
    | neg e =>
      simp only [toExpr, Expr.denote, hneg, bind, Res.bind_ok]; rw [ih]; simp only [value]
    | fact e => simp only [toExpr, Expr.denote, hneg, bind, Res.bind_ok] at ih ⊢; rw [ih]; rw [value]
    | bin o l r => simp only [toExpr, Expr.denote, hneg, bind, Res.bind_ok] at ih ⊢; rw [ih]; rw [value]
  | fact e ih => simp [toExpr, value, Expr.denote, exprAt_denote, ih fun _ => hf rfl, hf rfl, Res.ofOption, bind]
  | bin o l r ihl ihr =>
    have ihl := ihl fun h => hf (by simp [hasFact, h])
    have ihr := ihr fun h => hf (by simp [hasFact, h])
    simp [toExpr, value, Expr.denote, exprAt_denote, ihl, ihr, h.binary o, Res.ofOption, bind]

theorem Arith.toExpr_denote {c : Ctx N} {A : Arithmetic N} (h : School c A) (e : Arith N) : e.toExpr.denote c = e.value A :=
  e.toExpr_denote' h.toOperators fun _ => h.fact

theorem exprAt_rightSpine {a b : Nat} {e : Expr N} {x : Open} (h : x ∈ (exprAt a b e).rightSpine) : a ≤ b ∧ x ∈ e.rightSpine := by
  unfold exprAt at h
  split at h
  · rename_i hab; exact ⟨hab, h⟩
  · simp [Expr.rightSpine] at h

theorem exprAt_leftSpine {a b : Nat} {e : Expr N} {x : Str} (h : x ∈ (exprAt a b e).leftSpine) : a ≤ b ∧ x ∈ e.leftSpine := by
  unfold exprAt at h
  split at h
  · rename_i hab; exact ⟨hab, h⟩
  · simp [Expr.leftSpine] at h

theorem Arith.toExpr_rightSpine (e : Arith N) : ∀ x ∈ e.toExpr.rightSpine, ∃ o : ArOp, x = .bin o.symbol ∧ e.level ≤ o.level := by
  induction e with
  | num n => simp [toExpr, Expr.rightSpine]
  | neg e ih => cases e <;> simp [toExpr, Expr.rightSpine]
  | fact e ih => simp [toExpr, Expr.rightSpine]
  | bin o l r ihl ihr =>
    intro x hx
    simp only [toExpr, Expr.rightSpine, List.mem_append, List.mem_singleton] at hx
    rcases hx with hx | rfl
    · obtain ⟨hl, hx⟩ := exprAt_rightSpine hx
      obtain ⟨o', ho', hle⟩ := ihr x hx
      refine ⟨o', ho', ?_⟩
      have : o.level ≤ o.rightLevel := by cases o <;> simp [ArOp.level, ArOp.rightLevel]
      simp only [level]; omega
    · exact ⟨o, rfl, by simp [level]⟩

theorem Arith.toExpr_leftSpine (e : Arith N) : ∀ x ∈ e.toExpr.leftSpine, ∃ o : ArOp, x = o.symbol ∧ e.level ≤ o.level := by
  induction e with
  | num n => simp [toExpr, Expr.leftSpine]
  | neg e ih => cases e <;> simp [toExpr, Expr.leftSpine]
  | fact e ih => simp [toExpr, Expr.leftSpine]
  | bin o l r ihl ihr =>
    intro x hx
    simp only [toExpr, Expr.leftSpine, List.mem_append, List.mem_singleton] at hx
    rcases hx with hx | rfl
    · obtain ⟨hl, hx⟩ := exprAt_leftSpine hx
      obtain ⟨o', ho', hle⟩ := ihl x hx
      refine ⟨o', ho', ?_⟩
      have : o.level ≤ o.leftLevel := by cases o <;> simp [ArOp.level, ArOp.leftLevel]
      simp only [level]; omega
    · exact ⟨o, rfl, by simp [level]⟩

theorem Operators.groupsLeft {c : Ctx N} {A : Arithmetic N} (h : Operators c A) (a b : ArOp) :
    GroupsLeft c a.symbol b.symbol ↔ (b.prec < a.prec ∨ (a.prec = b.prec ∧ a.assoc = .left)) := by
  unfold GroupsLeft
  constructor
  · rintro ⟨fa, fb, ha, hb, hp⟩
    rw [h.binary] at ha hb
    cases ha; cases hb
    exact hp
  · intro hp
    exact ⟨_, _, h.binary a, h.binary b, hp⟩

theorem Arith.toExpr_wf' {c : Ctx N} {A : Arithmetic N} (h : Operators c A) (e : Arith N)
    (hf : e.hasFact = true → c.getUnary ['!'] = some ⟨.post, A.fact⟩) : e.toExpr.WF c := by
  induction e with
  | num n => simp [toExpr, Expr.WF]
  | neg e ih =>
    have ih := ih hf
    cases e with
    | num n => exact ⟨_, h.neg, rfl⟩
    | neg e => exact ⟨⟨_, h.neg, rfl⟩, by simp [Expr.startsWithAtom], ih⟩
    | fact e => exact ⟨⟨_, h.neg, rfl⟩, by simp [Expr.startsWithAtom], ih⟩
    | bin o l r => exact ⟨⟨_, h.neg, rfl⟩, by simp [Expr.startsWithAtom], ih⟩
  | fact e ih =>
    refine ⟨⟨_, hf rfl, rfl⟩, ?_, exprAt_wf (ih fun _ => hf rfl) _ _⟩
    unfold exprAt
    split
    · rename_i hl
      cases e with
      | num n => simp [toExpr, Expr.primary]
      | neg e => cases e <;> simp [toExpr, Expr.primary]
      | fact e => simp [level] at hl
      | bin o l r => cases o <;> simp [level, ArOp.level] at hl
    · simp [Expr.primary]
  | bin o l r ihl ihr =>
    have ihl := ihl fun h => hf (by simp [hasFact, h])
    have ihr := ihr fun h => hf (by simp [hasFact, h])
    refine ⟨⟨_, h.binary o⟩, ?_, ?_, exprAt_wf ihl _ _, exprAt_wf ihr _ _⟩
    · intro a ha
      obtain ⟨hl, ha⟩ := exprAt_rightSpine ha
      obtain ⟨o', rfl, hle⟩ := l.toExpr_rightSpine a ha
      refine ⟨_, rfl, (h.groupsLeft o' o).mpr ?_⟩
      have h1 : o.leftLevel ≤ o'.level := by omega
      cases o <;> cases o' <;> simp [ArOp.leftLevel, ArOp.level, ArOp.prec, ArOp.assoc] at h1 ⊢
    · intro b hb
      obtain ⟨hl, hb⟩ := exprAt_leftSpine hb
      obtain ⟨o', rfl, hle⟩ := r.toExpr_leftSpine b hb
      rw [h.groupsLeft o o']
      have h1 : o.rightLevel ≤ o'.level := by omega
      cases o <;> cases o' <;> simp [ArOp.rightLevel, ArOp.level, ArOp.prec, ArOp.assoc] at h1 ⊢

theorem Arith.toExpr_wf {c : Ctx N} {A : Arithmetic N} (h : School c A) (e : Arith N) : e.toExpr.WF c :=
  e.toExpr_wf' h.toOperators fun _ => h.fact

theorem Arith.toExpr_plain {c : Ctx N} (e : Arith N) : e.toExpr.Plain c := by
  induction e with
  | num n => simp [toExpr, Expr.Plain]
  | neg e ih =>
    cases e with
    | num n => simp [toExpr, Expr.Plain]
    | neg e => exact ⟨.inl (by simp [Expr.noSign]), ih⟩
    | fact e => exact ⟨.inl (by simp [Expr.noSign]), ih⟩
    | bin o l r => exact ⟨.inl (by simp [Expr.noSign]), ih⟩
  | fact e ih =>
    refine ⟨?_, exprAt_plain ih _ _⟩
    intro p e'
    unfold exprAt
    split
    · rename_i hl
      cases e with
      | num n => simp [toExpr]
      | neg e => cases e <;> simp [toExpr]
      | fact e => simp [level] at hl
      | bin o l r => simp [toExpr]
    · simp
  | bin o l r ihl ihr => exact ⟨exprAt_plain ihl _ _, exprAt_plain ihr _ _⟩

end Prexel
