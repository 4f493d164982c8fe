import Verif.Props.Arith
/-!
# Lemmas: imaginary literals
-/

set_option linter.unusedVariables false
set_option linter.unusedSimpArgs false

namespace Prexel
variable {N : Type}

/-- The context with complex numbers switched off. -/
def Ctx.withoutComplex (c : Ctx N) : Ctx N := { c with config := { c.config with complexNumber := false } }

/-- No two numbers next to each other. -/
def NoAdjacent : List (Token N) → Prop
  | [] => True
  | [_] => True
  | t :: u :: ts => ¬ (t.isNumber = true ∧ u.isNumber = true) ∧ NoAdjacent (u :: ts)

theorem NoAdjacent.tail {t : Token N} {ts : List (Token N)} (h : NoAdjacent (t :: ts)) : NoAdjacent ts := by
  cases ts with
  | nil => trivial
  | cons u ts => exact h.2

theorem NoAdjacent.append {a b : List (Token N)} {x : Token N} (hx : x.isNumber = false) (ha : NoAdjacent a) (hb : NoAdjacent b) :
    NoAdjacent (a ++ x :: b) := by
  induction a with
  | nil =>
    cases b with
    | nil => trivial
    | cons u b => exact ⟨by simp [hx], hb⟩
  | cons t a ih =>
    cases a with
    | nil => exact ⟨by simp [hx], ih trivial⟩
    | cons u a => exact ⟨ha.1, ih ha.2⟩

theorem NoAdjacent.bracketed {a : List (Token N)} (ha : NoAdjacent a) : NoAdjacent (bracketed a) := by
  have := NoAdjacent.append (x := .gclose ')') rfl ha (b := []) trivial
  exact NoAdjacent.append (a := []) (x := .gopen '(') rfl trivial this

theorem NoAdjacent.atLevel {a : List (Token N)} (ha : NoAdjacent a) (m n : Nat) : NoAdjacent (atLevel m n a) := by
  unfold Prexel.atLevel
  split
  · exact ha
  · exact ha.bracketed

theorem Arith.noAdjacent (e : Arith N) : NoAdjacent e.tokens := by
  have hm : ∀ a : List (Token N), NoAdjacent a → NoAdjacent (.unary ['-'] :: a) :=
    fun a ha => NoAdjacent.append (a := []) (x := .unary ['-']) rfl trivial ha
  induction e with
  | num n => trivial
  | neg e ih =>
    cases e with
    | num n => exact hm _ trivial
    | neg e => exact (hm _ ih.bracketed).bracketed
    | fact e => exact (hm _ ih.bracketed).bracketed
    | bin o l r => exact (hm _ ih.bracketed).bracketed
  | fact e ih => exact NoAdjacent.append rfl (ih.atLevel _ _) trivial
  | bin o l r ihl ihr => exact NoAdjacent.append rfl (ihl.atLevel _ _) (ihr.atLevel _ _)

/-- Two words after which an operator is the same kind of operator. -/
def SamePrev (parse : Str → Option N) (c : Ctx N) (p q : Option Str) : Prop :=
  p = q ∨ ∃ x y, p = some x ∧ q = some y ∧ (∀ w, w = x ∨ w = y →
    (singleChar w).any (c.config.isGroupClose ·) = false ∧ ((parse w).isSome = true ∨ c.isConstant w = true))

theorem operatorToken_same {parse : Str → Option N} {c : Ctx N} {p q : Option Str} (h : SamePrev parse c p q) (w : Str) (b : Bool) :
    operatorToken parse c p w b = operatorToken parse c.withoutComplex q w b := by
  rcases h with rfl | ⟨x, y, rfl, rfl, h⟩
  · rfl
  · obtain ⟨hx1, hx2⟩ := h x (.inl rfl)
    obtain ⟨hy1, hy2⟩ := h y (.inr rfl)
    have e1 : isUnaryOp parse c (some x) w (if b then none else some w) =
        isUnaryOp parse c.withoutComplex (some y) w (if b then none else some w) := by
      show isUnaryOp parse c (some x) w (if b then none else some w) = isUnaryOp parse c (some y) w (if b then none else some w)
      unfold isUnaryOp
      cases c.getUnary w with
      | none => rfl
      | some op =>
        have : ∀ z, ((parse z).isSome = true ∨ c.isConstant z = true) → ((parse z).isSome || c.isConstant z || c.isVariable z) = true ∧
            ((parse z).isSome || c.isVariable z || c.isConstant z) = true := by
          intro z hz
          rcases hz with hz | hz <;> simp [hz]
        obtain ⟨a1, a2⟩ := this x hx2
        obtain ⟨b1, b2⟩ := this y hy2
        cases hn : op.notation_ with
        | post => simp only [hn, hx1, hy1, a1, b1]
        | pre => simp only [hn, hx1, hy1, a2, b2]; rfl
    unfold operatorToken
    simp only [e1]
    simp

/-- How the words of a text come out of the splitter: a word `2i` comes in two parts. -/
inductive Parts (parse : Str → Option N) : List Str → List Str → Prop
  | nil : Parts parse [] []
  | word (w : Str) {ws raw : List Str} (h : Parts parse ws raw) : Parts parse (w :: ws) (w :: raw)
  | imaginary (u : Str) (n m : N) (hu : parse u = some n) (hm : parse (u ++ ['i']) = some m) {ws raw : List Str} (h : Parts parse ws raw) :
      Parts parse ((u ++ ['i']) :: ws) (u :: ['i'] :: raw)

theorem Parts.isEmpty {parse : Str → Option N} {ws raw : List Str} (h : Parts parse ws raw) : raw.isEmpty = ws.isEmpty := by
  cases h <;> rfl

/-- With complex numbers, a number and a following `i` are read as one word. -/
theorem tokenizeLoop_parts {parse : Str → Option N} {c : Ctx N} (hi : (parse ['i']).isSome = true ∨ c.isConstant ['i'] = true)
    (hc : c.config.complexNumber = true) {ts : List (Token N)} :
    ∀ {ws raw : List Str} {p q : Option Str}, Parts parse ws raw → SamePrev parse c p q → NoAdjacent ts →
      Pairwise2 (StandsFor parse c) ws ts →  (∀ w ∈ ws, w = ['i'] → (parse w).isSome = true) →
      tokenizeLoop parse c p raw = tokenizeLoop parse c.withoutComplex q ws := by
  have hw0 : ∀ w, c.withoutComplex.isVariable w = c.isVariable w ∧ c.withoutComplex.isConstant w = c.isConstant w ∧
    c.withoutComplex.isFunction w = c.isFunction w ∧ c.withoutComplex.isBinary w = c.isBinary w ∧
    c.withoutComplex.isUnary w = c.isUnary w := fun w => ⟨rfl, rfl, rfl, rfl, rfl⟩
  induction ts with
  | nil =>
    intro ws raw p q hp hpq _ hst _
    cases hst
    cases hp
    rfl
  | cons t ts ih =>
    intro ws raw p q hp hpq hadj hst hsing
    cases hst with
    | @cons w _ ws' _ hw hst' =>
    have ih' := fun {raw p q} h1 h2 => ih (raw := raw) (p := p) (q := q) h1 h2 hadj.tail hst' (fun w h => hsing w (by simp [h]))
    cases hp with
    | @word _ _ raw' hp' =>
      have ih'' := ih' hp' (p := some w) (q := some w) (.inl rfl)
      cases hpw : parse w with
      | some n =>
        have e2 : tokenizeLoop parse c.withoutComplex q (w :: ws') =
            (tokenizeLoop parse c.withoutComplex (some w) ws').bind fun ts => .ok (.number n :: ts) := by
          cases ws' with
          | nil => simp [tokenizeLoop, hpw]
          | cons w' ws'' => rw [tokenizeLoop.eq_2]; simp only [hpw, Ctx.withoutComplex, Bool.false_and, Bool.false_eq_true, if_false]
        rw [e2, ← ih'']
        cases raw' with
        | nil => simp [tokenizeLoop, hpw]
        | cons w' raw'' =>
          have hne : w' ≠ ['i'] := by
            intro hw'
            subst hw'
            have htn : t.isNumber = true := by
              cases t <;> simp_all [StandsFor, Token.isNumber, NotValue, NoName]
            cases hp' with
            | word _ h =>
              cases hst' with
              | cons hw2 hst2 =>
                rename_i u us
                obtain ⟨m, hm⟩ := Option.isSome_iff_exists.mp (hsing ['i'] (by simp) rfl)
                have hun : u.isNumber = true := by
                  cases u <;> simp_all [StandsFor, Token.isNumber, NotValue, NoName]
                exact hadj.1 ⟨htn, hun⟩
            | imaginary _ m m' hm hm' h =>
              cases hst' with
              | cons hw2 hst2 =>
                rename_i u us
                have hun : u.isNumber = true := by
                  cases u <;> simp_all [StandsFor, Token.isNumber, NotValue, NoName]
                exact hadj.1 ⟨htn, hun⟩
          rw [tokenizeLoop]
          simp [hpw, hne]
      | none =>
        rw [tokenizeLoop.eq_2, tokenizeLoop.eq_2]
        simp only [hpw, (hw0 w).1, (hw0 w).2.1, (hw0 w).2.2.1, (hw0 w).2.2.2.1, (hw0 w).2.2.2.2, ih'', operatorToken_same hpq, hp'.isEmpty]
        rfl
    | @imaginary u n m hu hm _ raw' hp' =>
      have hsame : SamePrev parse c (some ['i']) (some (u ++ ['i'])) := by
        refine .inr ⟨_, _, rfl, rfl, ?_⟩
        rintro w (rfl | rfl)
        · exact ⟨by cases c; rfl, hi⟩
        · refine ⟨?_, .inl (by rw [hm]; rfl)⟩
          cases u with
          | nil => cases c; rfl
          | cons a u => cases u <;> rfl
      have ih'' := ih' hp' hsame
      have e2 : tokenizeLoop parse c.withoutComplex q ((u ++ ['i']) :: ws') =
          (tokenizeLoop parse c.withoutComplex (some (u ++ ['i'])) ws').bind fun ts => .ok (.number m :: ts) := by
        cases ws' with
        | nil => simp [tokenizeLoop, hm]
        | cons w' ws'' => rw [tokenizeLoop.eq_2]; simp only [hm, Ctx.withoutComplex, Bool.false_and, Bool.false_eq_true, if_false]
      rw [e2, ← ih'', tokenizeLoop.eq_2]
      simp [hu, hm, hc]

end Prexel
