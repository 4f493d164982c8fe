import Verif.Lemmas.Conserve
/-!
# A function gets at most as many arguments as the expression has tokens
-/

set_option linter.unusedVariables false
set_option linter.unusedSimpArgs false

namespace Prexel
variable {N : Type}

/-- Leaves a value behind. -/
def Token.pushes : Token N → Bool
  | .number _ | .variable_ _ | .constant _ | .function _ => true
  | _ => false

def pushCount (ts : List (Token N)) : Nat := ts.countP Token.pushes

def PushInv (pos : Nat) (st : SY N) : Prop := pushCount st.output + pushCount st.ops ≤ pos

theorem pushInv_eff {ctx : Ctx N} {tokens : List (Token N)} {pos : Nat} {t : Token N} {next : Option (Token N)} {st st' : SY N}
    (h : Eff ctx tokens pos next t st st') (hi : PushInv pos st) : PushInv (pos + 1) st' := by
  have ha : (if t.pushes = true then 1 else 0) ≤ 1 := by split <;> omega
  cases h <;> simp_all [PushInv, pushCount, List.countP_append, List.countP_cons] <;> (try simp only [Token.pushes] at *) <;> (try simp at *) <;> omega

theorem infixToRpn_pushes {ctx : Ctx N} {tokens rpn : List (Token N)} (h : infixToRpn ctx tokens = .ok rpn) :
    pushCount rpn ≤ tokens.length := by
  obtain ⟨st, h1, rfl⟩ := infixToRpn_ok h
  have := syLoop_inv ctx tokens (fun pos st => PushInv pos st) ?_ 0 tokens (by simp) SY.init st
    (by simp [PushInv, SY.init, pushCount]) h1
  · simpa [PushInv, pushCount, List.countP_append] using this
  · intro pos t rest st st' hd hi hs
    obtain ⟨st1, he, h'⟩ := syStep_eff hs
    have := pushInv_eff he hi
    rcases h' with rfl | ⟨_, _, _, rfl⟩
    · exact this
    · simpa [PushInv, pushCount, Token.pushes, List.countP_cons] using this

/-- The context with functions that refuse more than `b` arguments. -/
def Ctx.bounded (c : Ctx N) (b : Nat) : Ctx N :=
  { c with getFunction := fun s => (c.getFunction s).map fun g xs => if xs.length ≤ b then g xs else .err .invalidArgumentCount }

theorem bindOk {α β : Type} {x : Res α} {f : α → Res β} {b : β} (h : x.bind f = .ok b) : ∃ a, x = .ok a ∧ f a = .ok b := by
  cases x with
  | ok a => exact ⟨a, rfl, h⟩
  | err k => cases h
  | panic => cases h

theorem popForBinary_bounded (c : Ctx N) (b : Nat) (op : BinFn N) (ops out : List (Token N)) :
    popForBinary (c.bounded b) op ops out = popForBinary c op ops out := by
  induction ops generalizing out with
  | nil => rfl
  | cons t ops ih =>
    unfold popForBinary
    cases t <;> simp only [ih]
    rfl

theorem syLoop_bounded (c : Ctx N) (b : Nat) (tokens : List (Token N)) (pos : Nat) (rest : List (Token N)) (st : SY N) :
    syLoop (c.bounded b) tokens pos rest st = syLoop c tokens pos rest st := by
  induction rest generalizing pos st with
  | nil => rfl
  | cons t rest ih =>
    unfold syLoop
    have : syStep (c.bounded b) tokens pos t rest.head? st = syStep c tokens pos t rest.head? st := by
      have hd : dispatch (c.bounded b) tokens pos t rest.head? st = dispatch c tokens pos t rest.head? st := by
        cases t with
        | binary name =>
          simp only [dispatch, pushBinaryFunction, popForBinary_bounded]
          rfl
        | _ => rfl
      unfold syStep
      rw [hd]
      rfl
    rw [this]
    simp only [ih]

theorem rpnLoop_bounded (c : Ctx N) (b : Nat) (l : List (Token N)) (vals : List N) (ac : Option Nat)
    (h : vals.length + pushCount l ≤ b) : rpnLoop (c.bounded b) l vals ac = rpnLoop c l vals ac := by
  induction l generalizing vals ac with
  | nil => rfl
  | cons t l ih =>
    simp only [pushCount, List.countP_cons] at h ih
    have hstep : rpnStep (c.bounded b) t vals ac = rpnStep c t vals ac := by
      cases t <;> try rfl
      rename_i s
      simp only [rpnStep, Ctx.bounded]
      cases c.getFunction s with
      | none => rfl
      | some g =>
        simp only [Option.map_some, Res.ofOption, Res.bind_ok]
        cases ac with
        | none => rfl
        | some n =>
          have : (List.take n vals).reverse.length ≤ b := by simp; omega
          simp only [Res.bind_ok, this, if_true]
    simp only [rpnLoop, hstep]
    cases hr : rpnStep c t vals ac with
    | err k => rfl
    | panic => rfl
    | ok r =>
      simp only [Res.bind_ok]
      refine ih r.1 r.2 ?_
      have hlen : r.1.length ≤ vals.length + (if t.pushes = true then 1 else 0) := by
        cases t with
        | number n => simp only [rpnStep, Res.ok.injEq] at hr; subst hr; simp [Token.pushes]
        | variable_ n =>
          simp only [rpnStep] at hr
          obtain ⟨v, -, hr⟩ := bindOk hr
          cases hr; simp [Token.pushes]
        | constant n =>
          simp only [rpnStep] at hr
          obtain ⟨v, -, hr⟩ := bindOk hr
          cases hr; simp [Token.pushes]
        | argCount n =>
          simp only [rpnStep] at hr
          split at hr <;> cases hr
          simp [Token.pushes]
        | unary n =>
          simp only [rpnStep] at hr
          obtain ⟨v, -, hr⟩ := bindOk hr
          split at hr
          · obtain ⟨w, -, hr⟩ := bindOk hr
            cases hr; simp [Token.pushes]
          · cases hr
        | binary n =>
          simp only [rpnStep] at hr
          obtain ⟨v, -, hr⟩ := bindOk hr
          split at hr
          · obtain ⟨w, -, hr⟩ := bindOk hr
            cases hr; simp [Token.pushes]
          · cases hr
        | function n =>
          simp only [rpnStep] at hr
          obtain ⟨v, -, hr⟩ := bindOk hr
          obtain ⟨m, -, hr⟩ := bindOk hr
          obtain ⟨w, -, hr⟩ := bindOk hr
          cases hr; simp [Token.pushes]
        | gopen _ => simp [rpnStep] at hr
        | gclose _ => simp [rpnStep] at hr
        | comma => simp [rpnStep] at hr
        | unknown _ => simp [rpnStep] at hr
      omega

/-- Functions that refuse more arguments than the expression has tokens make no difference. -/
theorem evalTokens_bounded (c : Ctx N) (ts : List (Token N)) (b : Nat) (h : ts.length ≤ b) : evalTokens (c.bounded b) ts = evalTokens c ts := by
  have hx : infixToRpn (c.bounded b) ts = infixToRpn c ts := by unfold infixToRpn; rw [syLoop_bounded]
  unfold evalTokens
  rw [hx]
  cases hr : infixToRpn c ts with
  | err k => rfl
  | panic => rfl
  | ok rpn =>
    simp only [Res.bind_ok]
    rw [rpnLoop_bounded]
    have := infixToRpn_pushes hr
    simp only [List.length_nil]; omega

end Prexel
