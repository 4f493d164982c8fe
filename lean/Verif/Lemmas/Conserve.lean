import Verif.Lemmas.Universal2
/-!
# Conversion to postfix neither loses nor invents operands and operators
-/

set_option linter.unusedVariables false
set_option linter.unusedSimpArgs false

namespace Prexel
variable {N : Type}

/-- Operands: in the output, in order; never on the operator stack. -/
def AtomsInv (pre : List (Token N)) (st : SY N) : Prop :=
  st.output.filter Token.isAtom = pre.filter Token.isAtom ∧ st.ops.filter Token.isAtom = []

theorem atomsInv_eff {ctx : Ctx N} {tokens : List (Token N)} {pos : Nat} {t : Token N} {next : Option (Token N)} {st st' : SY N}
    {pre : List (Token N)} (h : Eff ctx tokens pos next t st st') (hi : AtomsInv pre st) : AtomsInv (pre ++ [t]) st' := by
  obtain ⟨h1, h2⟩ := hi
  cases h <;> simp_all [AtomsInv, Token.isAtom, List.filter_append, List.filter_cons]

theorem syLoop_atoms {ctx : Ctx N} {tokens : List (Token N)} {st : SY N} (h : syLoop ctx tokens 0 tokens SY.init = .ok st) :
    AtomsInv tokens st := by
  have := syLoop_inv ctx tokens (fun pos st => AtomsInv (tokens.take pos) st) ?_ 0 tokens (by simp) SY.init st
    (by simp [AtomsInv, SY.init]) h
  · simpa using this
  · intro pos t rest st st' hd hi hs
    obtain ⟨st1, he, h'⟩ := syStep_eff hs
    have ht : tokens.take (pos + 1) = tokens.take pos ++ [t] := by
      rw [List.take_add_one, drop_getElem? hd]; simp
    rw [ht]
    have := atomsInv_eff he hi
    rcases h' with rfl | ⟨_, _, _, rfl⟩
    · exact this
    · simpa [AtomsInv, Token.isAtom] using this

theorem infixToRpn_atoms {ctx : Ctx N} {tokens rpn : List (Token N)} (h : infixToRpn ctx tokens = .ok rpn) :
    rpn.filter Token.isAtom = tokens.filter Token.isAtom := by
  obtain ⟨st, h1, rfl⟩ := infixToRpn_ok h
  obtain ⟨h2, h3⟩ := syLoop_atoms h1
  simp [h2, h3]

def OpsInv (pre : List (Token N)) (st : SY N) : Prop :=
  List.Perm ((st.output ++ st.ops).filter Token.isOp) (pre.filter Token.isOp)

theorem opsInv_eff {ctx : Ctx N} {tokens : List (Token N)} {pos : Nat} {t : Token N} {next : Option (Token N)} {st st' : SY N}
    {pre : List (Token N)} (h : Eff ctx tokens pos next t st st') (hi : OpsInv pre st) : OpsInv (pre ++ [t]) st' := by
  have hmid : ∀ (a b : List (Token N)) (x : Token N) (p : List (Token N)), List.Perm (a ++ b) p → List.Perm (a ++ x :: b) (p ++ [x]) := by
    intro a b x p hp
    exact (List.perm_middle).trans ((List.Perm.cons x hp).trans (List.perm_append_singleton x p).symm)
  cases h with
  | atom _ _ ht => cases t <;> simp_all [OpsInv, Token.isAtom, Token.isOp]
  | atomU _ _ ht u f hf ops hops => cases t <;> simp_all [OpsInv, Token.isAtom, Token.isOp]
  | bin o _ f hf popped kept hops hp =>
    simp_all only [OpsInv, List.filter_append, List.filter_cons, Token.isOp]
    have := hmid _ _ (.binary o) _ hi
    simp only [if_true, List.append_assoc, List.filter_nil] at this ⊢
    refine List.Perm.trans ?_ this
    refine List.Perm.append_left _ List.perm_middle
  | pre u _ f hf hn => simp_all only [OpsInv, List.filter_append, List.filter_cons, Token.isOp]; exact hmid _ _ _ _ hi
  | post u _ f hf hn ho =>
    simp_all only [OpsInv, List.filter_append, List.filter_cons, Token.isOp]
    simpa using hmid _ _ (.unary u) _ hi
  | function f _ hn => simp_all only [OpsInv, List.filter_append, List.filter_cons, Token.isOp]; exact hmid _ _ _ _ hi
  | gopen c _ => simpa [OpsInv, Token.isOp, List.filter_cons] using hi
  | group c c' _ popped kept g hg hc hops hp hk he => simpa [OpsInv, Token.isOp, List.filter_cons, hops] using hi
  | call c c' _ popped kept g hg hc f n ac hops hp hac he => simpa [OpsInv, Token.isOp, List.filter_cons, hops] using hi
  | comma _ c popped kept n ac hops hp hac hcheck => simpa [OpsInv, Token.isOp, List.filter_cons, hops] using hi

theorem infixToRpn_ops {ctx : Ctx N} {tokens rpn : List (Token N)} (hm : ctx.config.implicitMul = false)
    (h : infixToRpn ctx tokens = .ok rpn) : List.Perm (rpn.filter Token.isOp) (tokens.filter Token.isOp) := by
  obtain ⟨st, h1, rfl⟩ := infixToRpn_ok h
  have := syLoop_inv ctx tokens (fun pos st => OpsInv (tokens.take pos) st) ?_ 0 tokens (by simp) SY.init st
    (by simp [OpsInv, SY.init]) h1
  · simpa [OpsInv] using this
  · intro pos t rest st st' hd hi hs
    obtain ⟨st1, he, h'⟩ := syStep_eff hs
    have ht : tokens.take (pos + 1) = tokens.take pos ++ [t] := by
      rw [List.take_add_one, drop_getElem? hd]; simp
    rw [ht]
    rcases h' with rfl | ⟨h, _⟩
    · exact opsInv_eff he hi
    · rw [hm] at h; cases h

/-! ## Counting operands -/

theorem rpnLoop_count {ctx : Ctx N} {l : List (Token N)} {vals r : List N} {ac : Option Nat} (hf : ∀ t ∈ l, t.isFunction = false)
    (h : rpnLoop ctx l vals ac = .ok r) :
    vals.length + (l.filter Token.isAtom).length = r.length + (l.filter Token.isBinary).length := by
  induction l generalizing vals ac with
  | nil => simp [rpnLoop] at h; simp [h]
  | cons t l ih =>
    have ht := hf t (by simp)
    have ih := @ih
    simp only [rpnLoop] at h
    cases hs : rpnStep ctx t vals ac with
    | err k => simp [hs] at h
    | panic => simp [hs] at h
    | ok p =>
      rw [hs, Res.bind_ok] at h
      have ih := ih (fun t ht => hf t (by simp [ht])) h
      cases t with
      | number n => simp [rpnStep] at hs; subst hs; simp_all [Token.isAtom, Token.isBinary, List.filter_cons]; omega
      | variable_ n =>
        cases hv : ctx.getVariable n <;> simp [rpnStep, hv, Res.ofOption] at hs
        subst hs; simp_all [Token.isAtom, Token.isBinary, List.filter_cons]; omega
      | constant n =>
        cases hv : ctx.getConstant n <;> simp [rpnStep, hv, Res.ofOption] at hs
        subst hs; simp_all [Token.isAtom, Token.isBinary, List.filter_cons]; omega
      | unary n =>
        cases hv : ctx.getUnary n <;> simp [rpnStep, hv, Res.ofOption] at hs
        rename_i f
        cases vals with
        | nil => simp at hs
        | cons x vals =>
          cases hc : f.call x <;> simp [hc] at hs
          subst hs; simp_all [Token.isAtom, Token.isBinary, List.filter_cons]
      | binary n =>
        cases hv : ctx.getBinary n <;> simp [rpnStep, hv, Res.ofOption] at hs
        rename_i f
        match vals, hs with
        | [], hs => simp at hs
        | [x], hs => simp at hs
        | x :: y :: vals, hs =>
          cases hc : f.call y x <;> simp [hc] at hs
          subst hs; simp_all [Token.isAtom, Token.isBinary, List.filter_cons]; omega
      | argCount n =>
        cases ac <;> simp [rpnStep] at hs
        subst hs; simp_all [Token.isAtom, Token.isBinary, List.filter_cons]
      | function n => simp [Token.isFunction] at ht
      | gopen n => simp [rpnStep] at hs
      | gclose n => simp [rpnStep] at hs
      | unknown n => simp [rpnStep] at hs
      | comma => simp [rpnStep] at hs

theorem filter_length_perm {α : Type} {a b : List α} (h : List.Perm a b) (p : α → Bool) : (a.filter p).length = (b.filter p).length :=
  (h.filter p).length_eq

theorem evalTokens_count {ctx : Ctx N} {tokens : List (Token N)} {v : N} (hm : ctx.config.implicitMul = false)
    (hf : ∀ t ∈ tokens, t.isFunction = false) (h : evalTokens ctx tokens = .ok v) :
    (tokens.filter Token.isAtom).length = (tokens.filter Token.isBinary).length + 1 := by
  unfold evalTokens at h
  cases hi : infixToRpn ctx tokens with
  | err k => simp [hi] at h
  | panic => simp [hi] at h
  | ok rpn =>
    simp only [hi, Res.bind_ok] at h
    have ha := infixToRpn_atoms hi
    have ho := infixToRpn_ops hm hi
    have hff : ∀ t ∈ rpn, t.isFunction = false := by
      intro t ht
      cases hft : t.isFunction with
      | false => rfl
      | true =>
        have : t ∈ rpn.filter Token.isOp := by
          rw [List.mem_filter]; exact ⟨ht, by cases t <;> simp_all [Token.isOp, Token.isFunction]⟩
        have := (ho.mem_iff).1 this
        rw [List.mem_filter] at this
        have := hf t this.1
        simp_all
    have hb : (rpn.filter Token.isBinary).length = (tokens.filter Token.isBinary).length := by
      have := filter_length_perm ho Token.isBinary
      rw [List.filter_filter, List.filter_filter] at this
      have e : ∀ t : Token N, (t.isBinary && t.isOp) = t.isBinary := by intro t; cases t <;> simp [Token.isBinary, Token.isOp]
      simpa [e] using this
    cases hr : rpnLoop ctx rpn [] none with
    | err k => simp [hr] at h
    | panic => simp [hr] at h
    | ok r =>
      have hc := rpnLoop_count hff hr
      rw [hr, Res.bind_ok] at h
      have : r.length = 1 := by
        match r, h with
        | [x], _ => rfl
        | [], h => simp [rpnResult] at h
        | a :: b :: r, h => simp [rpnResult] at h
      rw [ha, hb, this] at hc
      simp at hc
      omega

end Prexel
