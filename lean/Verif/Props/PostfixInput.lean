import Verif.Lemmas.Conserve
import Verif.Lemmas.RpnExpr
import Verif.Props.Evaluator
/-!
# What `rpn_eval` takes (C155)
-/

set_option linter.unusedVariables false

namespace Prexel
variable {N : Type}

open Demo (ctx)

theorem eff_output {ctx : Ctx N} {tokens : List (Token N)} {pos : Nat} {t : Token N} {next : Option (Token N)} {st st' : SY N}
    (h : Eff ctx tokens pos next t st st') : ∃ x, st'.output = st.output ++ x := by
  cases h <;> first | exact ⟨_, rfl⟩ | exact ⟨[], (List.append_nil _).symm⟩ | exact ⟨_, List.append_assoc _ _ _⟩

/-- The place of an operand in a list is given by the number of the operands before it. -/
theorem same_place {t t' : Token N} (ht : t.isAtom = true) (ht' : t'.isAtom = true) : ∀ {a b s s' : List (Token N)}, a ++ t :: s = b ++ t' :: s' →
    (a.filter Token.isAtom).length = (b.filter Token.isAtom).length → a = b
  | [], [], _, _, _, _ => rfl
  | [], x :: b, _, _, h, hc => by
    obtain ⟨rfl, -⟩ := List.cons.inj h
    simp [ht] at hc
  | x :: a, [], _, _, h, hc => by
    obtain ⟨rfl, -⟩ := List.cons.inj h
    simp [ht'] at hc
  | x :: a, y :: b, _, _, h, hc => by
    obtain ⟨rfl, h2⟩ := List.cons.inj h
    have hc' : (a.filter Token.isAtom).length = (b.filter Token.isAtom).length := by
      rw [List.filter_cons, List.filter_cons] at hc
      split at hc
      · simpa only [List.length_cons, Nat.add_right_cancel_iff] using hc
      · exact hc
    exact congrArg (x :: ·) (@same_place t t' ht ht' a b _ _ h2 hc')

/-- C155: a list in which an operand comes right behind a binary operator is never left as it is. -/
theorem C155_reorders_counterexample (ctx : Ctx N) (hm : ctx.config.implicitMul = false) (l r : List (Token N)) (o : Str) (t : Token N) (ht : t.isAtom = true) :
    infixToRpn ctx (l ++ .binary o :: t :: r) ≠ .ok (l ++ .binary o :: t :: r) := by
  intro h
  obtain ⟨st, h1, h2⟩ := infixToRpn_ok h
  have := syLoop_inv ctx (l ++ .binary o :: t :: r) (fun pos st => AtomsInv ((l ++ Token.binary o :: t :: r).take pos) st ∧
    OpsInv ((l ++ Token.binary o :: t :: r).take pos) st ∧ (pos = l.length + 1 → ∃ k, st.ops = .binary o :: k) ∧
    (l.length + 2 ≤ pos → ∃ out k s, st.output = out ++ t :: s ∧ out.filter Token.isAtom = l.filter Token.isAtom ∧
      List.Perm ((out ++ Token.binary o :: k).filter Token.isOp) ((l ++ [Token.binary o]).filter Token.isOp))) ?_ 0 _ (by simp) SY.init st ?_ h1
  · obtain ⟨-, -, -, h4⟩ := this
    obtain ⟨out, k, s, e1, e2, e3⟩ := h4 (by simp)
    rw [e1, List.append_assoc, List.cons_append] at h2
    have e : out = l ++ [.binary o] := by
      refine same_place ht ht (s := s ++ st.ops) (s' := r) ?_ (by rw [e2]; simp [List.filter_cons, Token.isAtom])
      rw [← h2]; simp
    have := e3.length_eq
    rw [e] at this
    simp [List.filter_append, List.filter_cons, Token.isOp] at this
  · intro pos t' rest st st' hd ⟨i1, i2, i3, i4⟩ hs
    obtain ⟨st1, he, h'⟩ := syStep_eff hs
    have h' : st' = st1 := by
      rcases h' with h | ⟨h, _⟩
      · exact h
      · rw [hm] at h; cases h
    subst h'
    have hte : (l ++ Token.binary o :: t :: r).take (pos + 1) = (l ++ Token.binary o :: t :: r).take pos ++ [t'] := by
      rw [List.take_add_one, drop_getElem? hd]; simp
    have ht' := drop_getElem? hd
    refine ⟨hte ▸ atomsInv_eff he i1, hte ▸ opsInv_eff he i2, fun hp => ?_, fun hp => ?_⟩
    · have : pos = l.length := by omega
      subst this
      rw [List.getElem?_append_right (Nat.le_refl _)] at ht'
      simp at ht'
      subst ht'
      cases he <;> first | exact ⟨_, rfl⟩ | (rename_i h _; simp [Token.isAtom] at h) | (rename_i h; simp [Token.isAtom] at h)
    · by_cases hp2 : l.length + 2 ≤ pos
      · obtain ⟨out, k, s, e1, e2, e3⟩ := i4 hp2
        obtain ⟨x, hx⟩ := eff_output he
        exact ⟨out, k, s ++ x, by rw [hx, e1]; simp, e2, e3⟩
      · have hpos : pos = l.length + 1 := by omega
        subst hpos
        obtain ⟨k, hk⟩ := i3 rfl
        have htl : (l ++ Token.binary o :: t :: r).take (l.length + 1) = l ++ [.binary o] := by
          rw [List.take_append, List.take_of_length_le (by omega), Nat.add_sub_cancel_left]; rfl
        rw [List.getElem?_append_right (by omega)] at ht'
        simp at ht'
        subst ht'
        rw [htl] at i1 i2
        obtain ⟨x, hx⟩ : ∃ x, st'.output = st.output ++ t :: x := by
          cases he <;> first | exact ⟨[], rfl⟩ | exact ⟨_, rfl⟩ | (simp [Token.isAtom] at ht)
        refine ⟨st.output, k, x, hx, ?_, ?_⟩
        · rw [i1.1]; simp [List.filter_append, List.filter_cons, Token.isAtom]
        · have := i2
          unfold OpsInv at this
          rwa [hk] at this
  · simp [AtomsInv, OpsInv, SY.init]

example : infixToRpn (N := Int) (ctx false false) [.number 2, .number 3, .binary ['+'], .number 4, .binary ['*']] =
    .ok [.number 2, .number 3, .number 4, .binary ['*'], .binary ['+']] := by rfl

/-- A list with an `ArgCount` is refused, whatever else it contains. -/
theorem C155_calls_counterexample (ctx : Ctx N) (ts : List (Token N)) (n : Nat) (h : .argCount n ∈ ts) : ∃ k, infixToRpn ctx ts = .err k ∧ evalTokens ctx ts = .err k := by
  have hno : ∀ rpn, infixToRpn ctx ts ≠ .ok rpn := by
    intro rpn he
    obtain ⟨st, h1, -⟩ := infixToRpn_ok he
    obtain ⟨l, r, rfl⟩ := List.append_of_mem h
    have := syLoop_inv ctx (l ++ .argCount n :: r) (fun pos st => pos ≤ l.length) ?_ 0 _ (by simp) SY.init st (Nat.zero_le _) h1
    · simp at this
      omega
    · intro pos t rest st st' hd hi hs
      rcases Nat.lt_or_eq_of_le hi with hlt | rfl
      · exact hlt
      · obtain ⟨st1, he, -⟩ := syStep_eff hs
        have ht := drop_getElem? hd
        rw [List.getElem?_append_right (Nat.le_refl _)] at ht
        simp at ht
        subst ht
        cases he <;> simp [Token.isAtom] at *
  cases hr : infixToRpn ctx ts with
  | ok rpn => exact absurd hr (hno rpn)
  | panic => exact absurd hr (C04_infix_to_rpn_never_panics ctx ts)
  | err k => exact ⟨k, rfl, by simp [evalTokens, hr]⟩

/-! ## Where the postfix form is understood -/

/-- The operators of a list, the first first, each of which is popped when the next one comes. -/
def Descends (ctx : Ctx N) : List Str → Prop
  | o :: o' :: os => (∃ f g, ctx.getBinary o = some f ∧ ctx.getBinary o' = some g ∧ (f.prec > g.prec ∨ (f.prec = g.prec ∧ f.assoc = .left))) ∧
      Descends ctx (o' :: os)
  | [o] => ∃ f, ctx.getBinary o = some f
  | [] => True

theorem syLoop_ops (ctx : Ctx N) (tokens : List (Token N)) : ∀ (os : List Str) (o : Str) (pos : Nat) (out : List (Token N)), Descends ctx (o :: os) →
    ∃ last, syLoop ctx tokens pos (os.map .binary) ⟨out, [.binary o], [], []⟩ = .ok ⟨out ++ ((o :: os).map Token.binary).dropLast, [last], [], []⟩ ∧
      out ++ ((o :: os).map Token.binary).dropLast ++ [last] = out ++ (o :: os).map .binary
  | [], o, pos, out, _ => ⟨.binary o, by simp [syLoop], by simp⟩
  | o' :: os, o, pos, out, h => by
    obtain ⟨⟨f, g, hf, hg, hfg⟩, h'⟩ := h
    obtain ⟨last, h1, h2⟩ := syLoop_ops ctx tokens os o' (pos + 1) (out ++ [.binary o]) h'
    have hpop : popsBefore f g = true := by
      unfold popsBefore
      rcases hfg with h | ⟨h, h'⟩ <;> simp [h, *]
    refine ⟨last, ?_, by simpa [List.dropLast] using h2⟩
    have hs : syStep ctx tokens pos (.binary o') (os.map Token.binary).head? ⟨out, [.binary o], [], []⟩ = .ok ⟨out ++ [.binary o], [.binary o'], [], []⟩ := by
      simp [syStep, dispatch, pushBinaryFunction, hg, popForBinary, hf, hpop, implicitMulBlock, implicitMulHere]
    rw [List.map_cons, syLoop, hs, Res.bind_ok, h1]
    simp [List.dropLast]

/-- The operands of a list of which all operands come first go out as they come. -/
theorem syLoop_operands (ctx : Ctx N) (hm : ctx.config.implicitMul = false) (tokens : List (Token N)) (rest : List (Token N)) : ∀ (as : List (Token N)) (pos : Nat) (out : List (Token N)),
    (∀ t ∈ as, t.isAtom = true) → syLoop ctx tokens pos (as ++ rest) ⟨out, [], [], []⟩ = syLoop ctx tokens (pos + as.length) rest ⟨out ++ as, [], [], []⟩
  | [], pos, out, _ => by simp
  | t :: as, pos, out, h => by
    have ht := h t (List.mem_cons_self ..)
    have ih := syLoop_operands ctx hm tokens rest as (pos + 1) (out ++ [t]) fun x hx => h x (List.mem_cons_of_mem _ hx)
    have hs : ∀ next, syStep ctx tokens pos t next ⟨out, [], [], []⟩ = .ok ⟨out ++ [t], [], [], []⟩ := by
      intro next
      cases t <;> simp [Token.isAtom] at ht <;> simp [syStep, dispatch, pushNumber, implicitMulBlock, implicitMulHere, hm]
    rw [List.cons_append, syLoop, hs, Res.bind_ok, ih]
    simp [Nat.add_assoc, Nat.add_comm 1]

/-- A list of operands followed by descending operators is left as it is. -/
theorem infixToRpn_descends (ctx : Ctx N) (hm : ctx.config.implicitMul = false) (as : List (Token N)) (h : ∀ t ∈ as, t.isAtom = true) (os : List Str)
    (hd : Descends ctx os) : infixToRpn ctx (as ++ os.map .binary) = .ok (as ++ os.map .binary) := by
  unfold infixToRpn
  rw [SY.init, syLoop_operands ctx hm _ _ _ _ _ h]
  match os, hd with
  | [], _ => simp [syLoop, flush]
  | o :: os, hd =>
    have hg : ∃ f, ctx.getBinary o = some f := by
      cases os with
      | nil => exact hd
      | cons o' os => obtain ⟨⟨f, g, hf, -⟩, -⟩ := hd; exact ⟨f, hf⟩
    obtain ⟨f, hf⟩ := hg
    obtain ⟨last, h1, h2⟩ := syLoop_ops ctx (as ++ (o :: os).map .binary) os o (0 + as.length + 1) ([] ++ as) hd
    have hs : ∀ next, syStep ctx (as ++ (o :: os).map .binary) (0 + as.length) (.binary o) next ⟨[] ++ as, [], [], []⟩ = .ok ⟨[] ++ as, [.binary o], [], []⟩ := by
      intro next
      simp [syStep, dispatch, pushBinaryFunction, hf, popForBinary, implicitMulBlock, implicitMulHere, hm]
    have hl : last.isGclose = false := by
      have := congrArg List.getLast? h2
      simp only [List.getLast?_append, List.getLast?_singleton, Option.some_or] at this
      rw [List.getLast?_map] at this
      cases hx : (o :: os).getLast? with
      | none => simp at hx
      | some y => rw [hx] at this; simp at this; rw [this]; rfl
    rw [List.map_cons, syLoop, ← List.map_cons, hs, Res.bind_ok, h1, Res.bind_ok]
    simp only [flush, hl, Bool.or_self, Bool.false_eq_true, if_false]
    rw [h2, List.nil_append]

/-- C155, what holds: a postfix form of which all operands come first and whose operators are in descending order has the value its
tree has. -/
theorem C155_partial (c : Ctx N) (hm : c.config.implicitMul = false) (e : Expr N) (as : List (Token N)) (os : List Str)
    (he : e.postfix = as ++ os.map .binary) (ha : ∀ t ∈ as, t.isAtom = true) (hd : Descends c os) : evalTokens c e.postfix = e.denote c := by
  unfold evalTokens
  rw [he, infixToRpn_descends c hm as ha os hd, Res.bind_ok, ← he]
  have := rpnLoop_expr c e [] []
  rw [List.append_nil] at this
  rw [this]
  cases e.denote c <;> simp [rpnLoop, rpnResult]

/-- `2 3 4 * +` is 14, as it should be; the tree need not be one the precedences dictate. -/
example : evalTokens (ctx false false) [.number 2, .number 3, .number 4, .binary ['*'], .binary ['+']] = .ok 14 :=
  C155_partial (ctx false false) rfl (.bin ['+'] (.atom (.num 2)) (.bin ['*'] (.atom (.num 3)) (.atom (.num 4))))
    [.number 2, .number 3, .number 4] [['*'], ['+']] rfl (by simp [Token.isAtom]) ⟨⟨_, _, rfl, rfl, by decide⟩, _, rfl⟩

/-- C155 at its fullest: the claim that the doc comment makes for every tree. -/
def EvaluatesPostfix (c : Ctx N) : Prop := ∀ e : Expr N, evalTokens c e.postfix = e.denote c

/-- `2 3 + 4 *` is 20 in reverse Polish notation; the code says 14. -/
theorem C155_value_counterexample : ¬ EvaluatesPostfix (ctx false false) := fun h => by
  have := h (.bin ['*'] (.bin ['+'] (.atom (.num 2)) (.atom (.num 3))) (.atom (.num 4)))
  revert this
  decide

end Prexel
