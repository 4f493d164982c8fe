import Verif.Spec.Simulation
import Verif.Lemmas.Universal2
/-!
# Lemmas: related contexts evaluate related tokens to related results
-/

set_option linter.unusedVariables false
set_option linter.unusedSimpArgs false

namespace Prexel
variable {N M : Type} {R : N → M → Prop} {slack : Slack}

theorem Lift.bind {α β γ δ : Type} {R : α → β → Prop} {S : γ → δ → Prop} {x : Res α} {y : Res β} {f : α → Res γ} {g : β → Res δ}
    (h : Lift R slack x y) (hf : ∀ v w, R v w → Lift S slack (f v) (g w)) : Lift S slack (x.bind f) (y.bind g) := by
  cases h with
  | ok h => exact hf _ _ h
  | err k => exact .err k
  | panic => exact .panic
  | anyErr k y h => exact .anyErr k _ h
  | anyPanic y h => exact .anyPanic _ h

theorem Both.lift {α β : Type} {R : α → β → Prop} {x : Option α} {y : Option β} (h : Both R x y) (k : ErrorKind) :
    Lift R slack (Res.ofOption x k) (Res.ofOption y k) := by
  cases h with
  | none => exact .err k
  | some h => exact .ok h

/-- Every name of the contexts is related. -/
structure Similar (R : N → M → Prop) (slack : Slack) (c : Ctx N) (d : Ctx M) : Prop where
  config : c.config = d.config
  variables : ∀ s, Both R (c.getVariable s) (d.getVariable s)
  constants : ∀ s, Both R (c.getConstant s) (d.getConstant s)
  functions : ∀ s, Both (FnRel R slack) (c.getFunction s) (d.getFunction s)
  unary : ∀ s, Both (UnRel R slack) (c.getUnary s) (d.getUnary s)
  binary : ∀ s, Both (BinRel R slack) (c.getBinary s) (d.getBinary s)

abbrev TokensRel (R : N → M → Prop) := Pairwise2 (TokenRel R)

theorem Pairwise2.append2 {α β : Type} {R : α → β → Prop} {a : List α} {b : List β} {c : List α} {d : List β} (h : Pairwise2 R a b)
    (h' : Pairwise2 R c d) : Pairwise2 R (a ++ c) (b ++ d) := by
  induction h with
  | nil => exact h'
  | cons h t ih => exact .cons h ih

theorem Pairwise2.get {α β : Type} {R : α → β → Prop} {a : List α} {b : List β} (h : Pairwise2 R a b) (i : Nat) : Both R a[i]? b[i]? := by
  induction h generalizing i with
  | nil => exact .none
  | cons h t ih =>
    cases i with
    | zero => exact .some h
    | succ i => exact ih i

theorem Pairwise2.snoc {α β : Type} {R : α → β → Prop} {a : List α} {b : List β} {x : α} {y : β} (h : Pairwise2 R a b) (h' : R x y) :
    Pairwise2 R (a ++ [x]) (b ++ [y]) := h.append2 (.cons h' .nil)

theorem Pairwise2.isEmpty2 {α β : Type} {R : α → β → Prop} {a : List α} {b : List β} (h : Pairwise2 R a b) : a.isEmpty = b.isEmpty := by
  cases h <;> rfl

theorem Pairwise2.take {α β : Type} {R : α → β → Prop} {a : List α} {b : List β} (h : Pairwise2 R a b) (n : Nat) :
    Pairwise2 R (a.take n) (b.take n) := by
  induction h generalizing n with
  | nil => simp; exact .nil
  | cons h t ih =>
    cases n with
    | zero => exact .nil
    | succ n => exact .cons h (ih n)

theorem Pairwise2.drop {α β : Type} {R : α → β → Prop} {a : List α} {b : List β} (h : Pairwise2 R a b) (n : Nat) :
    Pairwise2 R (a.drop n) (b.drop n) := by
  induction h generalizing n with
  | nil => simp; exact .nil
  | cons h t ih =>
    cases n with
    | zero => exact .cons h t
    | succ n => exact ih n

theorem Pairwise2.reverse {α β : Type} {R : α → β → Prop} {a : List α} {b : List β} (h : Pairwise2 R a b) :
    Pairwise2 R a.reverse b.reverse := by
  induction h with
  | nil => exact .nil
  | cons h t ih => simp only [List.reverse_cons]; exact ih.snoc h

theorem Pairwise2.length {α β : Type} {R : α → β → Prop} {a : List α} {b : List β} (h : Pairwise2 R a b) : a.length = b.length := by
  induction h with
  | nil => rfl
  | cons h t ih => simp [ih]

/-- Related states. -/
structure SYRel (R : N → M → Prop) (a : SY N) (b : SY M) : Prop where
  output : TokensRel R a.output b.output
  ops : TokensRel R a.ops b.ops
  argc : a.argc = b.argc
  grp : a.grp = b.grp

variable {c : Ctx N} {d : Ctx M}

theorem pushNumber_sim (h : Similar R slack c d) {a : SY N} {b : SY M} (hs : SYRel R a b) {t : Token N} {u : Token M} (ht : TokenRel R t u) :
    SYRel R (pushNumber c a t) (pushNumber d b u) := by
  obtain ⟨o1, p1, r1, g1⟩ := a
  obtain ⟨o2, p2, r2, g2⟩ := b
  obtain ⟨ho, hp, hr, hg⟩ := hs
  simp only at ho hp hr hg
  unfold pushNumber
  cases hp with
  | nil => exact ⟨ho.snoc ht, .nil, hr, hg⟩
  | cons ht' hp' =>
    cases ht' with
    | unary s =>
      simp only
      have := h.unary s
      cases hc : c.getUnary s <;> cases hd : d.getUnary s <;> rw [hc, hd] at this <;> cases this
      · exact ⟨ho.snoc ht, .cons (.unary s) hp', hr, hg⟩
      · exact ⟨ho.append2 (.cons ht (.cons (.unary s) .nil)), hp', hr, hg⟩
    | number h => exact ⟨ho.snoc ht, .cons (.number h) hp', hr, hg⟩
    | variable_ s => exact ⟨ho.snoc ht, .cons (.variable_ s) hp', hr, hg⟩
    | constant s => exact ⟨ho.snoc ht, .cons (.constant s) hp', hr, hg⟩
    | function s => exact ⟨ho.snoc ht, .cons (.function s) hp', hr, hg⟩
    | binary s => exact ⟨ho.snoc ht, .cons (.binary s) hp', hr, hg⟩
    | argCount s => exact ⟨ho.snoc ht, .cons (.argCount s) hp', hr, hg⟩
    | gopen s => exact ⟨ho.snoc ht, .cons (.gopen s) hp', hr, hg⟩
    | gclose s => exact ⟨ho.snoc ht, .cons (.gclose s) hp', hr, hg⟩
    | unknown s => exact ⟨ho.snoc ht, .cons (.unknown s) hp', hr, hg⟩
    | comma => exact ⟨ho.snoc ht, .cons .comma hp', hr, hg⟩

theorem popForBinary_sim (h : Similar R slack c d) {f : BinFn N} {g : BinFn M} (hfg : f.prec = g.prec) {ops : List (Token N)} {ops' : List (Token M)}
    (hops : TokensRel R ops ops') {out : List (Token N)} {out' : List (Token M)} (hout : TokensRel R out out') :
    TokensRel R (popForBinary c f ops out).1 (popForBinary d g ops' out').1 ∧
    TokensRel R (popForBinary c f ops out).2 (popForBinary d g ops' out').2 := by
  induction hops generalizing out out' with
  | nil => exact ⟨.nil, hout⟩
  | cons ht hp ih =>
    cases ht with
    | binary s =>
      have hb := h.binary s
      simp only [popForBinary]
      cases hc : c.getBinary s <;> cases hd : d.getBinary s <;> rw [hc, hd] at hb <;> cases hb
      · exact ⟨.cons (.binary s) hp, hout⟩
      · rename_i fa fb hab
        obtain ⟨h1, h2, h3⟩ := hab
        have : popsBefore fa f = popsBefore fb g := by unfold popsBefore; rw [h1, h2, hfg]
        simp only [this]
        split
        · exact ih (hout.snoc (.binary s))
        · exact ⟨.cons (.binary s) hp, hout⟩
    | function s => exact ih (hout.snoc (.function s))
    | number h => exact ⟨.cons (.number h) hp, hout⟩
    | variable_ s => exact ⟨.cons (.variable_ s) hp, hout⟩
    | constant s => exact ⟨.cons (.constant s) hp, hout⟩
    | unary s => exact ⟨.cons (.unary s) hp, hout⟩
    | argCount s => exact ⟨.cons (.argCount s) hp, hout⟩
    | gopen s => exact ⟨.cons (.gopen s) hp, hout⟩
    | gclose s => exact ⟨.cons (.gclose s) hp, hout⟩
    | unknown s => exact ⟨.cons (.unknown s) hp, hout⟩
    | comma => exact ⟨.cons .comma hp, hout⟩

/-- Related results of `popToOpen`. -/
def OpenRel (R : N → M → Prop) (a : Char × List (Token N) × List (Token N)) (b : Char × List (Token M) × List (Token M)) : Prop :=
  a.1 = b.1 ∧ TokensRel R a.2.1 b.2.1 ∧ TokensRel R a.2.2 b.2.2

theorem popToOpen_sim {ops : List (Token N)} {ops' : List (Token M)}
    (hops : TokensRel R ops ops') {out : List (Token N)} {out' : List (Token M)} (hout : TokensRel R out out') :
    Both (OpenRel R) (popToOpen ops out) (popToOpen ops' out') := by
  induction hops generalizing out out' with
  | nil => exact .none
  | cons ht hp ih =>
    cases ht with
    | gopen s => exact .some ⟨rfl, hp, hout⟩
    | binary s => exact ih (hout.snoc (.binary s))
    | function s => exact ih (hout.snoc (.function s))
    | number h => exact ih (hout.snoc (.number h))
    | variable_ s => exact ih (hout.snoc (.variable_ s))
    | constant s => exact ih (hout.snoc (.constant s))
    | unary s => exact ih (hout.snoc (.unary s))
    | argCount s => exact ih (hout.snoc (.argCount s))
    | gclose s => exact ih (hout.snoc (.gclose s))
    | unknown s => exact ih (hout.snoc (.unknown s))
    | comma => exact ih (hout.snoc .comma)

/-- Related results of `popUntilOpen`. -/
def UntilRel (R : N → M → Prop) (a : List (Token N) × List (Token N)) (b : List (Token M) × List (Token M)) : Prop :=
  TokensRel R a.1 b.1 ∧ TokensRel R a.2 b.2

theorem popUntilOpen_sim {ops : List (Token N)} {ops' : List (Token M)}
    (hops : TokensRel R ops ops') {out : List (Token N)} {out' : List (Token M)} (hout : TokensRel R out out') :
    Both (UntilRel R) (popUntilOpen ops out) (popUntilOpen ops' out') := by
  induction hops generalizing out out' with
  | nil => exact .none
  | cons ht hp ih =>
    cases ht with
    | gopen s => exact .some ⟨.cons (.gopen s) hp, hout⟩
    | binary s => exact ih (hout.snoc (.binary s))
    | function s => exact ih (hout.snoc (.function s))
    | number h => exact ih (hout.snoc (.number h))
    | variable_ s => exact ih (hout.snoc (.variable_ s))
    | constant s => exact ih (hout.snoc (.constant s))
    | unary s => exact ih (hout.snoc (.unary s))
    | argCount s => exact ih (hout.snoc (.argCount s))
    | gclose s => exact ih (hout.snoc (.gclose s))
    | unknown s => exact ih (hout.snoc (.unknown s))
    | comma => exact ih (hout.snoc .comma)

theorem TokenRel.isGopen {t : Token N} {u : Token M} (h : TokenRel R t u) : t.isGopen = u.isGopen := by cases h <;> rfl
theorem TokenRel.isGclose {t : Token N} {u : Token M} (h : TokenRel R t u) : t.isGclose = u.isGclose := by cases h <;> rfl
theorem TokenRel.isFunction {t : Token N} {u : Token M} (h : TokenRel R t u) : t.isFunction = u.isFunction := by cases h <;> rfl
theorem TokenRel.containsSymbol {t : Token N} {u : Token M} (h : TokenRel R t u) (x : Char) : t.containsSymbol x = u.containsSymbol x := by
  cases h <;> rfl

theorem any_sim {t : Option (Token N)} {u : Option (Token M)} (h : Both (TokenRel R) t u) {p : Token N → Bool} {q : Token M → Bool}
    (hpq : ∀ t u, TokenRel R t u → p t = q u) : t.any p = u.any q := by
  cases h with
  | none => rfl
  | some h => exact hpq _ _ h

theorem checkComma_sim {ts : List (Token N)} {us : List (Token M)} (h : TokensRel R ts us) (grp : List Nat) (pos : Nat) :
    checkCommaPosition ts grp pos = checkCommaPosition us grp pos := by
  unfold checkCommaPosition
  rw [any_sim (h.get (pos - 1)) fun _ _ h => h.isGopen, any_sim (h.get (pos + 1)) fun _ _ h => h.isGclose]
  cases grp with
  | nil => rfl
  | cons g grp =>
    cases g with
    | zero => rfl
    | succ g => simp only [any_sim (h.get g) fun _ _ h => h.isFunction]

theorem emptyGroup_sim (hc : c.config = d.config) {ts : List (Token N)} {us : List (Token M)} (h : TokensRel R ts us) (pos : Nat) (x : Char) :
    emptyGroup c ts pos x = emptyGroup d us pos x := by
  unfold emptyGroup
  rw [hc]
  split
  · have h1 := h.get (pos - 1)
    cases ht : ts[pos - 1]? <;> cases hu : us[pos - 1]? <;> rw [ht, hu] at h1 <;> cases h1 <;> try rfl
    · rename_i h2
      cases h2 <;> try rfl
      simp only
      split
      · have h3 := h.get (pos - 2)
        cases ht : ts[pos - 2]? <;> cases hu : us[pos - 2]? <;> rw [ht, hu] at h3 <;> cases h3 <;> try rfl
        · rename_i h4
          simp only [h4.isFunction]
      · rfl
  · rfl

theorem pushGroupingClose_sim (hc : c.config = d.config) (x : Char) {a : SY N} {b : SY M} (hs : SYRel R a b) :
    Lift (SYRel R) slack (pushGroupingClose c x a) (pushGroupingClose d x b) := by
  obtain ⟨o1, p1, r1, g1⟩ := a
  obtain ⟨o2, p2, r2, g2⟩ := b
  obtain ⟨ho, hp, hr, hg⟩ := hs
  simp only at ho hp hr hg
  subst hr hg
  unfold pushGroupingClose
  have h1 := popToOpen_sim hp ho
  simp only
  cases ht : popToOpen p1 o1 with
  | none =>
    cases hu : popToOpen p2 o2 with
    | none => exact .err _
    | some q => rw [ht, hu] at h1; cases h1
  | some q =>
    cases hu : popToOpen p2 o2 with
    | none => rw [ht, hu] at h1; cases h1
    | some q' =>
      rw [ht, hu] at h1
      obtain ⟨c1, q1, q2⟩ := q
      obtain ⟨c2, q3, q4⟩ := q'
      cases h1 with
      | some h1 =>
        obtain ⟨h2, h3, h4⟩ := h1
        simp only at h2 h3 h4
        subst h2
        simp only [hc]
        cases d.config.getGroupSymbol c1 with
        | none => exact .err _
        | some s =>
          obtain ⟨s1, s2⟩ := s
          simp only
          split
          · cases r1 with
            | nil => exact .ok ⟨h4, h3, rfl, rfl⟩
            | cons n r1 =>
              cases h3 with
              | nil => exact .ok ⟨h4, .nil, rfl, rfl⟩
              | cons h5 h6 =>
                cases h5 with
                | function s => exact .ok ⟨h4.append2 (.cons (.argCount _) (.cons (.function s) .nil)), h6, rfl, rfl⟩
                | gopen s => exact .ok ⟨h4, .cons (.gopen s) h6, rfl, rfl⟩
                | binary s => exact .ok ⟨h4, .cons (.binary s) h6, rfl, rfl⟩
                | number h => exact .ok ⟨h4, .cons (.number h) h6, rfl, rfl⟩
                | variable_ s => exact .ok ⟨h4, .cons (.variable_ s) h6, rfl, rfl⟩
                | constant s => exact .ok ⟨h4, .cons (.constant s) h6, rfl, rfl⟩
                | unary s => exact .ok ⟨h4, .cons (.unary s) h6, rfl, rfl⟩
                | argCount s => exact .ok ⟨h4, .cons (.argCount s) h6, rfl, rfl⟩
                | gclose s => exact .ok ⟨h4, .cons (.gclose s) h6, rfl, rfl⟩
                | unknown s => exact .ok ⟨h4, .cons (.unknown s) h6, rfl, rfl⟩
                | comma => exact .ok ⟨h4, .cons .comma h6, rfl, rfl⟩
          · exact .err _

theorem pushComma_sim {a : SY N} {b : SY M} (hs : SYRel R a b) : Lift (SYRel R) slack (pushComma a) (pushComma b) := by
  obtain ⟨o1, p1, r1, g1⟩ := a
  obtain ⟨o2, p2, r2, g2⟩ := b
  obtain ⟨ho, hp, hr, hg⟩ := hs
  simp only at ho hp hr hg
  subst hr hg
  unfold pushComma
  cases r1 with
  | nil => exact .err _
  | cons n r1 =>
    simp only
    have h1 := popUntilOpen_sim hp ho
    cases ht : popUntilOpen p1 o1 with
    | none =>
      cases hu : popUntilOpen p2 o2 with
      | none => exact .err _
      | some q => rw [ht, hu] at h1; cases h1
    | some q =>
      cases hu : popUntilOpen p2 o2 with
      | none => rw [ht, hu] at h1; cases h1
      | some q' =>
        rw [ht, hu] at h1
        cases h1 with
        | some h1 => exact .ok ⟨h1.2, h1.1, rfl, rfl⟩

theorem dispatch_sim (h : Similar R slack c d) {ts : List (Token N)} {us : List (Token M)} (hts : TokensRel R ts us) (pos : Nat)
    {t : Token N} {u : Token M} (ht : TokenRel R t u) {next : Option (Token N)} {next' : Option (Token M)} (hn : Both (TokenRel R) next next')
    {a : SY N} {b : SY M} (hs : SYRel R a b) : Lift (SYRel R) slack (dispatch c ts pos t next a) (dispatch d us pos u next' b) := by
  cases ht with
  | number hr => exact .ok (pushNumber_sim h hs (.number hr))
  | variable_ s => exact .ok (pushNumber_sim h hs (.variable_ s))
  | constant s => exact .ok (pushNumber_sim h hs (.constant s))
  | function s =>
    simp only [dispatch, h.config, any_sim hn fun _ _ h => h.containsSymbol '(']
    split
    · exact .err _
    · exact .ok ⟨hs.output, .cons (.function s) hs.ops, by simp [hs.argc], hs.grp⟩
  | binary s =>
    simp only [dispatch, pushBinaryFunction]
    have hb := h.binary s
    cases hc : c.getBinary s <;> cases hd : d.getBinary s <;> rw [hc, hd] at hb <;> cases hb
    · exact .err _
    · rename_i hab
      obtain ⟨h1, h2⟩ := popForBinary_sim h hab.1 hs.ops hs.output
      exact .ok ⟨h2, .cons (.binary s) h1, hs.argc, hs.grp⟩
  | unary s =>
    simp only [dispatch, pushUnaryFunction]
    have hb := h.unary s
    cases hc : c.getUnary s <;> cases hd : d.getUnary s <;> rw [hc, hd] at hb <;> cases hb
    · exact .err _
    · rename_i hab
      simp only [hab.1]
      split
      · exact .ok ⟨hs.output, .cons (.unary s) hs.ops, hs.argc, hs.grp⟩
      · rw [hs.output.isEmpty2]
        split
        · exact .err _
        · exact .ok ⟨hs.output.snoc (.unary s), hs.ops, hs.argc, hs.grp⟩
  | argCount n => exact .err _
  | gopen x => exact .ok ⟨hs.output, .cons (.gopen x) hs.ops, hs.argc, by simp only [hs.argc, hs.grp]⟩
  | gclose x =>
    simp only [dispatch]
    refine (pushGroupingClose_sim h.config x hs).bind fun a b hs => ?_
    rw [emptyGroup_sim h.config hts]
    cases emptyGroup d us pos x with
    | none => exact .panic
    | some e =>
      cases e
      · exact .ok ⟨hs.output, hs.ops, hs.argc, by simp only [hs.argc, hs.grp]⟩
      · exact .err _
  | unknown s => exact .err _
  | comma =>
    simp only [dispatch]
    rw [hs.grp, checkComma_sim hts]
    cases checkCommaPosition us b.grp pos with
    | ok _ => exact pushComma_sim hs
    | err k => exact .err k
    | panic => exact .panic

theorem head_sim {ts : List (Token N)} {us : List (Token M)} (h : TokensRel R ts us) : Both (TokenRel R) ts.head? us.head? := by
  cases h with
  | nil => exact .none
  | cons h t => exact .some h

theorem implicit_sim (hc : c.config = d.config) {t : Token N} {u : Token M} (ht : TokenRel R t u) {next : Option (Token N)}
    {next' : Option (Token M)} (hn : Both (TokenRel R) next next') : implicitMulHere c t next = implicitMulHere d u next' := by
  unfold implicitMulHere
  rw [hc]
  cases hn with
  | none => cases ht <;> rfl
  | some hn => cases ht <;> cases hn <;> rfl

theorem syLoop_sim (h : Similar R slack c d) {ts : List (Token N)} {us : List (Token M)} (hts : TokensRel R ts us)
    {rest : List (Token N)} {rest' : List (Token M)} (hr : TokensRel R rest rest') (pos : Nat)
    {a : SY N} {b : SY M} (hs : SYRel R a b) : Lift (SYRel R) slack (syLoop c ts pos rest a) (syLoop d us pos rest' b) := by
  induction hr generalizing pos a b with
  | nil => exact .ok hs
  | cons ht hr ih =>
    simp only [syLoop, syStep]
    refine Lift.bind (R := SYRel R) ?_ fun a b hs => ih (pos + 1) hs
    refine (dispatch_sim h hts pos ht (head_sim hr) hs).bind fun a b hs => .ok ?_
    unfold implicitMulBlock
    rw [implicit_sim h.config ht (head_sim hr)]
    split
    · exact ⟨hs.output, .cons (.binary _) hs.ops, hs.argc, hs.grp⟩
    · exact hs

theorem flush_sim {ops : List (Token N)} {ops' : List (Token M)} (hops : TokensRel R ops ops') {out : List (Token N)} {out' : List (Token M)}
    (hout : TokensRel R out out') : Lift (TokensRel R) slack (flush ops out) (flush ops' out') := by
  induction hops generalizing out out' with
  | nil => exact .ok hout
  | cons ht hp ih =>
    simp only [flush, ht.isGclose]
    split
    · exact .err _
    · exact ih (hout.snoc ht)

theorem infixToRpn_sim (h : Similar R slack c d) {ts : List (Token N)} {us : List (Token M)} (hts : TokensRel R ts us) :
    Lift (TokensRel R) slack (infixToRpn c ts) (infixToRpn d us) :=
  (syLoop_sim h hts hts 0 ⟨.nil, .nil, rfl, rfl⟩).bind fun _ _ hs => flush_sim hs.ops hs.output

/-- Related values and pending argument counts. -/
def ValsRel (R : N → M → Prop) (a : List N × Option Nat) (b : List M × Option Nat) : Prop := Pairwise2 R a.1 b.1 ∧ a.2 = b.2

theorem rpnStep_sim (h : Similar R slack c d) {t : Token N} {u : Token M} (ht : TokenRel R t u) {vs : List N} {ws : List M}
    (hv : Pairwise2 R vs ws) (ac : Option Nat) : Lift (ValsRel R) slack (rpnStep c t vs ac) (rpnStep d u ws ac) := by
  cases ht with
  | number hr => exact .ok ⟨.cons hr hv, rfl⟩
  | variable_ s => exact ((h.variables s).lift _).bind fun _ _ hr => .ok ⟨.cons hr hv, rfl⟩
  | constant s => exact ((h.constants s).lift _).bind fun _ _ hr => .ok ⟨.cons hr hv, rfl⟩
  | argCount n =>
    simp only [rpnStep]
    split
    · exact .panic
    · exact .ok ⟨hv, rfl⟩
  | unary s =>
    refine ((h.unary s).lift _).bind fun f g hfg => ?_
    cases hv with
    | nil => exact .err _
    | cons hr hv => exact (hfg.2 _ _ hr).bind fun _ _ hr => .ok ⟨.cons hr hv, rfl⟩
  | binary s =>
    refine ((h.binary s).lift _).bind fun f g hfg => ?_
    cases hv with
    | nil => exact .err _
    | cons hr hv =>
      cases hv with
      | nil => exact .err _
      | cons hr' hv => exact (hfg.2.2 _ _ _ _ hr' hr).bind fun _ _ hr => .ok ⟨.cons hr hv, rfl⟩
  | function s =>
    refine ((h.functions s).lift _).bind fun f g hfg => ?_
    cases ac with
    | none => exact .err _
    | some n => exact (hfg _ _ (hv.take n).reverse).bind fun _ _ hr => .ok ⟨.cons hr (hv.drop n), rfl⟩
  | gopen x => exact .err _
  | gclose x => exact .err _
  | unknown s => exact .err _
  | comma => exact .err _

theorem rpnLoop_sim (h : Similar R slack c d) {ts : List (Token N)} {us : List (Token M)} (ht : TokensRel R ts us) {vs : List N} {ws : List M}
    (hv : Pairwise2 R vs ws) (ac : Option Nat) : Lift (Pairwise2 R) slack (rpnLoop c ts vs ac) (rpnLoop d us ws ac) := by
  induction ht generalizing vs ws ac with
  | nil => exact .ok hv
  | cons ht hr ih =>
    refine (rpnStep_sim h ht hv ac).bind fun a b hab => ?_
    rw [hab.2]
    exact ih hab.1 _

theorem evalTokens_similar (h : Similar R slack c d) {ts : List (Token N)} {us : List (Token M)} (hts : TokensRel R ts us) :
    Lift R slack (evalTokens c ts) (evalTokens d us) := by
  refine (infixToRpn_sim h hts).bind fun a b hab => (rpnLoop_sim h hab .nil none).bind fun vs ws hv => ?_
  cases hv with
  | nil => exact .err _
  | cons hr hv =>
    cases hv with
    | nil => exact .ok hr
    | cons hr' hv => exact .err _

theorem TokensRel.mem {ts : List (Token N)} {us : List (Token M)} (h : TokensRel R ts us) (t : Token N) (u : Token M)
    (htu : ∀ t', TokenRel R t' u ↔ t' = t) (hut : ∀ u', TokenRel R t u' ↔ u' = u) : t ∈ ts ↔ u ∈ us := by
  induction h with
  | nil => simp
  | @cons a b l m hab _ ih =>
    simp only [List.mem_cons, ih]
    constructor
    · rintro (rfl | h)
      · exact .inl ((hut _).mp hab).symm
      · exact .inr h
    · rintro (rfl | h)
      · exact .inl ((htu _).mp hab).symm
      · exact .inr h

/-- Contexts that are related on the names of an expression evaluate it to related results. -/
theorem evalTokens_sim {ts : List (Token N)} {us : List (Token M)} (hts : TokensRel R ts us) (h : CtxRel R slack c d ts) :
    Lift R slack (evalTokens c ts) (evalTokens d us) := by
  classical
  let c' : Ctx N :=
    { c with
      getVariable := fun s => if Token.variable_ s ∈ ts then c.getVariable s else none
      getConstant := fun s => if Token.constant s ∈ ts then c.getConstant s else none
      getFunction := fun s => if Token.function s ∈ ts then c.getFunction s else none
      getUnary := fun s => if Token.unary s ∈ ts then c.getUnary s else none
      getBinary := fun s => if Token.binary s ∈ ts ∨ (c.config.implicitMul = true ∧ s = ['*']) then c.getBinary s else none }
  let d' : Ctx M :=
    { d with
      getVariable := fun s => if Token.variable_ s ∈ us then d.getVariable s else none
      getConstant := fun s => if Token.constant s ∈ us then d.getConstant s else none
      getFunction := fun s => if Token.function s ∈ us then d.getFunction s else none
      getUnary := fun s => if Token.unary s ∈ us then d.getUnary s else none
      getBinary := fun s => if Token.binary s ∈ us ∨ (d.config.implicitMul = true ∧ s = ['*']) then d.getBinary s else none }
  have e1 : evalTokens c ts = evalTokens c' ts := (evalTokens_congr (c1 := c) (c2 := c') rfl (fun hm => by simp [c', hm]) ts (fun t ht => by
    cases t <;> simp only [AgreeOn, c'] <;> simp [ht])).2
  have e2 : evalTokens d us = evalTokens d' us := (evalTokens_congr (c1 := d) (c2 := d') rfl (fun hm => by simp [d', hm]) us (fun t ht => by
    cases t <;> simp only [AgreeOn, d'] <;> simp [ht])).2
  rw [e1, e2]
  have hv : ∀ s, Token.variable_ s ∈ ts ↔ Token.variable_ s ∈ us := fun s => hts.mem _ _
    (fun t' => ⟨fun h => by cases h; rfl, fun h => by subst h; exact .variable_ s⟩)
    (fun t' => ⟨fun h => by cases h; rfl, fun h => by subst h; exact .variable_ s⟩)
  have hk : ∀ s, Token.constant s ∈ ts ↔ Token.constant s ∈ us := fun s => hts.mem _ _
    (fun t' => ⟨fun h => by cases h; rfl, fun h => by subst h; exact .constant s⟩)
    (fun t' => ⟨fun h => by cases h; rfl, fun h => by subst h; exact .constant s⟩)
  have hf : ∀ s, Token.function s ∈ ts ↔ Token.function s ∈ us := fun s => hts.mem _ _
    (fun t' => ⟨fun h => by cases h; rfl, fun h => by subst h; exact .function s⟩)
    (fun t' => ⟨fun h => by cases h; rfl, fun h => by subst h; exact .function s⟩)
  have hu : ∀ s, Token.unary s ∈ ts ↔ Token.unary s ∈ us := fun s => hts.mem _ _
    (fun t' => ⟨fun h => by cases h; rfl, fun h => by subst h; exact .unary s⟩)
    (fun t' => ⟨fun h => by cases h; rfl, fun h => by subst h; exact .unary s⟩)
  have hb : ∀ s, Token.binary s ∈ ts ↔ Token.binary s ∈ us := fun s => hts.mem _ _
    (fun t' => ⟨fun h => by cases h; rfl, fun h => by subst h; exact .binary s⟩)
    (fun t' => ⟨fun h => by cases h; rfl, fun h => by subst h; exact .binary s⟩)
  refine evalTokens_similar (c := c') (d := d') (slack := slack) ⟨h.config, ?_, ?_, ?_, ?_, ?_⟩ hts
  · intro s
    simp only [c', d', ← hv]
    split
    · rename_i hm; exact h.variables s hm
    · exact .none
  · intro s
    simp only [c', d', ← hk]
    split
    · rename_i hm; exact h.constants s hm
    · exact .none
  · intro s
    simp only [c', d', ← hf]
    split
    · rename_i hm; exact h.functions s hm
    · exact .none
  · intro s
    simp only [c', d', ← hu]
    split
    · rename_i hm; exact h.unary s hm
    · exact .none
  · intro s
    simp only [c', d', ← hb, ← h.config]
    split
    · rename_i hm
      rcases hm with hm | ⟨hm, rfl⟩
      · exact h.binary s hm
      · exact h.implied hm
    · exact .none

end Prexel
