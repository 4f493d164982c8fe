import Verif.Spec.Renaming
import Verif.Lemmas.Simulation
/-!
# Lemmas: evaluation does not depend on which of its names is used for a function
-/

set_option linter.unusedVariables false

namespace Prexel
variable {N : Type} {c : Ctx N}

abbrev RenamedAll (c : Ctx N) := Pairwise2 (Renamed c)

/-- Both fail alike, or both succeed with related results. -/
abbrev LiftEq {α : Type} (R : α → α → Prop) : Res α → Res α → Prop := Lift R .none

/-- Related states. -/
structure SYRenamed (c : Ctx N) (a b : SY N) : Prop where
  output : RenamedAll c a.output b.output
  ops : RenamedAll c a.ops b.ops
  argc : a.argc = b.argc
  grp : a.grp = b.grp

theorem pushNumber_ren {a b : SY N} (hs : SYRenamed c a b) {t u : Token N} (ht : Renamed c t u) :
    SYRenamed c (pushNumber c a t) (pushNumber c b u) := by
  obtain ⟨o1, p1, r1, g1⟩ := a
  obtain ⟨o2, p2, r2, g2⟩ := b
  obtain ⟨ho, hp, hr, hg⟩ := hs
  simp only at ho hp hr hg
  unfold pushNumber
  cases hp with
  | nil => exact ⟨ho.snoc ht, .nil, hr, hg⟩
  | cons ht' hp' =>
    have h0 := ht'
    cases ht' with
    | unary h =>
      simp only [h]
      split
      · exact ⟨ho.append2 (.cons ht (.cons h0 .nil)), hp', hr, hg⟩
      · exact ⟨ho.snoc ht, .cons h0 hp', hr, hg⟩
    | _ => exact ⟨ho.snoc ht, .cons h0 hp', hr, hg⟩

theorem popForBinary_ren (f : BinFn N) {ops ops' : List (Token N)} (hops : RenamedAll c ops ops') {out out' : List (Token N)}
    (hout : RenamedAll c out out') :
    RenamedAll c (popForBinary c f ops out).1 (popForBinary c f ops' out').1 ∧
    RenamedAll c (popForBinary c f ops out).2 (popForBinary c f ops' out').2 := by
  induction hops generalizing out out' with
  | nil => exact ⟨.nil, hout⟩
  | cons ht hp ih =>
    have h0 := ht
    cases ht with
    | binary h =>
      simp only [popForBinary, h]
      split
      · split
        · exact ih (hout.snoc h0)
        · exact ⟨.cons h0 hp, hout⟩
      · exact ⟨.cons h0 hp, hout⟩
    | function h => exact ih (hout.snoc h0)
    | _ => exact ⟨.cons h0 hp, hout⟩

/-- Related results of `popToOpen`. -/
def OpenRenamed (c : Ctx N) (a b : Char × List (Token N) × List (Token N)) : Prop :=
  a.1 = b.1 ∧ RenamedAll c a.2.1 b.2.1 ∧ RenamedAll c a.2.2 b.2.2

theorem popToOpen_ren {ops ops' : List (Token N)} (hops : RenamedAll c ops ops') {out out' : List (Token N)} (hout : RenamedAll c out out') :
    Both (OpenRenamed c) (popToOpen ops out) (popToOpen ops' out') := by
  induction hops generalizing out out' with
  | nil => exact .none
  | cons ht hp ih =>
    have h0 := ht
    cases ht with
    | gopen s => exact .some ⟨rfl, hp, hout⟩
    | _ => exact ih (hout.snoc h0)

/-- Related results of `popUntilOpen`. -/
def UntilRenamed (c : Ctx N) (a b : List (Token N) × List (Token N)) : Prop := RenamedAll c a.1 b.1 ∧ RenamedAll c a.2 b.2

theorem popUntilOpen_ren {ops ops' : List (Token N)} (hops : RenamedAll c ops ops') {out out' : List (Token N)} (hout : RenamedAll c out out') :
    Both (UntilRenamed c) (popUntilOpen ops out) (popUntilOpen ops' out') := by
  induction hops generalizing out out' with
  | nil => exact .none
  | cons ht hp ih =>
    have h0 := ht
    cases ht with
    | gopen s => exact .some ⟨.cons h0 hp, hout⟩
    | _ => exact ih (hout.snoc h0)

theorem Renamed.isGopen {t u : Token N} (h : Renamed c t u) : t.isGopen = u.isGopen := by cases h <;> rfl
theorem Renamed.isGclose {t u : Token N} (h : Renamed c t u) : t.isGclose = u.isGclose := by cases h <;> rfl
theorem Renamed.isFunction {t u : Token N} (h : Renamed c t u) : t.isFunction = u.isFunction := by cases h <;> rfl
theorem Renamed.containsSymbol {t u : Token N} (h : Renamed c t u) (x : Char) : t.containsSymbol x = u.containsSymbol x := by cases h <;> rfl

theorem any_ren {t u : Option (Token N)} (h : Both (Renamed c) t u) {p : Token N → Bool} (hpq : ∀ t u, Renamed c t u → p t = p u) :
    t.any p = u.any p := by
  cases h with
  | none => rfl
  | some h => exact hpq _ _ h

theorem checkComma_ren {ts us : List (Token N)} (h : RenamedAll c ts us) (grp : List Nat) (pos : Nat) :
    checkCommaPosition ts grp pos = checkCommaPosition us grp pos := by
  unfold checkCommaPosition
  rw [any_ren (h.get (pos - 1)) fun _ _ h => h.isGopen, any_ren (h.get (pos + 1)) fun _ _ h => h.isGclose]
  cases grp with
  | nil => rfl
  | cons g grp =>
    cases g with
    | zero => rfl
    | succ g => simp only [any_ren (h.get g) fun _ _ h => h.isFunction]

theorem emptyGroup_ren {ts us : List (Token N)} (h : RenamedAll c ts us) (pos : Nat) (x : Char) :
    emptyGroup c ts pos x = emptyGroup c us pos x := by
  unfold emptyGroup
  split
  · have h1 := h.get (pos - 1)
    cases ht : ts[pos - 1]? <;> cases hu : us[pos - 1]? <;> rw [ht, hu] at h1 <;> cases h1 <;> try rfl
    · rename_i h2
      cases h2 <;> try rfl
      simp only
      split
      · have h3 := h.get (pos - 2)
        cases ht : ts[pos - 2]? <;> cases hu : us[pos - 2]? <;> rw [ht, hu] at h3 <;> cases h3 <;> try rfl
        · rename_i h4
          simp only [h4.isFunction]
      · rfl
  · rfl

theorem pushGroupingClose_ren (x : Char) {a b : SY N} (hs : SYRenamed c a b) :
    LiftEq (SYRenamed c) (pushGroupingClose c x a) (pushGroupingClose c x b) := by
  obtain ⟨o1, p1, r1, g1⟩ := a
  obtain ⟨o2, p2, r2, g2⟩ := b
  obtain ⟨ho, hp, hr, hg⟩ := hs
  simp only at ho hp hr hg
  subst hr hg
  unfold pushGroupingClose
  have h1 := popToOpen_ren hp ho
  simp only
  cases ht : popToOpen p1 o1 with
  | none =>
    cases hu : popToOpen p2 o2 with
    | none => exact .err _
    | some q => rw [ht, hu] at h1; cases h1
  | some q =>
    cases hu : popToOpen p2 o2 with
    | none => rw [ht, hu] at h1; cases h1
    | some q' =>
      rw [ht, hu] at h1
      obtain ⟨c1, q1, q2⟩ := q
      obtain ⟨c2, q3, q4⟩ := q'
      cases h1 with
      | some h1 =>
        obtain ⟨h2, h3, h4⟩ := h1
        simp only at h2 h3 h4
        subst h2
        simp only
        cases c.config.getGroupSymbol c1 with
        | none => exact .err _
        | some s =>
          obtain ⟨s1, s2⟩ := s
          simp only
          split
          · cases r1 with
            | nil => exact .ok ⟨h4, h3, rfl, rfl⟩
            | cons n r1 =>
              cases h3 with
              | nil => exact .ok ⟨h4, .nil, rfl, rfl⟩
              | cons h5 h6 =>
                have h0 := h5
                cases h5 with
                | function s => exact .ok ⟨h4.append2 (.cons (.argCount _) (.cons h0 .nil)), h6, rfl, rfl⟩
                | _ => exact .ok ⟨h4, .cons h0 h6, rfl, rfl⟩
          · exact .err _

theorem pushComma_ren {a b : SY N} (hs : SYRenamed c a b) : LiftEq (SYRenamed c) (pushComma a) (pushComma b) := by
  obtain ⟨o1, p1, r1, g1⟩ := a
  obtain ⟨o2, p2, r2, g2⟩ := b
  obtain ⟨ho, hp, hr, hg⟩ := hs
  simp only at ho hp hr hg
  subst hr hg
  unfold pushComma
  cases r1 with
  | nil => exact .err _
  | cons n r1 =>
    simp only
    have h1 := popUntilOpen_ren hp ho
    cases ht : popUntilOpen p1 o1 with
    | none =>
      cases hu : popUntilOpen p2 o2 with
      | none => exact .err _
      | some q => rw [ht, hu] at h1; cases h1
    | some q =>
      cases hu : popUntilOpen p2 o2 with
      | none => rw [ht, hu] at h1; cases h1
      | some q' =>
        rw [ht, hu] at h1
        cases h1 with
        | some h1 => exact .ok ⟨h1.2, h1.1, rfl, rfl⟩

theorem dispatch_ren {ts us : List (Token N)} (hts : RenamedAll c ts us) (pos : Nat) {t u : Token N} (ht : Renamed c t u)
    {next next' : Option (Token N)} (hn : Both (Renamed c) next next') {a b : SY N} (hs : SYRenamed c a b) :
    LiftEq (SYRenamed c) (dispatch c ts pos t next a) (dispatch c us pos u next' b) := by
  have h0 := ht
  cases ht with
  | number _ => exact .ok (pushNumber_ren hs h0)
  | variable_ _ => exact .ok (pushNumber_ren hs h0)
  | constant _ => exact .ok (pushNumber_ren hs h0)
  | function h =>
    simp only [dispatch, any_ren hn fun _ _ h => h.containsSymbol '(']
    split
    · exact .err _
    · exact .ok ⟨hs.output, .cons h0 hs.ops, by simp [hs.argc], hs.grp⟩
  | binary h =>
    simp only [dispatch, pushBinaryFunction, h]
    split
    · exact .err _
    · obtain ⟨h1, h2⟩ := popForBinary_ren _ hs.ops hs.output
      exact .ok ⟨h2, .cons h0 h1, hs.argc, hs.grp⟩
  | unary h =>
    simp only [dispatch, pushUnaryFunction, h]
    split
    · split
      · exact .ok ⟨hs.output, .cons h0 hs.ops, hs.argc, hs.grp⟩
      · rw [hs.output.isEmpty2]
        split
        · exact .err _
        · exact .ok ⟨hs.output.snoc h0, hs.ops, hs.argc, hs.grp⟩
    · exact .err _
  | argCount n => exact .err _
  | gopen x => exact .ok ⟨hs.output, .cons (.gopen x) hs.ops, hs.argc, by simp only [hs.argc, hs.grp]⟩
  | gclose x =>
    simp only [dispatch]
    refine (pushGroupingClose_ren x hs).bind fun a b hs => ?_
    rw [emptyGroup_ren hts]
    cases emptyGroup c us pos x with
    | none => exact .panic
    | some e =>
      cases e
      · exact .ok ⟨hs.output, hs.ops, hs.argc, by simp only [hs.argc, hs.grp]⟩
      · exact .err _
  | unknown s => exact .err _
  | comma =>
    simp only [dispatch]
    rw [hs.grp, checkComma_ren hts]
    cases checkCommaPosition us b.grp pos with
    | ok _ => exact pushComma_ren hs
    | err k => exact .err k
    | panic => exact .panic

theorem head_ren {ts us : List (Token N)} (h : RenamedAll c ts us) : Both (Renamed c) ts.head? us.head? := by
  cases h with
  | nil => exact .none
  | cons h t => exact .some h

theorem implicit_ren {t u : Token N} (ht : Renamed c t u) {next next' : Option (Token N)} (hn : Both (Renamed c) next next') :
    implicitMulHere c t next = implicitMulHere c u next' := by
  unfold implicitMulHere
  cases hn with
  | none => cases ht <;> rfl
  | some hn => cases ht <;> cases hn <;> rfl

theorem syLoop_ren {ts us : List (Token N)} (hts : RenamedAll c ts us) {rest rest' : List (Token N)} (hr : RenamedAll c rest rest') (pos : Nat)
    {a b : SY N} (hs : SYRenamed c a b) : LiftEq (SYRenamed c) (syLoop c ts pos rest a) (syLoop c us pos rest' b) := by
  induction hr generalizing pos a b with
  | nil => exact .ok hs
  | cons ht hr ih =>
    simp only [syLoop, syStep]
    refine Lift.bind (R := SYRenamed c) ?_ fun a b hs => ih (pos + 1) hs
    refine (dispatch_ren hts pos ht (head_ren hr) hs).bind fun a b hs => .ok ?_
    unfold implicitMulBlock
    rw [implicit_ren ht (head_ren hr)]
    split
    · exact ⟨hs.output, .cons (.binary rfl) hs.ops, hs.argc, hs.grp⟩
    · exact hs

theorem flush_ren {ops ops' : List (Token N)} (hops : RenamedAll c ops ops') {out out' : List (Token N)} (hout : RenamedAll c out out') :
    LiftEq (RenamedAll c) (flush ops out) (flush ops' out') := by
  induction hops generalizing out out' with
  | nil => exact .ok hout
  | cons ht hp ih =>
    simp only [flush, ht.isGclose]
    split
    · exact .err _
    · exact ih (hout.snoc ht)

theorem infixToRpn_ren {ts us : List (Token N)} (hts : RenamedAll c ts us) : LiftEq (RenamedAll c) (infixToRpn c ts) (infixToRpn c us) :=
  (syLoop_ren hts hts 0 ⟨.nil, .nil, rfl, rfl⟩).bind fun _ _ hs => flush_ren hs.ops hs.output

theorem rpnStep_ren {t u : Token N} (ht : Renamed c t u) (vs : List N) (ac : Option Nat) : rpnStep c t vs ac = rpnStep c u vs ac := by
  cases ht <;> simp only [rpnStep, *]

theorem rpnLoop_ren {ts us : List (Token N)} (ht : RenamedAll c ts us) (vs : List N) (ac : Option Nat) : rpnLoop c ts vs ac = rpnLoop c us vs ac := by
  induction ht generalizing vs ac with
  | nil => rfl
  | cons ht hr ih => simp only [rpnLoop, rpnStep_ren ht, ih]

theorem evalTokens_ren {ts us : List (Token N)} (hts : RenamedAll c ts us) : evalTokens c ts = evalTokens c us := by
  have h := infixToRpn_ren hts
  unfold evalTokens
  cases ha : infixToRpn c ts <;> cases hb : infixToRpn c us <;> rw [ha, hb] at h <;> cases h <;> first | rfl | skip
  all_goals first | (rename_i h; simp only [Res.bind_ok, rpnLoop_ren h]) | (rename_i h; exact absurd h (by decide)) | (rename_i h _; exact absurd h (by decide))

end Prexel
