import Verif.Lemmas.Universal
import Verif.Spec.Relations
/-!
# Brackets, unknown words, function calls, frame, substitution
-/

set_option linter.unusedVariables false
set_option linter.unusedSimpArgs false

namespace Prexel
variable {N : Type}

/-! ## Every token was processed by a successful step -/

theorem syLoop_steps {ctx : Ctx N} {tokens : List (Token N)} {pos : Nat} {rest : List (Token N)} {st st' : SY N}
    (hrest : tokens.drop pos = rest) (h : syLoop ctx tokens pos rest st = .ok st') (i : Nat) (hi : pos ≤ i) (t : Token N)
    (ht : tokens[i]? = some t) : ∃ s1 s2, syStep ctx tokens i t tokens[i + 1]? s1 = .ok s2 := by
  induction rest generalizing pos st with
  | nil =>
    have : tokens.length ≤ pos := by simpa using hrest
    have := List.getElem?_eq_none (show tokens.length ≤ i by omega)
    rw [this] at ht; cases ht
  | cons x rest ih =>
    simp only [syLoop] at h
    cases hs : syStep ctx tokens pos x rest.head? st with
    | err k => simp [hs] at h
    | panic => simp [hs] at h
    | ok st1 =>
      rw [hs, Res.bind_ok] at h
      have hdrop : tokens.drop (pos + 1) = rest := by rw [← List.drop_drop, hrest]; simp
      rcases Nat.eq_or_lt_of_le hi with rfl | hlt
      · have := drop_getElem? hrest
        rw [ht] at this
        cases this
        refine ⟨st, st1, ?_⟩
        rw [← hs, ← hdrop]
        simp
      · exact ih hdrop h hlt

theorem mem_getElem? {α : Type} {l : List α} {a : α} (h : a ∈ l) : ∃ i : Nat, l[i]? = some a := by
  obtain ⟨i, hi, rfl⟩ := List.getElem_of_mem h
  exact ⟨i, List.getElem?_eq_getElem hi⟩

/-! ## The postfix list of an accepted input contains only operands and operators -/

def Token.inRpn : Token N → Bool
  | .gopen _ => false
  | .gclose _ => false
  | .unknown _ => false
  | .comma => false
  | _ => true

theorem rpnLoop_inRpn {ctx : Ctx N} {l : List (Token N)} {vals : List N} {ac : Option Nat} {r : List N}
    (h : rpnLoop ctx l vals ac = .ok r) : ∀ t ∈ l, t.inRpn = true := by
  induction l generalizing vals ac with
  | nil => simp
  | cons t l ih =>
    simp only [rpnLoop] at h
    cases hs : rpnStep ctx t vals ac with
    | err k => simp [hs] at h
    | panic => simp [hs] at h
    | ok p =>
      rw [hs, Res.bind_ok] at h
      intro x hx
      simp only [List.mem_cons] at hx
      rcases hx with rfl | hx
      · cases x <;> simp_all [Token.inRpn, rpnStep]
      · exact ih h x hx

/-! ## Brackets -/

def opensOf (l : List (Token N)) : List Char :=
  l.filterMap fun t => match t with | .gopen c => some c | _ => none

theorem opensOf_noOpen {l : List (Token N)} (h : NoOpen l) : opensOf l = [] := by
  unfold opensOf
  rw [List.filterMap_eq_nil_iff]
  intro t ht
  have := h t ht
  cases t <;> simp_all [Token.isGopen]

theorem opensOf_append (a b : List (Token N)) : opensOf (a ++ b) = opensOf a ++ opensOf b := by
  simp [opensOf]

theorem Brackets.append {s e e' : List Char} {a b : List (Token N)} (h : Brackets s a e) (h' : Brackets e b e') :
    Brackets s (a ++ b) e' := by
  induction h with
  | nil s => exact h'
  | opn s c ts e h ih => exact .opn _ _ _ _ (ih h')
  | cls s o c ts e hc h ih => exact .cls _ _ _ _ _ hc (ih h')
  | other s t ts e ho hc h ih => exact .other _ _ _ _ ho hc (ih h')

theorem closes_of_new {c' c : Char} {g : Grouping} (hg : Grouping.new c' = some g) (hc : g.cls = c) : Closes c' c := by
  unfold Grouping.new at hg
  subst hc
  unfold Closes
  split at hg
  · rename_i h; cases hg; left; simpa [Grouping.cls] using h
  · split at hg
    · rename_i h; cases hg; right; left; simpa [Grouping.cls] using h
    · split at hg
      · rename_i h; cases hg; right; right; simpa [Grouping.cls] using h
      · simp at hg

theorem brackets_eff {ctx : Ctx N} {tokens : List (Token N)} {pos : Nat} {t : Token N} {next : Option (Token N)} {st st' : SY N}
    (h : Eff ctx tokens pos next t st st') : Brackets (opensOf st.ops) [t] (opensOf st'.ops) := by
  cases h with
  | atom t st ht =>
    exact .other _ _ _ _ (by cases t <;> simp_all [Token.isAtom]) (by cases t <;> simp_all [Token.isAtom]) (.nil _)
  | atomU t st ht u f hf ops hops =>
    have : opensOf st.ops = opensOf ops := by simp [hops, opensOf]
    rw [this]
    exact .other _ _ _ _ (by cases t <;> simp_all [Token.isAtom]) (by cases t <;> simp_all [Token.isAtom]) (.nil _)
  | bin o st f hf popped kept hops hp =>
    have : opensOf st.ops = opensOf (Token.binary o :: kept) := by
      rw [hops, opensOf_append, opensOf_noOpen hp]; simp [opensOf]
    rw [this]
    exact .other _ _ _ _ (by simp) (by simp) (.nil _)
  | pre u st f hf hn => exact .other _ _ _ _ (by simp) (by simp) (.nil _)
  | post u st f hf hn ho => exact .other _ _ _ _ (by simp) (by simp) (.nil _)
  | function f st hn => exact .other _ _ _ _ (by simp) (by simp) (.nil _)
  | gopen c st => exact .opn _ _ _ _ (.nil _)
  | group c c' st popped kept g hg hc hops hp hk he =>
    have : opensOf st.ops = c' :: opensOf kept := by
      rw [hops, opensOf_append, opensOf_noOpen hp]; simp [opensOf]
    rw [this]
    exact .cls _ _ _ _ _ (closes_of_new hg hc) (.nil _)
  | call c c' st popped kept g hg hc f n ac hops hp hac he =>
    have : opensOf st.ops = c' :: opensOf kept := by
      rw [hops, opensOf_append, opensOf_noOpen hp]; simp [opensOf]
    rw [this]
    exact .cls _ _ _ _ _ (closes_of_new hg hc) (.nil _)
  | comma st c popped kept n ac hops hp hac hcheck =>
    have : opensOf st.ops = opensOf (Token.gopen c :: kept) := by
      rw [hops, opensOf_append, opensOf_noOpen hp]; simp
    rw [this]
    exact .other _ _ _ _ (by simp) (by simp) (.nil _)

theorem syLoop_brackets {ctx : Ctx N} {tokens : List (Token N)} {st : SY N} (h : syLoop ctx tokens 0 tokens SY.init = .ok st) :
    Brackets [] tokens (opensOf st.ops) := by
  have := syLoop_inv ctx tokens (fun pos st => Brackets [] (tokens.take pos) (opensOf st.ops)) ?_ 0 tokens (by simp) SY.init st
    (by simpa [SY.init, opensOf] using Brackets.nil _) h
  · simpa using this
  · intro pos t rest st st' hd hi hs
    obtain ⟨st1, he, h'⟩ := syStep_eff hs
    have h1 := brackets_eff he
    have h2 : opensOf st'.ops = opensOf st1.ops := by
      rcases h' with rfl | ⟨_, _, _, rfl⟩ <;> simp [opensOf]
    rw [h2, List.take_add_one, drop_getElem? hd]
    exact hi.append h1

theorem evalTokens_balanced {ctx : Ctx N} {tokens : List (Token N)} {v : N} (h : evalTokens ctx tokens = .ok v) :
    Balanced tokens := by
  obtain ⟨st, h1, h2⟩ := evalTokens_ok h
  have := syLoop_brackets h1
  have h3 : opensOf st.ops = [] := by
    refine opensOf_noOpen fun t ht => ?_
    have := rpnLoop_inRpn h2 t (by simp [ht])
    cases t <;> simp_all [Token.inRpn, Token.isGopen]
  rw [h3] at this
  exact this

/-! ## Frame -/

theorem popForBinary_congr {c1 c2 : Ctx N} (f : BinFn N) (ops out : List (Token N)) (h : ∀ t ∈ ops, AgreeOn c1 c2 t) :
    popForBinary c1 f ops out = popForBinary c2 f ops out := by
  induction ops generalizing out with
  | nil => rfl
  | cons t ops ih =>
    have ht := h t (by simp)
    have ih := fun o => ih o (fun x hx => h x (by simp [hx]))
    cases t <;> simp only [popForBinary, ih]
    simp only [AgreeOn] at ht
    rw [ht]

theorem dispatch_congr {c1 c2 : Ctx N} (hc : c1.config = c2.config) (tokens : List (Token N)) (pos : Nat) (t : Token N)
    (next : Option (Token N)) (st : SY N) (ht : AgreeOn c1 c2 t) (h : ∀ t ∈ st.ops, AgreeOn c1 c2 t) :
    dispatch c1 tokens pos t next st = dispatch c2 tokens pos t next st := by
  have hpn : ∀ t, pushNumber c1 st t = pushNumber c2 st t := by
    intro t
    unfold pushNumber
    split
    · rename_i u ops hops
      have := h (.unary u) (by simp [hops])
      simp only [AgreeOn] at this
      rw [this]
    · rfl
  cases t with
  | number n => simp only [dispatch, hpn]
  | variable_ n => simp only [dispatch, hpn]
  | constant n => simp only [dispatch, hpn]
  | binary o =>
    simp only [AgreeOn] at ht
    simp only [dispatch, pushBinaryFunction, ht, popForBinary_congr _ _ _ h]
  | unary o =>
    simp only [AgreeOn] at ht
    simp only [dispatch, pushUnaryFunction, ht]
  | function f => simp only [dispatch, hc]
  | gopen c => rfl
  | gclose c => rfl
  | comma => rfl
  | argCount n => rfl
  | unknown n => rfl

theorem agree_eff {c1 c2 ctx : Ctx N} {tokens : List (Token N)} {pos : Nat} {t : Token N} {next : Option (Token N)} {st st' : SY N}
    (h : Eff ctx tokens pos next t st st') (ht : AgreeOn c1 c2 t) (h1 : ∀ t ∈ st.ops, AgreeOn c1 c2 t)
    (h2 : ∀ t ∈ st.output, AgreeOn c1 c2 t) :
    (∀ t ∈ st'.ops, AgreeOn c1 c2 t) ∧ (∀ t ∈ st'.output, AgreeOn c1 c2 t) := by
  cases h <;> simp_all <;> grind [AgreeOn]

theorem syLoop_congr {c1 c2 : Ctx N} (hc : c1.config = c2.config)
    (hmul : c1.config.implicitMul = true → c1.getBinary ['*'] = c2.getBinary ['*']) (tokens : List (Token N))
    (pos : Nat) (rest : List (Token N)) (hrest : ∀ t ∈ rest, AgreeOn c1 c2 t) (st : SY N)
    (h1 : ∀ t ∈ st.ops, AgreeOn c1 c2 t) (h2 : ∀ t ∈ st.output, AgreeOn c1 c2 t) :
    syLoop c1 tokens pos rest st = syLoop c2 tokens pos rest st ∧
    ∀ st', syLoop c1 tokens pos rest st = .ok st' →
      (∀ t ∈ st'.ops, AgreeOn c1 c2 t) ∧ (∀ t ∈ st'.output, AgreeOn c1 c2 t) := by
  induction rest generalizing pos st with
  | nil =>
    refine ⟨rfl, ?_⟩
    intro st' h
    simp only [syLoop, Res.ok.injEq] at h
    subst h
    exact ⟨h1, h2⟩
  | cons t rest ih =>
    have ht := hrest t (by simp)
    have hstep : syStep c1 tokens pos t rest.head? st = syStep c2 tokens pos t rest.head? st := by
      unfold syStep implicitMulBlock implicitMulHere
      rw [dispatch_congr hc tokens pos t _ st ht h1, hc]
    simp only [syLoop, ← hstep]
    cases hs : syStep c1 tokens pos t rest.head? st with
    | err k => simp
    | panic => simp
    | ok st1 =>
      simp only [Res.bind_ok]
      obtain ⟨st2, he, h'⟩ := syStep_eff hs
      obtain ⟨a1, a2⟩ := agree_eff he ht h1 h2
      refine ih (pos + 1) (fun x hx => hrest x (by simp [hx])) st1 ?_ ?_
      · rcases h' with rfl | ⟨hi, _, _, rfl⟩
        · exact a1
        · intro x hx
          simp only [List.mem_cons] at hx
          rcases hx with rfl | hx
          · exact hmul hi
          · exact a1 x hx
      · rcases h' with rfl | ⟨hi, _, _, rfl⟩ <;> exact a2

theorem rpnLoop_congr {c1 c2 : Ctx N} (l : List (Token N)) (h : ∀ t ∈ l, AgreeOn c1 c2 t) (vals : List N) (ac : Option Nat) :
    rpnLoop c1 l vals ac = rpnLoop c2 l vals ac := by
  induction l generalizing vals ac with
  | nil => rfl
  | cons t l ih =>
    have ht := h t (by simp)
    have : rpnStep c1 t vals ac = rpnStep c2 t vals ac := by
      cases t <;> simp_all [AgreeOn, rpnStep]
    simp only [rpnLoop, this, ih (fun x hx => h x (by simp [hx]))]

theorem evalTokens_congr {c1 c2 : Ctx N} (hc : c1.config = c2.config)
    (hmul : c1.config.implicitMul = true → c1.getBinary ['*'] = c2.getBinary ['*']) (tokens : List (Token N))
    (h : ∀ t ∈ tokens, AgreeOn c1 c2 t) :
    infixToRpn c1 tokens = infixToRpn c2 tokens ∧ evalTokens c1 tokens = evalTokens c2 tokens := by
  obtain ⟨h1, h2⟩ := syLoop_congr hc hmul tokens 0 tokens h SY.init (by simp [SY.init]) (by simp [SY.init])
  have hi : infixToRpn c1 tokens = infixToRpn c2 tokens := by unfold infixToRpn; rw [h1]
  refine ⟨hi, ?_⟩
  unfold evalTokens
  rw [← hi]
  cases hr : infixToRpn c1 tokens with
  | err k => rfl
  | panic => rfl
  | ok rpn =>
    obtain ⟨st, hst, rfl⟩ := infixToRpn_ok hr
    obtain ⟨a1, a2⟩ := h2 st hst
    simp only [Res.bind_ok]
    rw [rpnLoop_congr]
    intro t ht
    simp only [List.mem_append] at ht
    rcases ht with ht | ht
    · exact a2 t ht
    · exact a1 t ht

/-! ## Substitution -/

theorem Pairwise2.append {α : Type} {R : α → α → Prop} {a b c d : List α} (h : Pairwise2 R a b) (h' : Pairwise2 R c d) :
    Pairwise2 R (a ++ c) (b ++ d) := by
  induction h with
  | nil => exact h'
  | cons h t ih => exact .cons h ih

theorem Pairwise2.refl {α : Type} {R : α → α → Prop} (hr : ∀ a, R a a) (l : List α) : Pairwise2 R l l := by
  induction l with
  | nil => exact .nil
  | cons a l ih => exact .cons (hr a) ih

theorem Pairwise2.getElem? {α : Type} {R : α → α → Prop} {a b : List α} (h : Pairwise2 R a b) (i : Nat) :
    (a[i]? = none ∧ b[i]? = none) ∨ ∃ x y, a[i]? = some x ∧ b[i]? = some y ∧ R x y := by
  induction h generalizing i with
  | nil => simp
  | cons h t ih =>
    cases i with
    | zero => right; exact ⟨_, _, rfl, rfl, h⟩
    | succ i => simpa using ih i

theorem Pairwise2.isEmpty {α : Type} {R : α → α → Prop} {a b : List α} (h : Pairwise2 R a b) : a.isEmpty = b.isEmpty := by
  cases h <;> rfl

theorem Pairwise2.head? {α : Type} {R : α → α → Prop} {a b : List α} (h : Pairwise2 R a b) :
    (a.head? = none ∧ b.head? = none) ∨ ∃ x y, a.head? = some x ∧ b.head? = some y ∧ R x y := by
  cases h with
  | nil => simp
  | cons h t => right; exact ⟨_, _, rfl, rfl, h⟩

theorem ByValue.rfl {ctx : Ctx N} {t : Token N} : ByValue ctx t t := .inl _root_.rfl

/-- Either equal, or two words. -/
theorem ByValue.cases {ctx : Ctx N} {t t' : Token N} (h : ByValue ctx t t') : t' = t ∨ (t.isAtom = true ∧ t'.isAtom = true) := by
  rcases h with h | ⟨s, v, rfl, _, rfl⟩ | ⟨s, v, rfl, _, rfl⟩
  · exact .inl h
  · exact .inr ⟨_root_.rfl, _root_.rfl⟩
  · exact .inr ⟨_root_.rfl, _root_.rfl⟩

structure SubRel (ctx : Ctx N) (st st' : SY N) : Prop where
  out : Pairwise2 (ByValue ctx) st.output st'.output
  ops : st'.ops = st.ops
  argc : st'.argc = st.argc
  grp : st'.grp = st.grp

/-- Same error, same panic, or related results. -/
def ResRel {α : Type} (R : α → α → Prop) : Res α → Res α → Prop
  | .ok a, .ok b => R a b
  | .err k, .err k' => k = k'
  | .panic, .panic => True
  | _, _ => False

theorem ResRel.bind {α β : Type} {R : α → α → Prop} {S : β → β → Prop} {x y : Res α} {f g : α → Res β} (h : ResRel R x y)
    (hf : ∀ a b, R a b → ResRel S (f a) (g b)) : ResRel S (x.bind f) (y.bind g) := by
  cases x <;> cases y <;> simp_all [ResRel]

theorem ResRel.refl {α : Type} {R : α → α → Prop} (hr : ∀ a, R a a) (x : Res α) : ResRel R x x := by
  cases x <;> simp [ResRel, hr]

theorem any_byValue {ctx : Ctx N} (p : Token N → Bool) (hp : ∀ t : Token N, t.isAtom = true → p t = false)
    {a b : Option (Token N)} (h : (a = none ∧ b = none) ∨ ∃ x y, a = some x ∧ b = some y ∧ ByValue ctx x y) :
    b.any p = a.any p := by
  rcases h with ⟨rfl, rfl⟩ | ⟨x, y, rfl, rfl, h⟩
  · rfl
  · rcases h.cases with rfl | ⟨h1, h2⟩
    · rfl
    · simp [hp _ h1, hp _ h2]

theorem isGopen_atom (t : Token N) (h : t.isAtom = true) : t.isGopen = false := by cases t <;> simp_all [Token.isAtom, Token.isGopen]
theorem isGclose_atom (t : Token N) (h : t.isAtom = true) : t.isGclose = false := by cases t <;> simp_all [Token.isAtom, Token.isGclose]
theorem isFunction_atom (t : Token N) (h : t.isAtom = true) : t.isFunction = false := by cases t <;> simp_all [Token.isAtom, Token.isFunction]
theorem containsSymbol_atom (c : Char) (t : Token N) (h : t.isAtom = true) : t.containsSymbol c = false := by
  cases t <;> simp_all [Token.isAtom, Token.containsSymbol]

theorem checkComma_byValue {ctx : Ctx N} {tokens tokens' : List (Token N)} (h : Pairwise2 (ByValue ctx) tokens tokens')
    (grp : List Nat) (pos : Nat) : checkCommaPosition tokens' grp pos = checkCommaPosition tokens grp pos := by
  unfold checkCommaPosition
  rw [any_byValue _ isGopen_atom (h.getElem? (pos - 1)), any_byValue _ isGclose_atom (h.getElem? (pos + 1))]
  cases grp with
  | nil => rfl
  | cons g grp =>
    cases g with
    | zero => rfl
    | succ g =>
      simp only
      rw [any_byValue _ isFunction_atom (h.getElem? g)]

theorem emptyGroup_byValue {ctx : Ctx N} {tokens tokens' : List (Token N)} (h : Pairwise2 (ByValue ctx) tokens tokens')
    (pos : Nat) (c : Char) : emptyGroup ctx tokens' pos c = emptyGroup ctx tokens pos c := by
  have h1 := h.getElem? (pos - 1)
  have h2 := h.getElem? (pos - 2)
  unfold emptyGroup
  rcases h1 with ⟨h1, h1'⟩ | ⟨x, y, h1, h1', hxy⟩
  · rw [h1, h1']
  · rw [h1, h1']
    rcases hxy.cases with rfl | ⟨ha, hb⟩
    · rcases h2 with ⟨h2, h2'⟩ | ⟨z, w, h2, h2', hzw⟩
      · rw [h2, h2']
      · rw [h2, h2']
        rcases hzw.cases with rfl | ⟨ha', hb'⟩
        · rfl
        · simp only [isFunction_atom _ ha', isFunction_atom _ hb']
    · cases x <;> simp [Token.isAtom] at ha <;> cases y <;> simp [Token.isAtom] at hb <;> rfl

theorem pushGroupingClose_byValue {ctx : Ctx N} {st st' : SY N} (h : SubRel ctx st st') (c : Char) :
    ResRel (SubRel ctx) (pushGroupingClose ctx c st) (pushGroupingClose ctx c st') := by
  obtain ⟨hout, hops, hargc, hgrp⟩ := h
  have hop : ∀ (ops o o' : List (Token N)), Pairwise2 (ByValue ctx) o o' →
      (popToOpen ops o = none ∧ popToOpen ops o' = none) ∨
      ∃ c k p p', popToOpen ops o = some (c, k, p) ∧ popToOpen ops o' = some (c, k, p') ∧ Pairwise2 (ByValue ctx) p p' := by
    intro ops
    induction ops with
    | nil => intro o o' _; simp [popToOpen]
    | cons t ops ih =>
      intro o o' ho
      by_cases ht : ∃ c, t = .gopen c
      · obtain ⟨c, rfl⟩ := ht
        right; exact ⟨c, ops, o, o', rfl, rfl, ho⟩
      · have := ih (o ++ [t]) (o' ++ [t]) (ho.append (.cons .rfl .nil))
        cases t <;> simp_all [popToOpen]
  unfold pushGroupingClose
  rw [hops, hargc]
  rcases hop st.ops st.output st'.output hout with ⟨h1, h2⟩ | ⟨c', k, p, p', h1, h2, hp⟩
  · rw [h1, h2]; simp [ResRel]
  · rw [h1, h2]
    simp only
    split
    · simp [ResRel]
    · split
      · split
        · simp only [ResRel]
          exact ⟨hp.append (Pairwise2.refl (fun _ => .rfl) _), by simp, by simp, by simp [hgrp]⟩
        · simp only [ResRel]
          exact ⟨hp, by simp, by simp [hargc], by simp [hgrp]⟩
      · simp [ResRel]

theorem popForBinary_out (ctx : Ctx N) (f : BinFn N) (ops o o' : List (Token N)) :
    ∃ popped, popForBinary ctx f ops o = ((popForBinary ctx f ops o).1, o ++ popped) ∧
      popForBinary ctx f ops o' = ((popForBinary ctx f ops o).1, o' ++ popped) := by
  induction ops generalizing o o' with
  | nil => exact ⟨[], by simp [popForBinary]⟩
  | cons t ops ih =>
    cases t with
    | function s =>
      obtain ⟨p, h1, h2⟩ := ih (o ++ [.function s]) (o' ++ [.function s])
      refine ⟨.function s :: p, ?_⟩
      simp only [popForBinary]
      rw [h2]
      refine ⟨?_, by simp⟩
      conv => lhs; rw [h1]
      simp
    | binary s =>
      cases hb : ctx.getBinary s with
      | none => exact ⟨[], by simp [popForBinary, hb]⟩
      | some top =>
        by_cases hp : popsBefore top f = true
        · obtain ⟨p, h1, h2⟩ := ih (o ++ [.binary s]) (o' ++ [.binary s])
          refine ⟨.binary s :: p, ?_⟩
          simp only [popForBinary, hb, hp, if_true]
          rw [h2]
          refine ⟨?_, by simp⟩
          conv => lhs; rw [h1]
          simp
        · exact ⟨[], by simp [popForBinary, hb, hp]⟩
    | _ => exact ⟨[], by simp [popForBinary]⟩

theorem dispatch_byValue {ctx : Ctx N} {tokens tokens' : List (Token N)} (ht : Pairwise2 (ByValue ctx) tokens tokens')
    (pos : Nat) {t t' : Token N} (htt : ByValue ctx t t') {next next' : Option (Token N)}
    (hn : (next = none ∧ next' = none) ∨ ∃ x y, next = some x ∧ next' = some y ∧ ByValue ctx x y)
    {st st' : SY N} (h : SubRel ctx st st') :
    ResRel (SubRel ctx) (dispatch ctx tokens pos t next st) (dispatch ctx tokens' pos t' next' st') := by
  obtain ⟨hout, hops, hargc, hgrp⟩ := h
  have hatom : ∀ t t' : Token N, ByValue ctx t t' → SubRel ctx (pushNumber ctx st t) (pushNumber ctx st' t') := by
    intro t t' htt
    unfold pushNumber
    rw [hops]
    split
    · split
      · exact ⟨hout.append (.cons htt (.cons .rfl .nil)), rfl, hargc, hgrp⟩
      · exact ⟨hout.append (.cons htt .nil), rfl, hargc, hgrp⟩
    · exact ⟨hout.append (.cons htt .nil), rfl, hargc, hgrp⟩
  rcases htt.cases with rfl | ⟨h1, h2⟩
  · cases t' with
    | number n => exact hatom _ _ htt
    | variable_ n => exact hatom _ _ htt
    | constant n => exact hatom _ _ htt
    | binary o =>
      simp only [dispatch, pushBinaryFunction]
      split
      · simp [ResRel]
      · rename_i f hf
        rw [hops]
        obtain ⟨p, h1, h2⟩ := popForBinary_out ctx f st.ops st.output st'.output
        rw [h2, h1]
        simp only [ResRel]
        exact ⟨hout.append (Pairwise2.refl (fun _ => .rfl) _), rfl, hargc, hgrp⟩
    | unary u =>
      simp only [dispatch, pushUnaryFunction]
      split
      · split
        · exact ⟨hout, by simp [hops], hargc, hgrp⟩
        · rw [hout.isEmpty]
          split
          · simp [ResRel]
          · exact ⟨hout.append (.cons .rfl .nil), hops, hargc, hgrp⟩
      · simp [ResRel]
    | function f =>
      simp only [dispatch]
      rw [any_byValue _ (containsSymbol_atom '(') hn]
      split
      · simp [ResRel]
      · exact ⟨hout, by simp [hops], by simp [hargc], hgrp⟩
    | gopen c =>
      exact ⟨hout, by simp [hops], hargc, by simp [hargc, hgrp]⟩
    | gclose c =>
      simp only [dispatch]
      refine ResRel.bind (pushGroupingClose_byValue ⟨hout, hops, hargc, hgrp⟩ c) fun a b hab => ?_
      rw [emptyGroup_byValue ht]
      split
      · simp [ResRel]
      · simp [ResRel]
      · exact ⟨hab.out, hab.ops, hab.argc, by simp [hab.argc, hab.grp]⟩
    | comma =>
      simp only [dispatch]
      rw [checkComma_byValue ht, hgrp]
      refine ResRel.bind (R := fun _ _ => True) (ResRel.refl (fun _ => trivial) _) fun _ _ _ => ?_
      unfold pushComma
      rw [hargc]
      split
      · simp [ResRel]
      · rw [hops]
        have hpu : ∀ (ops o o' : List (Token N)), Pairwise2 (ByValue ctx) o o' →
          (popUntilOpen ops o = none ∧ popUntilOpen ops o' = none) ∨
            ∃ k p p', popUntilOpen ops o = some (k, p) ∧ popUntilOpen ops o' = some (k, p') ∧ Pairwise2 (ByValue ctx) p p' := by
          intro ops
          induction ops with
          | nil => intro o o' _; simp [popUntilOpen]
          | cons t ops ih =>
            intro o o' ho
            by_cases ht : ∃ c, t = .gopen c
            · obtain ⟨c, rfl⟩ := ht
              right; exact ⟨_, o, o', rfl, rfl, ho⟩
            · have := ih (o ++ [t]) (o' ++ [t]) (ho.append (.cons .rfl .nil))
              cases t <;> simp_all [popUntilOpen]
        rcases hpu st.ops st.output st'.output hout with ⟨h1, h2⟩ | ⟨k, p, p', h1, h2, hp⟩
        · rw [h1, h2]; simp [ResRel]
        · rw [h1, h2]
          exact ⟨hp, rfl, by simp, by simp [hgrp]⟩
    | argCount n => simp [dispatch, ResRel]
    | unknown n => simp [dispatch, ResRel]
  · have e1 : dispatch ctx tokens pos t next st = .ok (pushNumber ctx st t) := by cases t <;> simp_all [Token.isAtom, dispatch]
    have e2 : dispatch ctx tokens' pos t' next' st' = .ok (pushNumber ctx st' t') := by cases t' <;> simp_all [Token.isAtom, dispatch]
    rw [e1, e2]
    exact hatom _ _ htt

theorem syLoop_byValue {ctx : Ctx N} (hm : ctx.config.implicitMul = false) {tokens tokens' : List (Token N)}
    (ht : Pairwise2 (ByValue ctx) tokens tokens') {rest rest' : List (Token N)} (hr : Pairwise2 (ByValue ctx) rest rest') (pos : Nat)
    {st st' : SY N} (h : SubRel ctx st st') :
    ResRel (SubRel ctx) (syLoop ctx tokens pos rest st) (syLoop ctx tokens' pos rest' st') := by
  induction hr generalizing pos st st' with
  | nil => exact h
  | cons hab hl ih =>
    simp only [syLoop, syStep]
    refine ResRel.bind (R := SubRel ctx) ?_ fun a b hab => ih _ hab
    refine ResRel.bind (dispatch_byValue ht pos hab hl.head? h) fun a b hab => ?_
    simpa [implicitMulBlock, implicitMulHere, hm, ResRel] using hab

theorem rpnStep_byValue {ctx : Ctx N} {t t' : Token N} (h : ByValue ctx t t') (vals : List N) (ac : Option Nat) :
    rpnStep ctx t' vals ac = rpnStep ctx t vals ac := by
  rcases h with h | ⟨s, v, rfl, hv, rfl⟩ | ⟨s, v, rfl, hv, rfl⟩
  · rw [h]
  · simp [rpnStep, hv, Res.ofOption]
  · simp [rpnStep, hv, Res.ofOption]

theorem rpnLoop_byValue {ctx : Ctx N} {l l' : List (Token N)} (h : Pairwise2 (ByValue ctx) l l') (vals : List N) (ac : Option Nat) :
    rpnLoop ctx l' vals ac = rpnLoop ctx l vals ac := by
  induction h generalizing vals ac with
  | nil => rfl
  | cons h t ih => simp only [rpnLoop, rpnStep_byValue h, ih]

theorem flush_byValue {ctx : Ctx N} (ops : List (Token N)) {o o' : List (Token N)} (h : Pairwise2 (ByValue ctx) o o') :
    ResRel (Pairwise2 (ByValue ctx)) (flush ops o) (flush ops o') := by
  induction ops generalizing o o' with
  | nil => exact h
  | cons t ops ih =>
    simp only [flush]
    split
    · simp [ResRel]
    · exact ih (h.append (.cons .rfl .nil))

theorem evalTokens_byValue' {ctx : Ctx N} (hm : ctx.config.implicitMul = false) {tokens tokens' : List (Token N)}
    (h : Pairwise2 (ByValue ctx) tokens tokens') : evalTokens ctx tokens' = evalTokens ctx tokens := by
  have h1 := syLoop_byValue hm h h 0 (st := SY.init) (st' := SY.init) ⟨.nil, rfl, rfl, rfl⟩
  have h2 : ResRel (Pairwise2 (ByValue ctx)) (infixToRpn ctx tokens) (infixToRpn ctx tokens') := by
    unfold infixToRpn
    refine ResRel.bind h1 fun a b hab => ?_
    rw [hab.ops]
    exact flush_byValue _ hab.out
  unfold evalTokens
  cases hi : infixToRpn ctx tokens <;> cases hi' : infixToRpn ctx tokens' <;> simp_all [ResRel]
  rw [rpnLoop_byValue h2]

end Prexel
