import Verif.Lemmas.Messages
import Verif.Lemmas.Conserve
import Verif.Lemmas.Universal2
import Verif.Spec.Messages
import Verif.Props.Tokenizer
import Verif.Examples.Demo
import Verif.Props.Info
/-!
# C118: what error messages say is true
-/

namespace Prexel
variable {N V α β : Type}

/-! ## Brackets, read from the left -/

theorem Brackets.split {s e : List Char} (a : List (Token N)) {b : List (Token N)} (h : Brackets s (a ++ b) e) :
    ∃ m, Brackets s a m ∧ Brackets m b e := by
  induction a generalizing s with
  | nil => exact ⟨s, .nil _, h⟩
  | cons t a ih =>
    rw [List.cons_append] at h
    cases h with
    | opn _ _ _ _ h => obtain ⟨m, h1, h2⟩ := ih h; exact ⟨m, .opn _ _ _ _ h1, h2⟩
    | cls _ _ _ _ _ hc h => obtain ⟨m, h1, h2⟩ := ih h; exact ⟨m, .cls _ _ _ _ _ hc h1, h2⟩
    | other _ _ _ _ ho hc h => obtain ⟨m, h1, h2⟩ := ih h; exact ⟨m, .other _ _ _ _ ho hc h1, h2⟩

theorem Brackets.unique {s e e' : List Char} {a : List (Token N)} (h : Brackets s a e) (h' : Brackets s a e') : e = e' := by
  induction h with
  | nil s => cases h'; rfl
  | opn s c ts e h ih =>
    cases h' with
    | opn _ _ _ _ h' => exact ih h'
    | other _ _ _ _ ho => exact absurd rfl (ho c)
  | cls s o c ts e hc h ih =>
    cases h' with
    | cls _ _ _ _ _ _ h' => exact ih h'
    | other _ _ _ _ _ hc => exact absurd rfl (hc c)
  | other s t ts e ho hc h ih =>
    cases h' with
    | opn => exact absurd rfl (ho _)
    | cls => exact absurd rfl (hc _)
    | other _ _ _ _ _ _ h' => exact ih h'

theorem closes_new {o c : Char} (h : Closes o c) : ∃ g, Grouping.new o = some g ∧ g.cls = c := by
  rcases h with ⟨ho, rfl⟩ | ⟨ho, rfl⟩ | ⟨ho, rfl⟩ <;> simp only [List.mem_cons, List.not_mem_nil, or_false] at ho <;>
    rcases ho with rfl | rfl <;> decide

/-! ## Tokens of a text -/

/-- The token names something of the context. -/
def Known (ctx : Ctx N) : Token N → Prop
  | .variable_ s => ctx.getVariable s ≠ none
  | .constant s => ctx.getConstant s ≠ none
  | .function s => ctx.getFunction s ≠ none
  | .unary s => ctx.getUnary s ≠ none
  | .gopen c => c ∈ ['(', '[', '{']
  | .gclose c => c ∈ [')', ']', '}']
  | .argCount _ => False
  | _ => True

theorem StandsFor.known {parse : Str → Option N} {ctx : Ctx N} {w : Str} {t : Token N} (h : StandsFor parse ctx w t) : Known ctx t := by
  cases t <;> simp only [StandsFor, Known] at h ⊢
  · obtain ⟨rfl, h⟩ := h; exact h.2
  · obtain ⟨rfl, h⟩ := h; exact h.2.2
  · obtain ⟨rfl, h⟩ := h; exact h.2.2.2
  · obtain ⟨rfl, h⟩ := h; exact h.2
  · exact h.2.1
  · exact h.2.1

/-- The tokens after conversion: no brackets closed, no commas, no unknown words. -/
def Kept (ctx : Ctx N) (ts : List (Token N)) : Token N → Prop
  | .argCount _ => True
  | .binary s => (.binary s ∈ ts ∧ ctx.getBinary s ≠ none) ∨ (ctx.config.implicitMul = true ∧ s = ['*'])
  | .gclose _ => False
  | .comma => False
  | .unknown _ => False
  | t => t ∈ ts ∧ Known ctx t

/-- What holds in each iteration of the loop over the tokens. -/
structure Seen (ctx : Ctx N) (ts : List (Token N)) (pos : Nat) (st : SY N) : Prop where
  brackets : Brackets [] (ts.take pos) (opensOf st.ops)
  output : ∀ t ∈ st.output, Kept ctx ts t ∧ t.isGopen = false
  ops : ∀ t ∈ st.ops, Kept ctx ts t
  atoms : AtomsInv (ts.take pos) st
  unknown : ∀ v, .unknown v ∉ ts.take pos
  grp : ∀ g ∈ st.grp, g < pos ∧ ∃ o, ts[g]? = some (.gopen o)

theorem seen_init (ctx : Ctx N) (ts : List (Token N)) : Seen ctx ts 0 SY.init :=
  ⟨by simpa [SY.init, opensOf] using Brackets.nil _, by simp [SY.init], by simp [SY.init], by simp [AtomsInv, SY.init], by simp, by simp [SY.init]⟩

theorem kept_of_mem {ctx : Ctx N} {ts : List (Token N)} {t : Token N} (h : t ∈ ts) (hk : Known ctx t) (ho : t.isAtom = true ∨ t.isGopen = true) :
    Kept ctx ts t := by
  cases t <;> simp_all [Token.isAtom, Token.isGopen, Kept]

theorem seen_eff {ctx : Ctx N} {ts rest : List (Token N)} {pos : Nat} {t : Token N} {next : Option (Token N)} {st st' : SY N}
    (hk : ∀ t ∈ ts, Known ctx t) (hd : ts.drop pos = t :: rest) (hi : Seen ctx ts pos st) (h : Eff ctx ts pos next t st st') :
    Seen ctx ts (pos + 1) st' := by
  have ht : ts[pos]? = some t := drop_getElem? hd
  have hm : t ∈ ts := List.mem_of_getElem? ht
  have htake : ts.take (pos + 1) = ts.take pos ++ [t] := by rw [List.take_add_one, ht]; rfl
  have hkt := hk t hm
  refine ⟨?_, ?_, ?_, ?_, ?_, ?_⟩
  · rw [htake]; exact hi.brackets.append (brackets_eff h)
  · have ho := hi.output
    have hp := hi.ops
    cases h with
    | atom t st ha hu =>
      intro x hx
      rcases List.mem_append.1 hx with hx | hx
      · exact ho x hx
      · simp only [List.mem_singleton] at hx
        subst hx
        exact ⟨kept_of_mem hm hkt (.inl ha), by cases x <;> simp_all [Token.isAtom, Token.isGopen]⟩
    | atomU t st ha u f hf ops hops =>
      intro x hx
      rcases List.mem_append.1 hx with hx | hx
      · exact ho x hx
      · simp only [List.mem_cons, List.not_mem_nil, or_false] at hx
        rcases hx with rfl | rfl
        · exact ⟨kept_of_mem hm hkt (.inl ha), by cases x <;> simp_all [Token.isAtom, Token.isGopen]⟩
        · exact ⟨hp _ (by rw [hops]; simp), rfl⟩
    | bin o st f hf popped kept hops hn =>
      intro x hx
      rcases List.mem_append.1 hx with hx | hx
      · exact ho x hx
      · exact ⟨hp _ (by rw [hops]; simp [hx]), hn x hx⟩
    | pre => exact ho
    | post u st f hf hn hne =>
      intro x hx
      rcases List.mem_append.1 hx with hx | hx
      · exact ho x hx
      · simp only [List.mem_singleton] at hx
        subst hx
        exact ⟨⟨hm, hkt⟩, rfl⟩
    | function => exact ho
    | gopen => exact ho
    | group c c' st popped kept g hg hc hops hn hk he =>
      intro x hx
      rcases List.mem_append.1 hx with hx | hx
      · exact ho x hx
      · exact ⟨hp _ (by rw [hops]; simp [hx]), hn x hx⟩
    | call c c' st popped kept g hg hc f n ac hops hn hac he =>
      intro x hx
      simp only [List.append_assoc, List.mem_append, List.mem_cons, List.not_mem_nil, or_false] at hx
      rcases hx with hx | hx | rfl | rfl
      · exact ho x hx
      · exact ⟨hp _ (by rw [hops]; simp [hx]), hn x hx⟩
      · exact ⟨trivial, rfl⟩
      · exact ⟨hp _ (by rw [hops]; simp), rfl⟩
    | comma st c popped kept n ac hops hn hac hcheck =>
      intro x hx
      rcases List.mem_append.1 hx with hx | hx
      · exact ho x hx
      · exact ⟨hp _ (by rw [hops]; simp [hx]), hn x hx⟩
  · have hp := hi.ops
    cases h with
    | atom => exact hp
    | atomU t st ha u f hf ops hops => exact fun x hx => hp x (by rw [hops]; simp [hx])
    | bin o st f hf popped kept hops hn =>
      intro x hx
      rcases List.mem_cons.1 hx with rfl | hx
      · exact .inl ⟨hm, by simp [hf]⟩
      · exact hp _ (by rw [hops]; simp [hx])
    | pre u st f hf hn =>
      intro x hx
      rcases List.mem_cons.1 hx with rfl | hx
      · exact ⟨hm, hkt⟩
      · exact hp _ hx
    | post => exact hp
    | function f st hn =>
      intro x hx
      rcases List.mem_cons.1 hx with rfl | hx
      · exact ⟨hm, hkt⟩
      · exact hp _ hx
    | gopen c st =>
      intro x hx
      rcases List.mem_cons.1 hx with rfl | hx
      · exact ⟨hm, hkt⟩
      · exact hp _ hx
    | group c c' st popped kept g hg hc hops hn hk he => exact fun x hx => hp x (by rw [hops]; simp [hx])
    | call c c' st popped kept g hg hc f n ac hops hn hac he => exact fun x hx => hp x (by rw [hops]; simp [hx])
    | comma st c popped kept n ac hops hn hac hcheck => exact fun x hx => hp x (by rw [hops]; exact List.mem_append_right _ hx)
  · rw [htake]; exact atomsInv_eff h hi.atoms
  · intro v hv
    rw [htake] at hv
    rcases List.mem_append.1 hv with hv | hv
    · exact hi.unknown v hv
    · simp only [List.mem_singleton] at hv
      subst hv
      cases h <;> simp_all [Token.isAtom]
  · have hg := hi.grp
    have hg' : ∀ g ∈ st.grp, g < pos + 1 ∧ ∃ o, ts[g]? = some (.gopen o) := fun g h => ⟨by have := (hg g h).1; omega, (hg g h).2⟩
    have htl : ∀ g ∈ st.grp.tail, g < pos + 1 ∧ ∃ o, ts[g]? = some (.gopen o) := fun g h => hg' g (List.mem_of_mem_tail h)
    cases h with
    | gopen c st =>
      intro g hgm
      simp only at hgm
      split at hgm
      · exact hg' g hgm
      · rcases List.mem_cons.1 hgm with rfl | hgm
        · exact ⟨by omega, c, ht⟩
        · exact hg' g hgm
    | group c c' st popped kept g hg hc hops hn hk he =>
      intro g hgm
      simp only at hgm
      split at hgm
      · exact hg' g hgm
      · exact htl g hgm
    | call c c' st popped kept g hg hc f n ac hops hn hac he =>
      intro g hgm
      simp only at hgm
      split at hgm
      · exact hg' g hgm
      · exact htl g hgm
    | _ => exact hg'

theorem seen_step {ctx : Ctx N} {ts rest : List (Token N)} {pos : Nat} {t : Token N} {st st' : SY N}
    (hk : ∀ t ∈ ts, Known ctx t) (hd : ts.drop pos = t :: rest) (hi : Seen ctx ts pos st) (h : syStep ctx ts pos t rest.head? st = .ok st') :
    Seen ctx ts (pos + 1) st' := by
  obtain ⟨st1, he, h'⟩ := syStep_eff h
  have h1 := seen_eff hk hd hi he
  rcases h' with rfl | ⟨hm, _, _, rfl⟩
  · exact h1
  · refine ⟨by simpa [opensOf] using h1.brackets, h1.output, ?_, ?_, h1.unknown, h1.grp⟩
    · intro x hx
      rcases List.mem_cons.1 hx with rfl | hx
      · exact .inr ⟨hm, rfl⟩
      · exact h1.ops x hx
    · simpa [AtomsInv, Token.isAtom] using h1.atoms

namespace Told

/-- A failed run of the loop fails in some iteration; until there, it goes as without messages. -/
theorem syLoop_err {D : Debugs N} {ctx : Ctx N} {ts : List (Token N)} {e : Fault} (I : Nat → SY N → Prop)
    (hstep : ∀ pos t rest st st', ts.drop pos = t :: rest → I pos st → Prexel.syStep ctx ts pos t rest.head? st = .ok st' → I (pos + 1) st')
    (pos : Nat) (rest : List (Token N)) (hrest : ts.drop pos = rest) (st : SY N) (h0 : I pos st) (h : syLoop D ctx ts pos rest st = .err e) :
    ∃ pos t rest st, ts.drop pos = t :: rest ∧ I pos st ∧ dispatch D ctx ts pos t rest.head? st = .err e := by
  induction rest generalizing pos st with
  | nil => simp [syLoop] at h
  | cons t rest ih =>
    cases hd : dispatch D ctx ts pos t rest.head? st with
    | panic => simp [syLoop, syStep, hd, bind] at h
    | err e' =>
      simp only [syLoop, syStep, hd, bind, err.injEq] at h
      subst h
      exact ⟨pos, t, rest, st, hrest, h0, hd⟩
    | ok st1 =>
      have hs : Prexel.syStep ctx ts pos t rest.head? st = .ok (implicitMulBlock ctx t rest.head? st1) := by
        have := dispatch_plain D ctx ts pos t rest.head? st
        rw [hd] at this
        simp only [Prexel.syStep, ← this, plain_ok, Res.bind_ok]
      simp only [syLoop, syStep, hd, bind] at h
      exact ih (pos + 1) (by rw [← List.drop_drop, hrest]; simp) _ (hstep pos t rest st _ hrest h0 hs) h

/-- The list around a position. -/
theorem around {l : List α} {pos : Nat} {x : α} {rest : List α} (h : l.drop pos = x :: rest) : l = l.take pos ++ x :: rest := by
  rw [← h, List.take_append_drop]

theorem drop_of_get {l : List α} {i : Nat} {x : α} (h : l[i]? = some x) : l.drop i = x :: l.drop (i + 1) := by
  obtain ⟨hi, rfl⟩ := List.getElem?_eq_some_iff.1 h
  exact List.drop_eq_getElem_cons hi

theorem last_take {l : List α} {pos : Nat} (h : 0 < pos) (hl : pos ≤ l.length) : (l.take pos).getLast? = l[pos - 1]? := by
  rw [List.getLast?_eq_getElem?, List.length_take, Nat.min_eq_left hl, List.getElem?_take_of_lt (by omega)]

theorem not_function {o : Option (Token N)} (h : ¬ o.any Token.isFunction = true) (f : Str) : o ≠ some (.function f) := by
  rintro rfl
  exact h rfl

theorem dispatch_err {D : Debugs N} (M : Inner N) {ctx : Ctx N} {ts rest : List (Token N)} {pos : Nat} {t : Token N} {st : SY N} {e : Fault}
    (hk : ∀ t ∈ ts, Known ctx t) (hd : ts.drop pos = t :: rest) (hi : Seen ctx ts pos st)
    (h : dispatch D ctx ts pos t rest.head? st = .err e) : EvalFault D M ctx ts e := by
  have har := around hd
  have ht : ts[pos]? = some t := drop_getElem? hd
  have hm : t ∈ ts := List.mem_of_getElem? ht
  have hlt : pos < ts.length := (List.getElem?_eq_some_iff.1 ht).1
  cases t with
  | number n => simp [dispatch] at h
  | variable_ n => simp [dispatch] at h
  | constant n => simp [dispatch] at h
  | argCount n => exact (hk _ hm).elim
  | gopen c => simp [dispatch] at h
  | function f =>
    simp only [dispatch] at h
    split at h
    · rename_i hc
      simp only [err.injEq] at h
      subst h
      simp only [Bool.and_eq_true, Bool.not_eq_true'] at hc
      have := EvalFault.noParentheses (D := D) (M := M) (ctx := ctx) _ _ f har hc.1 (by
        intro hr
        rw [hr] at hc
        exact absurd hc.2 (by simp [Token.containsSymbol]))
      simpa [Fault.new, quoted, str] using this
    · cases h
  | binary o =>
    simp only [dispatch, pushBinaryFunction] at h
    split at h
    · rename_i hf
      simp only [err.injEq] at h
      subst h
      have := EvalFault.notBinary (D := D) (M := M) (ctx := ctx) o hm hf
      simpa [Fault.new, quoted, str] using this
    · cases h
  | unary u =>
    simp only [dispatch, pushUnaryFunction] at h
    split at h
    · rename_i f hf
      split at h
      · cases h
      · rename_i hn
        split at h
        · rename_i ho
          simp only [err.injEq] at h
          subst h
          refine .postfixFirst _ _ u f har hf hn fun x hx => ?_
          have := hi.atoms.1
          rw [List.isEmpty_iff.1 ho] at this
          refine Bool.eq_false_iff.2 fun hc => ?_
          have hx' : x ∈ (ts.take pos).filter Token.isAtom := List.mem_filter.2 ⟨hx, hc⟩
          rw [← this] at hx'
          cases hx'
        · cases h
    · rename_i hf
      exact absurd hf (hk _ hm)
  | unknown w =>
    simp only [dispatch, err.injEq] at h
    subst h
    have := EvalFault.unknown (D := D) (M := M) (ctx := ctx) _ _ w har hi.unknown
    exact this
  | gclose c =>
    simp only [dispatch] at h
    cases hp : pushGroupingClose ctx c st with
    | panic => simp [hp, bind] at h
    | err e' =>
      simp only [hp, bind, err.injEq] at h
      subst h
      have hbad : (∀ o os, opensOf st.ops = o :: os → ¬ Closes o c) → EvalFault D M ctx ts (.new .invalidExpression (str "Misplace grouping symbol")) := by
        intro hno
        refine .brackets c hm fun hb => ?_
        unfold Balanced at hb
        rw [har] at hb
        obtain ⟨m, h1, h2⟩ := hb.split
        cases hi.brackets.unique h1
        generalize hs : opensOf st.ops = os at h2
        cases h2 with
        | cls s o _ _ _ hc => exact hno o s hs hc
        | other _ _ _ _ _ hc => exact hc c rfl
      unfold pushGroupingClose at hp
      split at hp
      · rename_i hpop
        cases hp
        refine hbad fun o os ho => ?_
        rw [opensOf_noOpen (popToOpen_none hpop)] at ho
        cases ho
      · rename_i o ops' out' hpop
        obtain ⟨popped, h1, h2, h3⟩ := popToOpen_some hpop
        have hopen : opensOf st.ops = o :: opensOf ops' := by rw [h1, opensOf_append, opensOf_noOpen h3]; simp [opensOf]
        cases hg : Grouping.new o with
        | none =>
          simp only [Config.getGroupSymbol, hg, Option.map_none] at hp
          cases hp
          refine hbad fun o' os ho hc => ?_
          rw [hopen] at ho
          cases ho
          obtain ⟨g, hg', _⟩ := closes_new hc
          rw [hg] at hg'
          cases hg'
        | some g =>
          simp only [Config.getGroupSymbol, hg, Option.map_some, Grouping.symbols] at hp
          split at hp
          · split at hp <;> cases hp
          · rename_i hne
            cases hp
            refine hbad fun o' os ho hc => ?_
            rw [hopen] at ho
            cases ho
            obtain ⟨g', hg', hcl⟩ := closes_new hc
            rw [hg] at hg'
            cases hg'
            exact hne hcl
    | ok st1 =>
      simp only [hp, bind] at h
      split at h
      · cases h
      · rename_i he
        unfold emptyGroup at he
        split at he
        · rename_i hpos
          cases hprev : ts[pos - 1]? with
          | none => rw [hprev] at he; cases he
          | some p =>
            rw [hprev] at he
            cases p with
            | gopen o =>
              simp only at he
              split at he
              · rename_i ho
                cases hpp : ts[pos - 2]? with
                | none => rw [hpp] at he; cases he
                | some q =>
                  rw [hpp] at he
                  rw [ho] at h
                  simp only [err.injEq] at h
                  subst h
                  have hd1 : ts.drop (pos - 1) = .gopen o :: .gclose c :: rest := by
                    rw [drop_of_get hprev, show pos - 1 + 1 = pos by omega, hd]
                  refine .emptyBrackets _ _ o c (around hd1) ?_ ?_
                  · simp only [Config.getGroupOpenFor] at ho
                    cases hg : Grouping.new c with
                    | none => simp [hg] at ho
                    | some g =>
                      simp only [hg, Option.bind_some, Grouping.openFor] at ho
                      split at ho
                      · rename_i hcl
                        simp only [Option.map_some, Option.some.injEq] at ho
                        subst hcl ho
                        cases g <;> simp [Closes, Grouping.opn, Grouping.cls]
                      · cases ho
                  · intro f
                    rw [last_take (by omega) (by omega), show pos - 1 - 1 = pos - 2 by omega, hpp]
                    intro hq
                    simp only [Option.some.injEq] at hq he
                    subst hq
                    simp [Token.isFunction] at he
              · cases he
            | _ => simp at he
        · cases he
      · cases h
  | comma =>
    simp only [dispatch] at h
    cases hc : checkCommaPosition ts st.grp pos with
    | panic => simp [hc, bind] at h
    | err e' =>
      simp only [hc, bind, err.injEq] at h
      subst h
      unfold checkCommaPosition at hc
      split at hc
      · rename_i h0
        subst h0
        cases hc
        refine .firstComma ?_
        rw [List.head?_eq_getElem?, ht]
      split at hc
      · rename_i h0 ho
        cases hc
        cases hprev : ts[pos - 1]? with
        | none => rw [hprev] at ho; cases ho
        | some p =>
          rw [hprev] at ho
          cases p with
          | gopen o =>
            have hd1 : ts.drop (pos - 1) = .gopen o :: .comma :: rest := by
              rw [drop_of_get hprev, show pos - 1 + 1 = pos by omega, hd]
            exact .openComma _ _ o (around hd1)
          | _ => simp [Token.isGopen] at ho
      split at hc
      · rename_i ho
        cases hc
        have hn : ts[pos + 1]? = rest.head? := by
          have : (ts.drop pos)[1]? = ts[pos + 1]? := by rw [List.getElem?_drop]
          rw [← this, hd]
          cases rest <;> rfl
        rw [hn] at ho
        cases rest with
        | nil => cases ho
        | cons n rest =>
          cases n with
          | gclose c => exact .commaClose _ _ c har
          | _ => simp [Token.isGclose] at ho
      · cases hg : st.grp with
        | nil => rw [hg] at hc; cases hc
        | cons g gs =>
          rw [hg] at hc
          cases g with
          | zero => cases hc
          | succ g =>
            simp only at hc
            split at hc
            · cases hc
            · rename_i hnf
              cases hc
              obtain ⟨hlt', o, ho⟩ := hi.grp (g + 1) (by rw [hg]; simp)
              have hd1 : ts.drop (g + 1) = .gopen o :: ts.drop (g + 2) := drop_of_get ho
              have hmid : ts.drop (g + 2) = (ts.drop (g + 2)).take (pos - (g + 2)) ++ .comma :: rest := by
                have := List.take_append_drop (pos - (g + 2)) (ts.drop (g + 2))
                rw [List.drop_drop, show g + 2 + (pos - (g + 2)) = pos by omega, hd] at this
                exact this.symm
              refine .groupComma (ts.take (g + 1)) ((ts.drop (g + 2)).take (pos - (g + 2))) rest o ?_ ?_
              · have := around hd1
                rw [hmid] at this
                simpa using this
              · intro f
                rw [last_take (by omega) (by omega), Nat.add_sub_cancel]
                exact not_function hnf f
    | ok u =>
      simp only [hc, bind] at h
      unfold pushComma at h
      split at h
      · cases h
        exact .noFunction _ _ har
      · split at h
        · rename_i hpop
          cases h
          refine .outsideComma _ _ har ?_
          rw [popUntilOpen_eq, Option.map_eq_none_iff] at hpop
          have := hi.brackets
          rwa [opensOf_noOpen (popToOpen_none hpop)] at this
        · cases h

theorem rpnStep_err {D : Debugs N} {M : Inner N} {ctx : Ctx N} {ts : List (Token N)} {t : Token N} {values : List N} {argc : Option Nat} {e : Fault}
    (hk : Kept ctx ts t) (ho : t.isGopen = true → ¬ Balanced ts) (h : rpnStep D M ctx ts t values argc = .err e) : EvalFault D M ctx ts e := by
  cases t with
  | number n => simp [rpnStep] at h
  | argCount n =>
    simp only [rpnStep] at h
    split at h <;> cases h
  | variable_ s =>
    obtain ⟨v, hv⟩ := Option.ne_none_iff_exists'.1 hk.2
    simp [rpnStep, hv, ofOption, bind] at h
  | constant s =>
    obtain ⟨v, hv⟩ := Option.ne_none_iff_exists'.1 hk.2
    simp [rpnStep, hv, ofOption, bind] at h
  | gclose c => exact hk.elim
  | comma => exact hk.elim
  | unknown s => exact hk.elim
  | gopen c =>
    simp only [rpnStep, err.injEq] at h
    subst h
    have := EvalFault.unclosed (D := D) (M := M) (ctx := ctx) c hk.1 (ho rfl)
    simpa [Fault.new, quoted, str] using this
  | unary u =>
    obtain ⟨f, hf⟩ := Option.ne_none_iff_exists'.1 hk.2
    simp only [rpnStep, hf, ofOption, bind] at h
    cases values with
    | nil =>
      cases h
      exact .operands u (.inl hk.1)
    | cons x values =>
      simp only at h
      cases hx : f.call x with
      | ok r => simp [hx, ofRes] at h
      | panic => simp [hx, ofRes] at h
      | err k =>
        simp only [hx, ofRes, err.injEq] at h
        subst h
        exact .unary u hk.1 f hf x k hx
  | binary b =>
    cases hf : ctx.getBinary b with
    | none =>
      rcases hk with hk | ⟨hm, rfl⟩
      · exact absurd hf hk.2
      · simp only [rpnStep, hf, ofOption, bind, err.injEq] at h
        subst h
        exact .noProduct hm hf
    | some f =>
      have hin : .binary b ∈ ts ∨ ctx.config.implicitMul = true ∧ b = ['*'] := by
        rcases hk with hk | hk
        · exact .inl hk.1
        · exact .inr hk
      have hop : .unary b ∈ ts ∨ .binary b ∈ ts ∨ ctx.config.implicitMul = true := .inr (hin.imp id And.left)
      simp only [rpnStep, hf, ofOption, bind] at h
      rcases values with _ | ⟨x, _ | ⟨y, values⟩⟩
      · cases h; exact .operands b hop
      · cases h; exact .operands b hop
      · simp only at h
        cases hx : f.call y x with
        | ok r => simp [hx, ofRes] at h
        | panic => simp [hx, ofRes] at h
        | err k =>
          simp only [hx, ofRes, err.injEq] at h
          subst h
          exact .binary b hin f hf y x k hx
  | function g =>
    obtain ⟨f, hf⟩ := Option.ne_none_iff_exists'.1 hk.2
    simp only [rpnStep, hf, ofOption, bind] at h
    cases argc with
    | none =>
      simp only [err.injEq] at h
      subst h
      have := EvalFault.noArguments (D := D) (M := M) (ctx := ctx) g hk.1
      simpa [Fault.new, quoted, str] using this
    | some n =>
      simp only at h
      cases hx : f (values.take n).reverse with
      | ok r => simp [hx, ofRes] at h
      | panic => simp [hx, ofRes] at h
      | err k =>
        simp only [hx, ofRes, err.injEq] at h
        subst h
        exact .function g hk.1 f hf _ k hx

theorem rpnLoop_err {D : Debugs N} {M : Inner N} {ctx : Ctx N} {ts rpn : List (Token N)} {values : List N} {argc : Option Nat} {e : Fault}
    (hk : ∀ t ∈ rpn, Kept ctx ts t ∧ (t.isGopen = true → ¬ Balanced ts)) (h : rpnLoop D M ctx ts rpn values argc = .err e) :
    EvalFault D M ctx ts e := by
  induction rpn generalizing values argc with
  | nil => cases h
  | cons t rpn ih =>
    have ht := hk t (by simp)
    cases hs : rpnStep D M ctx ts t values argc with
    | ok r =>
      simp only [rpnLoop, hs, bind] at h
      exact ih (fun t ht => hk t (by simp [ht])) h
    | err e' =>
      simp only [rpnLoop, hs, bind, err.injEq] at h
      subst h
      exact rpnStep_err ht.1 ht.2 hs
    | panic => simp [rpnLoop, hs, bind] at h

theorem flush_err {ctx : Ctx N} {ts ops output : List (Token N)} (hk : ∀ t ∈ ops, Kept ctx ts t) : flush ops output = .ok (output ++ ops) := by
  induction ops generalizing output with
  | nil => simp [flush]
  | cons t ops ih =>
    have ht : t.isGclose = false := by
      have := hk t (by simp)
      cases t <;> first | rfl | exact this.elim
    simp only [flush, ht, Bool.or_self, Bool.false_eq_true, if_false]
    rw [ih fun t ht => hk t (by simp [ht])]
    simp

theorem syLoop_ok {D : Debugs N} {ctx : Ctx N} {ts rest : List (Token N)} {pos : Nat} {st st' : SY N} (h : syLoop D ctx ts pos rest st = .ok st') :
    Prexel.syLoop ctx ts pos rest st = .ok st' := by rw [← syLoop_plain D, h]; rfl

theorem seen_all {ctx : Ctx N} {ts : List (Token N)} (hk : ∀ t ∈ ts, Known ctx t) {st : SY N}
    (h : Prexel.syLoop ctx ts 0 ts SY.init = .ok st) : Seen ctx ts ts.length st := by
  have := syLoop_inv ctx ts (Seen ctx ts) (fun _ _ _ _ _ hd hi hs => seen_step hk hd hi hs) 0 ts rfl SY.init st (seen_init ctx ts) h
  simpa using this

theorem opensOf_mem {l : List (Token N)} {c : Char} (h : .gopen c ∈ l) : opensOf l ≠ [] := by
  intro he
  unfold opensOf at he
  rw [List.filterMap_eq_nil_iff] at he
  simpa using he _ h

theorem evalTokens_err {D : Debugs N} {M : Inner N} {ctx : Ctx N} {ts : List (Token N)} {e : Fault} (hk : ∀ t ∈ ts, Known ctx t)
    (h : evalTokens D M ctx ts = .err e) : EvalFault D M ctx ts e := by
  cases hl : syLoop D ctx ts 0 ts SY.init with
  | panic => simp [evalTokens, infixToRpn, hl, bind] at h
  | err e' =>
    simp only [evalTokens, infixToRpn, hl, bind, err.injEq] at h
    subst h
    obtain ⟨pos, t, rest, st, hd, hi, he⟩ := syLoop_err (Seen ctx ts) (fun _ _ _ _ _ hd hi hs => seen_step hk hd hi hs) 0 ts rfl _
      (seen_init ctx ts) hl
    exact dispatch_err M hk hd hi he
  | ok st =>
    have hs := seen_all hk (syLoop_ok hl)
    have hops : ∀ t ∈ st.ops, t.isGopen = true → ¬ Balanced ts := by
      intro t ht hg hb
      cases t with
      | gopen c =>
        have := hs.brackets
        rw [List.take_length] at this
        exact opensOf_mem ht (this.unique hb)
      | _ => simp [Token.isGopen] at hg
    simp only [evalTokens, infixToRpn, hl, bind, flush_err hs.ops] at h
    cases hr : rpnLoop D M ctx ts (st.output ++ st.ops) [] none with
    | panic => simp [hr] at h
    | ok vs =>
      rw [hr] at h
      rcases vs with _ | ⟨x, _ | ⟨y, vs⟩⟩
      · cases h; exact .leftover
      · cases h
      · cases h; exact .leftover
    | err e' =>
      simp only [hr, err.injEq] at h
      subst h
      refine rpnLoop_err (fun t ht => ?_) hr
      rcases List.mem_append.1 ht with ht | ht
      · exact ⟨(hs.output t ht).1, fun hg => absurd hg (by simp [(hs.output t ht).2])⟩
      · exact ⟨hs.ops t ht, hops t ht⟩

/-! ## Reading the words -/

theorem isUnaryOp_not_err (parse : Str → Option N) (ctx : Ctx N) (prev next : Option Str) (w : Str) (k : ErrorKind) :
    isUnaryOp parse ctx prev w next ≠ .err k := by
  unfold isUnaryOp
  repeat' split
  all_goals first
    | (intro h; cases h; done)
    | skip
  all_goals
    unfold firstByte
    repeat' split
    all_goals simp [Res.bind]
    try (repeat' split)
    all_goals simp

theorem operatorToken_err {D : Debugs N} {parse : Str → Option N} {ctx : Ctx N} {l r : List Str} {w : Str} {e : Fault} {ws : List Str}
    (hw : ws = l ++ w :: r) (ho : ctx.getUnary w ≠ none ∨ ctx.getBinary w ≠ none)
    (h : operatorToken D parse ctx l.getLast? w r.isEmpty = .err e) : ReadFault D parse ctx ws e := by
  unfold operatorToken at h
  generalize hnx : (if r.isEmpty = true then none else some w) = nx at h
  simp only at h
  cases hu : isUnaryOp parse ctx l.getLast? w nx with
  | err k => exact (isUnaryOp_not_err _ _ _ _ _ _ hu).elim
  | panic => rw [hu] at h; cases h
  | ok u =>
    rw [hu] at h
    cases u with
    | true => cases h
    | false =>
      simp only [ofRes, bind, Bool.false_eq_true, if_false] at h
      split at h
      · rename_i he
        simp only [err.injEq] at h
        subst h
        have := ReadFault.operands (D := D) (parse := parse) (ctx := ctx) l r w hw (by
          cases l with
          | nil => exact .inl rfl
          | cons a l =>
            cases r with
            | nil => exact .inr rfl
            | cons b r => subst hnx; simp [List.getLast?_cons] at he) ho
        subst hnx
        cases r with
        | nil => exact this
        | cons b r => exact this
      · cases h

theorem getLast?_concat' (l : List α) (x : α) : (l ++ [x]).getLast? = some x := by simp

theorem tokenizeLoop_err {D : Debugs N} {parse : Str → Option N} {ctx : Ctx N} {e : Fault} {ws : List Str} (l r : List Str) (hw : ws = l ++ r)
    (h : tokenizeLoop D parse ctx l.getLast? r = .err e) : ReadFault D parse ctx ws e := by
  generalize hn : r.length = n
  induction n using Nat.strongRecOn generalizing l r with
  | _ n ih =>
    subst hn
    cases r with
    | nil => simp [tokenizeLoop] at h
    | cons w rest =>
      have next : tokenizeLoop D parse ctx (some w) rest = .err e → ReadFault D parse ctx ws e := fun h =>
        ih rest.length (by simp) (l ++ [w]) rest (by simp [hw]) (by rw [getLast?_concat']; exact h) rfl
      have pass : ∀ (t : Token N), ((tokenizeLoop D parse ctx (some w) rest).bind fun ts => .ok (t :: ts)) = .err e → ReadFault D parse ctx ws e := by
        intro t h
        cases hr : tokenizeLoop D parse ctx (some w) rest with
        | ok ts => simp [hr, bind] at h
        | panic => simp [hr, bind] at h
        | err e' =>
          simp only [hr, bind, err.injEq] at h
          subst h
          exact next hr
      unfold tokenizeLoop at h
      cases hp : parse w with
      | some n =>
        simp only [hp] at h
        cases rest with
        | nil => cases h
        | cons w' rest' =>
          simp only at h
          split at h
          · rename_i hc
            simp only [Bool.and_eq_true, beq_iff_eq] at hc
            obtain ⟨hc, rfl⟩ := hc
            cases hp' : parse (w ++ ['i']) with
            | none =>
              simp only [hp', err.injEq] at h
              subst h
              have := ReadFault.imaginary (D := D) (parse := parse) (ctx := ctx) l rest' w hc hw (by simp [hp]) hp'
              simpa [Fault.new, quoted, str] using this
            | some m =>
              simp only [hp'] at h
              cases hr : tokenizeLoop D parse ctx (some ['i']) rest' with
              | ok ts => simp [hr, bind] at h
              | panic => simp [hr, bind] at h
              | err e' =>
                simp only [hr, bind, err.injEq] at h
                subst h
                exact ih rest'.length (by simp; omega) (l ++ [w, ['i']]) rest' (by simp [hw]) (by
                  rw [show l ++ [w, ['i']] = (l ++ [w]) ++ [['i']] by simp, getLast?_concat']; exact hr) rfl
          · exact pass _ h
      | none =>
        simp only [hp] at h
        split at h
        · exact pass _ h
        split at h
        · exact pass _ h
        split at h
        · exact pass _ h
        split at h
        · rename_i ho
          cases ht : operatorToken D parse ctx l.getLast? w rest.isEmpty with
          | ok t =>
            simp only [ht, bind] at h
            exact pass t h
          | panic => simp [ht, bind] at h
          | err e' =>
            simp only [ht, bind, err.injEq] at h
            subst h
            refine operatorToken_err hw ?_ ht
            simp only [Bool.or_eq_true, Ctx.isBinary, Ctx.isUnary, Option.isSome_iff_ne_none] at ho
            exact ho.symm
        · split at h
          · exact pass _ h
          · exact next h

end Told

/-- C118. Without the message, the outcome is that of the other model: the value, the kind of error or the panic. -/
theorem C118_same_outcome (D : Debugs N) (M : Inner N) (parse : Str → Option N) (splitter : Str → List Str) (c : Ctx N) (s : Str) :
    (Told.eval D M parse splitter c s).plain = eval parse splitter c s := Told.eval_plain D M parse splitter c s

/-- C118. Every error of evaluating a text says something true about it: the text is blank; or the words cannot be read (`ReadFault`); or they stand
for tokens that cannot be evaluated (`EvalFault`), which includes the errors of the functions and operators of the context. -/
theorem C118_blame (D : Debugs N) (M : Inner N) (parse : Str → Option N) {rules : List Rule} (hg : AllGood rules) (hs : SkipsWs rules) (c : Ctx N)
    (s : Str) (e : Fault) (h : Told.eval D M parse (split rules) c s = .err e) :
    (Blank s ∧ e = .new .empty (str "Expression is empty")) ∨ ReadFault D parse c (split rules s) e ∨
      ∃ ts, Pairwise2 (StandsFor parse c) (wordsFor parse c (split rules s)) ts ∧ EvalFault D M c ts e := by
  cases ht : Told.tokenize D parse (split rules) c s with
  | panic => simp [Told.eval, ht, Told.bind] at h
  | err e' =>
    simp only [Told.eval, ht, Told.bind, Told.err.injEq] at h
    subst h
    unfold Told.tokenize at ht
    split at ht
    · rename_i hb
      simp only [Told.err.injEq] at ht
      exact .inl ⟨fun c hc => List.all_eq_true.1 hb c hc, ht.symm⟩
    · exact .inr (.inl (Told.tokenizeLoop_err [] _ rfl ht))
  | ok ts =>
    simp only [Told.eval, ht, Told.bind] at h
    have ht' : tokenize parse (split rules) c s = .ok ts := by rw [← Told.tokenize_plain D, ht]; rfl
    have hp := C22_words_in_order parse hg hs c s ts ht'
    refine .inr (.inr ⟨ts, hp, Told.evalTokens_err (fun t hm => ?_) h⟩)
    have : ∀ {ws : List Str} {ts : List (Token N)}, Pairwise2 (StandsFor parse c) ws ts → ∀ t ∈ ts, Known c t := by
      intro ws ts hp
      induction hp with
      | nil => simp
      | cons hab _ ih =>
        intro t ht
        rcases List.mem_cons.1 ht with rfl | ht
        · exact hab.known
        · exact ih t ht
    exact this hp t hm

/-- C118. A word that is neither a number nor a registered name, nor a comma or a bracket, is named by the message if only operands, binary operators
and prefix operators come before it. -/
theorem C118_unknown_partial (D : Debugs N) (M : Inner N) (c : Ctx N) (l r : List (Token N)) (w : Str)
    (hl : ∀ t ∈ l, t.isAtom = true ∨ (∃ o f, t = .binary o ∧ c.getBinary o = some f) ∨
      ∃ u f, t = .unary u ∧ c.getUnary u = some f ∧ f.notation_ = .pre) :
    Told.evalTokens D M c (l ++ .unknown w :: r) = .err (.new .invalidInput (str "Invalid token: Unknown(" ++ D.string w ++ str ")")) := by
  have key : ∀ (ts : List (Token N)) (l : List (Token N)) (pos : Nat) (st : SY N), (∀ t ∈ l, t.isAtom = true ∨
      (∃ o f, t = .binary o ∧ c.getBinary o = some f) ∨ ∃ u f, t = .unary u ∧ c.getUnary u = some f ∧ f.notation_ = .pre) →
      Told.syLoop D c ts pos (l ++ .unknown w :: r) st = .err (.new .invalidInput (str "Invalid token: Unknown(" ++ D.string w ++ str ")")) := by
    intro ts l
    induction l with
    | nil => intro pos st _; rfl
    | cons t l ih =>
      intro pos st hl
      have hd : ∀ next, ∃ st', Told.dispatch D c ts pos t next st = .ok st' := by
        intro next
        rcases hl t (by simp) with ha | ⟨o, f, rfl, hf⟩ | ⟨u, f, rfl, hf, hn⟩
        · cases t <;> simp [Token.isAtom] at ha <;> exact ⟨_, rfl⟩
        · simp [Told.dispatch, Told.pushBinaryFunction, hf]
        · simp [Told.dispatch, Told.pushUnaryFunction, hf, hn]
      obtain ⟨st', hd⟩ := hd (l ++ .unknown w :: r).head?
      simp only [List.cons_append, Told.syLoop, Told.syStep, hd, Told.bind]
      exact ih _ _ fun t ht => hl t (by simp [ht])
  simp only [Told.evalTokens, Told.infixToRpn, key _ l 0 SY.init hl, Told.bind]

theorem checkTokenName_err {K : Keys} {c : Context N} {o : Op N} {e : Fault} (h : Told.checkTokenName o.what o.name = .err e) :
    NameFault K true c o e := by
  unfold Told.checkTokenName at h
  split at h
  · rename_i hb
    cases h
    exact .blank rfl fun c hc => List.all_eq_true.1 hb c hc
  split at h
  · rename_i hb
    cases h
    have := NameFault.space (K := K) (c := c) (o := o) rfl (by simpa using hb)
    simpa [Fault.new, quoted, str] using this
  split at h
  · rename_i hb
    cases h
    have := NameFault.control (K := K) (c := c) (o := o) rfl (by simpa using hb)
    simpa [Fault.new, quoted, str] using this
  · cases h

theorem debugCheck_err {K : Keys} {debug : Bool} {c : Context N} {o : Op N} {e : Fault} (h : Told.debugCheck debug o.what o.name = .err e) :
    NameFault K debug c o e := by
  cases debug with
  | false => cases h
  | true => exact checkTokenName_err h

theorem insertAliases_not_err (same : Str → Str → Bool) (v : V) (as : List Str) (m : Map V) (k : ErrorKind) : (insertAliases same v as m).1 ≠ .err k := by
  induction as generalizing m with
  | nil => simp [insertAliases]
  | cons a as ih =>
    unfold insertAliases
    split
    · simp
    · exact ih _

theorem addAs_told {K : Keys} {debug : Bool} {c : Context N} {o : Op N} {called : Str} {m : Map V} {f : Named V} {e : Fault}
    (ht : Map.containsKey K.same m o.name = true → NameFault K debug c o (.new .unknown (called ++ str " named '" ++ o.name ++ str "' already exists")))
    (h : (Told.addAs K.same debug o.what called m f o.name).bind (fun _ => .ok (none : Option N)) = .err e) : NameFault K debug c o e := by
  unfold Told.addAs at h
  cases hd : Told.debugCheck debug o.what o.name with
  | panic => rw [hd] at h; cases h
  | err e' => rw [hd] at h; cases h; exact debugCheck_err hd
  | ok u =>
    simp only [hd, Told.bind] at h
    split at h
    · rename_i x hx
      split at hx
      · cases hx
      · cases h
    · rename_i x hx
      cases h
      split at hx
      · rename_i hc
        cases hx
        exact ht hc
      · cases hr : (insertAliases K.same f.fn f.aliases m).1 with
        | err k => exact (insertAliases_not_err _ _ _ _ _ hr).elim
        | ok u => rw [hr] at hx; cases hx
        | panic => rw [hr] at hx; cases hx
    · cases h

theorem takenText_constant (name : Str) (v : N) :
    (Op.addConstant name v).takenText = str "Invalid constant name, a variable named " ++ quoted name ++ str " exists" := by
  have h1 : str "Invalid constant name, a variable named `" = str "Invalid constant name, a variable named " ++ str "`" := by decide +kernel
  have h2 : str "` exists" = str "`" ++ str " exists" := by decide +kernel
  show str "Invalid constant name, a variable named `" ++ name ++ str "` exists" = _
  rw [h1, h2, quoted]
  simp only [List.append_assoc]

theorem takenText_variable (name : Str) (v : N) :
    (Op.setVariable name v).takenText = str "Invalid variable name, a constant named " ++ quoted name ++ str " exists" := by
  have h1 : str "Invalid variable name, a constant named `" = str "Invalid variable name, a constant named " ++ str "`" := by decide +kernel
  have h2 : str "` exists" = str "`" ++ str " exists" := by decide +kernel
  show str "Invalid variable name, a constant named `" ++ name ++ str "` exists" = _
  rw [h1, h2, quoted]
  simp only [List.append_assoc]

/-- C118. Without the message, the outcome of a registration is that of the other model; and a refusal says what is wrong with the name: in debug builds
that it is blank or has white space or control characters in it, otherwise that it is taken. -/
theorem C118_registration (K : Keys) (debug : Bool) (c : Context N) (o : Op N) :
    (Told.run K debug c o).plain = (c.run K debug o).1 ∧ ∀ e, Told.run K debug c o = .err e → NameFault K debug c o e := by
  refine ⟨Told.run_plain K debug c o, fun e h => ?_⟩
  have hkeys : ∀ {W : Type} (m : Map W) (name : Str), (Map.keys m).any (fun k => eqIgnoreCase K.L k name) = true →
      ∃ x ∈ m, eqIgnoreCase K.L x.1 name = true := by
    intro W m name h
    simpa [Map.keys] using h
  cases o with
  | addFunctionAs f name => exact addAs_told (o := .addFunctionAs f name) (fun hc => NameFault.taken (K := K) (debug := debug) (c := c) (o := .addFunctionAs f name) hc) h
  | addUnaryFunctionAs f name => exact addAs_told (o := .addUnaryFunctionAs f name) (fun hc => NameFault.taken (K := K) (debug := debug) (c := c) (o := .addUnaryFunctionAs f name) hc) h
  | addBinaryFunctionAs f name => exact addAs_told (o := .addBinaryFunctionAs f name) (fun hc => NameFault.taken (K := K) (debug := debug) (c := c) (o := .addBinaryFunctionAs f name) hc) h
  | addConstant name v =>
    simp only [Told.run] at h
    cases hd : Told.debugCheck debug (str "Constant") name with
    | panic => rw [hd] at h; cases h
    | err e' => rw [hd] at h; cases h; exact debugCheck_err (o := .addConstant name v) hd
    | ok u =>
      rw [hd] at h
      by_cases hc : (Map.keys c.variables).any (fun k => eqIgnoreCase K.L k name) = true
      · simp only [Told.bind, hc, if_true, Told.err.injEq] at h
        subst h
        rw [← takenText_constant name v]
        exact .taken (hkeys _ _ hc)
      · simp only [Told.bind, hc, if_false, reduceCtorEq] at h
  | setVariable name v =>
    simp only [Told.run] at h
    cases hd : Told.debugCheck debug (str "Variable") name with
    | panic => rw [hd] at h; cases h
    | err e' => rw [hd] at h; cases h; exact debugCheck_err (o := .setVariable name v) hd
    | ok u =>
      rw [hd] at h
      by_cases hc : (Map.keys c.constants).any (fun k => eqIgnoreCase K.L k name) = true
      · simp only [Told.bind, hc, if_true, Told.err.injEq] at h
        subst h
        rw [← takenText_variable name v]
        exact .taken (hkeys _ _ hc)
      · simp only [Told.bind, hc, if_false, reduceCtorEq] at h

/-- C118. Errors without a message of their own are told apart by their text, which is never empty. -/
theorem C118_kinds (k k' : ErrorKind) (h : (Fault.simple k).text = (Fault.simple k').text) : k = k' ∧ (Fault.simple k).text ≠ [] := by
  constructor
  · revert h; cases k <;> cases k' <;> decide +kernel
  · cases k <;> decide +kernel

namespace Demo

/-- Names between quotes, numbers in decimal. -/
def debugs : Debugs Int := ⟨fun n => (toString n).toList, fun s => str "\"" ++ s ++ str "\"", fun c => str "'" ++ [c] ++ str "'", str "i128"⟩

/-- The functions and operators of the demo context return errors without messages. -/
def inner : Inner Int := ⟨fun _ _ => none, fun _ _ => none, fun _ _ _ => none⟩

/-- Evaluation in the demo context, and the text of the error. -/
def say (s : Str) : Option Str :=
  match Told.eval debugs inner parse (split defaultRules) (ctx false false) s with
  | .err e => some e.text
  | _ => none

end Demo

example : Demo.say (str "1 + foo") = some (str "Invalid token: Unknown(\"foo\")") := by decide +kernel
example : Demo.say (str "2 * (3") = some (str "Unknown token: `ParenthesisOpen(''('')`") := by decide +kernel
example : Demo.say (str "sum 1") = some (str "Function arguments of `sum` are not within a parentheses") := by decide +kernel
example : Demo.say (str "1 / 0") = some (str "Cannot divide by zero") := by decide +kernel
example : Demo.say (str "sum(,1)") = some (str "Misplaced comma: `(,`") := by decide +kernel
example : Demo.say (str "1 2") = some (str "Invalid expression") := by decide +kernel

/-- C118. Where the message about a missing operand should show the word after the operator, it shows the operator: the left operand of `*` is missing in
`* 5`, the message does not mention `5`. -/
theorem C118_operand_counterexample : Demo.say (str "* 5") = some (str "Binary operations need 2 operands: None * Some(\"*\")") := by decide +kernel

/-- A refused registration. -/
example : Told.run (Keys.byEq demoLowercase) true ((Context.withConfig Config.new).runAll (Keys.byEq demoLowercase) true [.addConstant (str "PI") (3 : Int)])
    (.setVariable (str "Pi") 4) = .err (.new .unknown (str "Invalid variable name, a constant named `Pi` exists")) := by decide +kernel

end Prexel
