import Verif.Model.Cost
import Verif.Props.Integer
import Verif.Lemmas.Splitter
import Verif.Examples.Demo
/-!
# C120: the work of an evaluation
-/

namespace Prexel
variable {N F : Type}

/-! ## Splitting -/

/-- A rule cannot take more characters than there are. Every rule written in Rust is like this: it is given an iterator. -/
def Rule.Bounded (r : Rule) : Prop := ∀ c rest, (r c rest).2 ≤ rest.length

theorem runRulesCost_le {rules : List Rule} (h : ∀ r ∈ rules, r.Bounded) (c : Char) (rest : Str) :
    runRulesCost rules c rest + (runRules rules c rest).2.length ≤ rules.length + rest.length := by
  induction rules generalizing rest with
  | nil => simp [runRulesCost, runRules]
  | cons r rules ih =>
    have hb := h r (by simp) c rest
    simp only [runRulesCost, runRules]
    cases ho : r c rest with
    | mk o n =>
      rw [ho] at hb
      simp only at hb
      cases o with
      | data s => simp only [List.length_drop, List.length_cons]; omega
      | skip => simp only [List.length_drop, List.length_cons]; omega
      | cont =>
        have := ih (fun r hr => h r (by simp [hr])) (rest.drop n)
        simp only [List.length_drop, List.length_cons] at this ⊢
        omega

theorem splitLoopCost_le {rules : List Rule} (h : ∀ r ∈ rules, r.Bounded) (fuel : Nat) (s : Str) :
    splitLoopCost rules fuel s ≤ (rules.length + 2) * s.length := by
  induction fuel generalizing s with
  | zero => simp [splitLoopCost]
  | succ fuel ih =>
    cases s with
    | nil => simp [splitLoopCost]
    | cons c rest =>
      have h1 := runRulesCost_le h c rest
      have h2 := ih (runRules rules c rest).2
      have h3 := runRules_length rules c rest
      simp only [splitLoopCost, List.length_cons]
      generalize (runRules rules c rest).2.length = m at h1 h2 h3
      have h4 : (rules.length + 2) * m + (rest.length - m) * (rules.length + 2) = (rules.length + 2) * rest.length := by
        rw [Nat.mul_comm (rest.length - m), ← Nat.mul_add]
        congr 1
        omega
      have h5 : (rest.length - m) * 1 ≤ (rest.length - m) * (rules.length + 2) := Nat.mul_le_mul_left _ (by omega)
      rw [Nat.mul_add]
      omega

theorem split_length_le (rules : List Rule) (s : Str) : (split rules s).length ≤ s.length := by
  generalize hn : s.length = n
  induction n using Nat.strongRecOn generalizing s with
  | ind n ih =>
    cases s with
    | nil => simp
    | cons c rest =>
      simp only [List.length_cons] at hn
      have hl := runRules_length rules c rest
      rw [split_cons]
      cases hr : runRules rules c rest with
      | mk o r =>
        rw [hr] at hl
        simp only at hl
        have := ih r.length (by omega) r rfl
        cases o <;> simp only [List.length_cons] <;> omega

/-! ## Tokenizing -/

theorem tokenizeLoop_length (parse : Str → Option N) (c : Ctx N) (ws : List Str) : ∀ (prev : Option Str) (ts : List (Token N)),
    tokenizeLoop parse c prev ws = .ok ts → ts.length ≤ ws.length := by
  generalize hn : ws.length = n
  induction n using Nat.strongRecOn generalizing ws with
  | ind n ih =>
    intro prev ts h
    have step : ∀ (r : List Str) (p : Option Str) (t : Token N) (ts : List (Token N)), r.length < n →
        (tokenizeLoop parse c p r).bind (fun ts => .ok (t :: ts)) = .ok ts → ts.length ≤ r.length + 1 := by
      intro r p t ts hl h
      cases hr : tokenizeLoop parse c p r with
      | ok us =>
        rw [hr] at h
        simp only [Res.bind_ok, Res.ok.injEq] at h
        subst h
        have := ih r.length hl r rfl p us hr
        simp only [List.length_cons]; omega
      | err k => rw [hr] at h; cases h
      | panic => rw [hr] at h; cases h
    cases ws with
    | nil => simp only [tokenizeLoop, Res.ok.injEq] at h; subst h; simp
    | cons w rest =>
      simp only [List.length_cons] at hn
      unfold tokenizeLoop at h
      split at h
      · split at h
        · rename_i w' rest' 
          simp only [List.length_cons] at hn
          split at h
          · split at h
            · cases h
            · have := step _ _ _ _ (by omega) h; omega
          · have := step _ _ _ _ (by simp only [List.length_cons]; omega) h; simp only [List.length_cons] at this; omega
        · simp only [Res.ok.injEq] at h; subst h; simp only [List.length_cons]; omega
      · split at h
        · have := step _ _ _ _ (by omega) h; omega
        · split at h
          · have := step _ _ _ _ (by omega) h; omega
          · split at h
            · have := step _ _ _ _ (by omega) h; omega
            · split at h
              · cases ho : operatorToken parse c prev w rest.isEmpty with
                | ok t =>
                  rw [ho] at h
                  simp only [Res.bind_ok] at h
                  have := step _ _ _ _ (by omega) h; omega
                | err k => rw [ho] at h; cases h
                | panic => rw [ho] at h; cases h
              · split at h
                · have := step _ _ _ _ (by omega) h; omega
                · have := ih rest.length (by omega) rest rfl _ _ h; omega

theorem tokenize_length {parse : Str → Option N} {rules : List Rule} {c : Ctx N} {s : Str} {ts : List (Token N)}
    (h : tokenize parse (split rules) c s = .ok ts) : ts.length ≤ s.length := by
  unfold tokenize at h
  split at h
  · cases h
  · exact Nat.le_trans (tokenizeLoop_length parse c _ _ _ h) (split_length_le rules s)

/-! ## Conversion to postfix -/

/-- The rounds of `rpn_eval` that a token will take. -/
def weight : Token N → Nat
  | .argCount n => 1 + n
  | _ => 1

def weights (ts : List (Token N)) : Nat := (ts.map weight).sum

@[simp] theorem weights_nil : weights ([] : List (Token N)) = 0 := rfl
@[simp] theorem weights_cons (t : Token N) (ts : List (Token N)) : weights (t :: ts) = weight t + weights ts := by simp [weights]
@[simp] theorem weights_append (ts us : List (Token N)) : weights (ts ++ us) = weights ts + weights us := by simp [weights]

/-- What has been put on the stacks and not been taken off, in rounds to come. -/
def SY.load (st : SY N) : Nat := weights st.output + st.ops.length + (st.argc.map (· + 2)).sum

/-- No argument counts on the operator stack: all weights on it are 1. -/
def SY.Plain (st : SY N) : Prop := ∀ t ∈ st.ops, weight t = 1

theorem popForBinary_cost (ctx : Ctx N) (operator : BinFn N) (ops output : List (Token N)) :
    popForBinaryCost ctx operator ops + (popForBinary ctx operator ops output).1.length ≤ ops.length + 1 := by
  induction ops generalizing output with
  | nil => simp [popForBinaryCost, popForBinary]
  | cons t ops ih =>
    cases t with
    | function f =>
      have := ih (output ++ [.function f])
      simp only [popForBinaryCost, popForBinary, List.length_cons]; omega
    | binary op =>
      cases hb : ctx.getBinary op with
      | none => simp [popForBinaryCost, popForBinary, hb]; omega
      | some top =>
        by_cases hp : popsBefore top operator
        · have := ih (output ++ [.binary op])
          simp only [popForBinaryCost, popForBinary, hb, hp, if_true, List.length_cons]; omega
        · simp [popForBinaryCost, popForBinary, hb, hp]; omega
    | _ => simp [popForBinaryCost, popForBinary]; omega

theorem popForBinary_load (ctx : Ctx N) (operator : BinFn N) (ops output : List (Token N)) (hp : ∀ t ∈ ops, weight t = 1) :
    weights (popForBinary ctx operator ops output).2 + (popForBinary ctx operator ops output).1.length = weights output + ops.length ∧
    ∀ t ∈ (popForBinary ctx operator ops output).1, t ∈ ops := by
  induction ops generalizing output with
  | nil => simp [popForBinary]
  | cons t ops ih =>
    have h1 := hp t (by simp)
    have ih := ih (output ++ [t]) (fun t ht => hp t (by simp [ht]))
    simp only [weights_append, weights_cons, weights_nil, h1] at ih
    have stop : weights output + (t :: ops).length = weights output + (t :: ops).length ∧ ∀ u ∈ t :: ops, u ∈ t :: ops := ⟨rfl, fun _ h => h⟩
    have go : ∀ r : List (Token N) × List (Token N), weights r.2 + r.1.length = weights output + (1 + 0) + ops.length ∧ (∀ t ∈ r.1, t ∈ ops) →
        weights r.2 + r.1.length = weights output + (t :: ops).length ∧ ∀ u ∈ r.1, u ∈ t :: ops := by
      intro r hr
      exact ⟨by simp only [List.length_cons]; omega, fun u hu => by simp [hr.2 u hu]⟩
    simp only [popForBinary]
    split
    · exact stop
    · exact go _ ih
    · split
      · split
        · exact go _ ih
        · exact stop
      · exact stop
    · exact stop

theorem popToOpen_cost {ops output : List (Token N)} {c : Char} {ops' output' : List (Token N)} (h : popToOpen ops output = some (c, ops', output'))
    (hp : ∀ t ∈ ops, weight t = 1) :
    popOpenCost ops + ops'.length = ops.length ∧ weights output' + ops'.length + 1 = weights output + ops.length ∧ ∀ t ∈ ops', t ∈ ops := by
  induction ops generalizing output with
  | nil => simp [popToOpen] at h
  | cons t ops ih =>
    have h1 := hp t (by simp)
    by_cases ho : ∃ c, t = .gopen c
    · obtain ⟨c', rfl⟩ := ho
      simp only [popToOpen, Option.some.injEq, Prod.mk.injEq] at h
      obtain ⟨rfl, rfl, rfl⟩ := h
      refine ⟨by simp [popOpenCost]; omega, by simp; omega, fun t ht => by simp [ht]⟩
    · have h' : popToOpen (t :: ops) output = popToOpen ops (output ++ [t]) := by
        cases t <;> first | rfl | exact absurd ⟨_, rfl⟩ ho
      have hc : popOpenCost (t :: ops) = 1 + popOpenCost ops := by
        cases t <;> first | rfl | exact absurd ⟨_, rfl⟩ ho
      rw [h'] at h
      obtain ⟨i1, i2, i3⟩ := ih h (fun t ht => hp t (by simp [ht]))
      simp only [weights_append, weights_cons, weights_nil, h1] at i2
      refine ⟨by simp only [List.length_cons]; omega, by simp only [List.length_cons]; omega, fun t ht => by simp [i3 t ht]⟩

theorem popUntilOpen_cost {ops output : List (Token N)} {ops' output' : List (Token N)} (h : popUntilOpen ops output = some (ops', output'))
    (hp : ∀ t ∈ ops, weight t = 1) :
    popOpenCost ops + ops'.length = ops.length + 1 ∧ weights output' + ops'.length = weights output + ops.length ∧ ∀ t ∈ ops', t ∈ ops := by
  induction ops generalizing output with
  | nil => simp [popUntilOpen] at h
  | cons t ops ih =>
    have h1 := hp t (by simp)
    by_cases ho : ∃ c, t = .gopen c
    · obtain ⟨c', rfl⟩ := ho
      simp only [popUntilOpen, Option.some.injEq, Prod.mk.injEq] at h
      obtain ⟨rfl, rfl⟩ := h
      refine ⟨by simp [popOpenCost]; omega, by simp, fun t ht => by simpa using ht⟩
    · have h' : popUntilOpen (t :: ops) output = popUntilOpen ops (output ++ [t]) := by
        cases t <;> first | rfl | exact absurd ⟨_, rfl⟩ ho
      have hc : popOpenCost (t :: ops) = 1 + popOpenCost ops := by
        cases t <;> first | rfl | exact absurd ⟨_, rfl⟩ ho
      rw [h'] at h
      obtain ⟨i1, i2, i3⟩ := ih h (fun t ht => hp t (by simp [ht]))
      simp only [weights_append, weights_cons, weights_nil, h1] at i2
      refine ⟨by simp only [List.length_cons]; omega, by simp only [List.length_cons]; omega, fun t ht => by simp [i3 t ht]⟩

theorem popOpenCost_le (ops : List (Token N)) : popOpenCost ops ≤ ops.length := by
  induction ops with
  | nil => simp [popOpenCost]
  | cons t ops ih =>
    cases t <;> simp only [popOpenCost, List.length_cons] <;> omega

theorem dispatchCost_le (ctx : Ctx N) (t : Token N) (st : SY N) : dispatchCost ctx t st ≤ st.ops.length + 1 := by
  have h := popOpenCost_le st.ops
  cases t with
  | binary name =>
    simp only [dispatchCost]
    split
    · have := popForBinary_cost ctx ‹_› st.ops []; omega
    · omega
  | gclose c => simp only [dispatchCost]; omega
  | comma => simp only [dispatchCost]; omega
  | _ => simp [dispatchCost]

/-- One round of the main loop. The stack has paid for what is taken off it. -/
theorem syStep_cost {ctx : Ctx N} {tokens : List (Token N)} {pos : Nat} {t : Token N} {next : Option (Token N)} {st st' : SY N}
    (h : syStep ctx tokens pos t next st = .ok st') (hp : st.Plain) :
    st'.Plain ∧ dispatchCost ctx t st + st'.ops.length ≤ st.ops.length + 2 ∧ st'.load ≤ st.load + 3 := by
  unfold syStep at h
  cases hd : dispatch ctx tokens pos t next st with
  | err k => rw [hd] at h; cases h
  | panic => rw [hd] at h; cases h
  | ok s1 =>
    rw [hd, Res.bind_ok] at h
    simp only [Res.ok.injEq] at h
    -- the implicit multiplication
    have himp : s1.Plain → st'.Plain ∧ (implicitMulHere ctx t next = false → st' = s1) ∧ st'.ops.length ≤ s1.ops.length + 1 ∧ st'.load ≤ s1.load + 1 := by
      intro h1
      subst h
      unfold implicitMulBlock
      split
      · rename_i hi
        refine ⟨?_, by simp [hi], by simp, by simp [SY.load]; omega⟩
        intro t ht
        simp only [List.mem_cons] at ht
        rcases ht with rfl | ht
        · rfl
        · exact h1 t ht
      · exact ⟨h1, fun _ => rfl, by omega, by omega⟩
    have number : t.isNumber = true ∨ (∃ s, t = .variable_ s) ∨ (∃ s, t = .constant s) → s1 = pushNumber ctx st t → weight t = 1 → dispatchCost ctx t st = 0 →
        st'.Plain ∧ dispatchCost ctx t st + st'.ops.length ≤ st.ops.length + 2 ∧ st'.load ≤ st.load + 3 := by
      intro _ h1 hw h0
      subst h1
      have h2 : (pushNumber ctx st t).Plain ∧ (pushNumber ctx st t).ops.length ≤ st.ops.length ∧ (pushNumber ctx st t).load ≤ st.load + 1 := by
        unfold pushNumber
        split
        · rename_i op ops ho
          split
          · refine ⟨fun t ht => hp t (by rw [ho]; simp [ht]), by rw [ho]; simp, ?_⟩
            simp only [SY.load, weights_append, weights_cons, weights_nil, hw, ho, List.length_cons]
            have : weight (.unary op : Token N) = 1 := rfl
            omega
          · refine ⟨hp, Nat.le_refl _, ?_⟩
            simp only [SY.load, weights_append, weights_cons, weights_nil, hw]
            omega
        · refine ⟨hp, Nat.le_refl _, ?_⟩
          simp only [SY.load, weights_append, weights_cons, weights_nil, hw]
          omega
      obtain ⟨i1, -, i2, i3⟩ := himp h2.1
      exact ⟨i1, by rw [h0]; omega, by omega⟩
    cases t with
    | number n => exact number (.inl rfl) (by simpa [dispatch] using hd.symm) rfl rfl
    | variable_ s => exact number (.inr (.inl ⟨s, rfl⟩)) (by simpa [dispatch] using hd.symm) rfl rfl
    | constant s => exact number (.inr (.inr ⟨s, rfl⟩)) (by simpa [dispatch] using hd.symm) rfl rfl
    | binary name =>
      simp only [dispatch, pushBinaryFunction] at hd
      split at hd
      · cases hd
      · rename_i operator hb
        simp only [Res.ok.injEq] at hd
        subst hd
        have h1 := popForBinary_cost ctx operator st.ops st.output
        obtain ⟨h2, h3⟩ := popForBinary_load ctx operator st.ops st.output hp
        have hpl : SY.Plain { st with ops := .binary name :: (popForBinary ctx operator st.ops st.output).1, output := (popForBinary ctx operator st.ops st.output).2 } := by
          intro t ht
          simp only [List.mem_cons] at ht
          rcases ht with rfl | ht
          · rfl
          · exact hp t (h3 t ht)
        obtain ⟨i1, i0, -, -⟩ := himp hpl
        have := i0 (by simp [implicitMulHere])
        subst this
        refine ⟨i1, ?_, ?_⟩
        · simp only [dispatchCost, hb, List.length_cons]; omega
        · simp only [SY.load, List.length_cons]; omega
    | unary name =>
      simp only [dispatch, pushUnaryFunction] at hd
      split at hd
      · split at hd
        · simp only [Res.ok.injEq] at hd
          subst hd
          obtain ⟨i1, i0, -, -⟩ := himp (by
            intro t ht
            simp only [List.mem_cons] at ht
            rcases ht with rfl | ht
            · rfl
            · exact hp t ht)
          have := i0 (by simp [implicitMulHere])
          subst this
          refine ⟨i1, by simp [dispatchCost], by simp [SY.load]; omega⟩
        · split at hd
          · cases hd
          · simp only [Res.ok.injEq] at hd
            subst hd
            obtain ⟨i1, i0, -, -⟩ := himp hp
            have := i0 (by simp [implicitMulHere])
            subst this
            refine ⟨i1, by simp [dispatchCost], by simp [SY.load, weight]; omega⟩
      · cases hd
    | function f =>
      simp only [dispatch] at hd
      split at hd
      · cases hd
      · simp only [Res.ok.injEq] at hd
        subst hd
        obtain ⟨i1, i0, -, -⟩ := himp (by
            intro t ht
            simp only [List.mem_cons] at ht
            rcases ht with rfl | ht
            · rfl
            · exact hp t ht)
        have := i0 (by simp [implicitMulHere])
        subst this
        refine ⟨i1, by simp [dispatchCost], by simp [SY.load]; omega⟩
    | gopen c =>
      simp only [dispatch, Res.ok.injEq] at hd
      subst hd
      obtain ⟨i1, i0, -, -⟩ := himp (by
            intro t ht
            simp only [List.mem_cons] at ht
            rcases ht with rfl | ht
            · rfl
            · exact hp t ht)
      have := i0 (by simp [implicitMulHere])
      subst this
      refine ⟨i1, by simp [dispatchCost], by simp [SY.load]; omega⟩
    | gclose c =>
      simp only [dispatch] at hd
      cases hg : pushGroupingClose ctx c st with
      | err k => rw [hg] at hd; cases hd
      | panic => rw [hg] at hd; cases hd
      | ok s2 =>
        rw [hg, Res.bind_ok] at hd
        have h2 : s2.Plain ∧ popOpenCost st.ops + s2.ops.length ≤ st.ops.length ∧ s2.load + 1 ≤ st.load + 1 := by
          unfold pushGroupingClose at hg
          split at hg
          · cases hg
          · rename_i c' ops output ho
            obtain ⟨j1, j2, j3⟩ := popToOpen_cost ho hp
            split at hg
            · cases hg
            · split at hg
              · split at hg
                · rename_i n argc f ops' hargc
                  simp only [Res.ok.injEq] at hg
                  subst hg
                  refine ⟨fun t ht => hp t (j3 t (by simp [ht])), ?_, ?_⟩
                  · simp only [List.length_cons] at j1; simp only; omega
                  · have w1 : weight (.argCount (n + 1) : Token N) = 1 + (n + 1) := rfl
                    have w2 : weight (.function f : Token N) = 1 := rfl
                    simp only [SY.load, weights_append, weights_cons, weights_nil, w1, w2, hargc, List.map_cons, List.sum_cons]
                    simp only [List.length_cons] at j2
                    omega
                · simp only [Res.ok.injEq] at hg
                  subst hg
                  refine ⟨fun t ht => hp t (j3 t ht), by simp only; omega, ?_⟩
                  simp only [SY.load]; omega
              · cases hg
        split at hd
        · cases hd
        · cases hd
        · simp only [Res.ok.injEq] at hd
          have hpl : s1.Plain := by subst hd; exact h2.1
          obtain ⟨i1, -, i2, i3⟩ := himp hpl
          have e1 : s1.ops = s2.ops := by subst hd; rfl
          have e2 : s1.load = s2.load := by subst hd; rfl
          refine ⟨i1, ?_, by omega⟩
          simp only [dispatchCost]
          rw [e1] at i2
          omega
    | comma =>
      simp only [dispatch] at hd
      cases hc : checkCommaPosition tokens st.grp pos with
      | err k => rw [hc] at hd; cases hd
      | panic => rw [hc] at hd; cases hd
      | ok u =>
        rw [hc, Res.bind_ok] at hd
        unfold pushComma at hd
        split at hd
        · cases hd
        · rename_i n argc hargc
          split at hd
          · cases hd
          · rename_i ops output ho
            obtain ⟨j1, j2, j3⟩ := popUntilOpen_cost ho hp
            simp only [Res.ok.injEq] at hd
            have hpl : s1.Plain := by subst hd; exact fun t ht => hp t (j3 t ht)
            obtain ⟨i1, i0, -, -⟩ := himp hpl
            have := i0 (by simp [implicitMulHere])
            subst this
            subst hd
            refine ⟨i1, by simp only [dispatchCost]; omega, ?_⟩
            simp only [SY.load, hargc, List.map_cons, List.sum_cons]
            omega
    | argCount n => simp [dispatch] at hd
    | unknown s => simp [dispatch] at hd

theorem syCost_le (ctx : Ctx N) (tokens : List (Token N)) (rest : List (Token N)) : ∀ (pos : Nat) (st : SY N), st.Plain →
    syCost ctx tokens pos rest st ≤ st.ops.length + 3 * rest.length ∧
    ∀ st', syLoop ctx tokens pos rest st = .ok st' → st'.Plain ∧ st'.load ≤ st.load + 3 * rest.length := by
  induction rest with
  | nil =>
    intro pos st hp
    refine ⟨by simp [syCost], fun st' h => ?_⟩
    simp only [syLoop, Res.ok.injEq] at h
    subst h
    exact ⟨hp, by simp⟩
  | cons t rest ih =>
    intro pos st hp
    have hd := dispatchCost_le ctx t st
    simp only [syCost, syLoop, List.length_cons]
    cases hs : syStep ctx tokens pos t rest.head? st with
    | err k => exact ⟨by simp only; omega, fun st' h => by cases h⟩
    | panic => exact ⟨by simp only; omega, fun st' h => by cases h⟩
    | ok s1 =>
      obtain ⟨h1, h2, h3⟩ := syStep_cost hs hp
      obtain ⟨i1, i2⟩ := ih (pos + 1) s1 h1
      refine ⟨by simp only; omega, fun st' h => ?_⟩
      rw [Res.bind_ok] at h
      obtain ⟨j1, j2⟩ := i2 st' h
      exact ⟨j1, by omega⟩

theorem flush_weights {ops output rpn : List (Token N)} (h : flush ops output = .ok rpn) (hp : ∀ t ∈ ops, weight t = 1) :
    weights rpn = weights output + ops.length := by
  induction ops generalizing output with
  | nil => simp only [flush, Res.ok.injEq] at h; subst h; simp
  | cons t ops ih =>
    simp only [flush] at h
    split at h
    · cases h
    · rw [ih h (fun t ht => hp t (by simp [ht]))]
      simp only [weights_append, weights_cons, weights_nil, hp t (by simp), List.length_cons]
      omega

theorem infixToRpn_weights {ctx : Ctx N} {tokens rpn : List (Token N)} (h : infixToRpn ctx tokens = .ok rpn) : weights rpn ≤ 3 * tokens.length := by
  unfold infixToRpn at h
  have hi : (SY.init : SY N).Plain := by simp [SY.Plain, SY.init]
  cases hs : syLoop ctx tokens 0 tokens SY.init with
  | err k => rw [hs] at h; cases h
  | panic => rw [hs] at h; cases h
  | ok st =>
    rw [hs, Res.bind_ok] at h
    obtain ⟨h1, h2⟩ := (syCost_le ctx tokens tokens 0 SY.init hi).2 st hs
    rw [flush_weights h h1]
    have : (SY.init : SY N).load = 0 := rfl
    have h3 : weights st.output + st.ops.length ≤ st.load := by simp only [SY.load]; omega
    omega

/-! ## Evaluating the postfix form -/

theorem rpnCost_le (ctx : Ctx N) (rpn : List (Token N)) : ∀ (values : List N) (argc : Option Nat),
    rpnCost ctx rpn values argc ≤ argc.getD 0 + weights rpn := by
  induction rpn with
  | nil => simp [rpnCost]
  | cons t rest ih =>
    intro values argc
    simp only [rpnCost, weights_cons]
    cases hs : rpnStep ctx t values argc with
    | err k => cases t <;> simp [Token.isFunction, weight] <;> omega
    | panic => cases t <;> simp [Token.isFunction, weight] <;> omega
    | ok r =>
      have hr := ih r.1 r.2
      have same : t.isFunction = false → (∀ n, t ≠ .argCount n) → r.2 = argc := by
        intro h1 h2
        cases t with
        | number n => simp [rpnStep] at hs; subst hs; rfl
        | variable_ s => 
          simp only [rpnStep] at hs
          cases h : Res.ofOption (ctx.getVariable s) ErrorKind.invalidInput with
          | ok v => rw [h, Res.bind_ok] at hs; simp only [Res.ok.injEq] at hs; subst hs; rfl
          | err k => rw [h] at hs; cases hs
          | panic => rw [h] at hs; cases hs
        | constant s =>
          simp only [rpnStep] at hs
          cases h : Res.ofOption (ctx.getConstant s) ErrorKind.invalidInput with
          | ok v => rw [h, Res.bind_ok] at hs; simp only [Res.ok.injEq] at hs; subst hs; rfl
          | err k => rw [h] at hs; cases hs
          | panic => rw [h] at hs; cases hs
        | unary s =>
          simp only [rpnStep] at hs
          cases h : Res.ofOption (ctx.getUnary s) ErrorKind.invalidInput with
          | ok v =>
            rw [h, Res.bind_ok] at hs
            split at hs
            · rename_i n vs
              cases hc : v.call n with
              | ok x => rw [hc, Res.bind_ok] at hs; simp only [Res.ok.injEq] at hs; subst hs; rfl
              | err k => rw [hc] at hs; cases hs
              | panic => rw [hc] at hs; cases hs
            · cases hs
          | err k => rw [h] at hs; cases hs
          | panic => rw [h] at hs; cases hs
        | binary s =>
          simp only [rpnStep] at hs
          cases h : Res.ofOption (ctx.getBinary s) ErrorKind.invalidInput with
          | ok v =>
            rw [h, Res.bind_ok] at hs
            split at hs
            · rename_i x y vs
              cases hc : v.call y x with
              | ok x => rw [hc, Res.bind_ok] at hs; simp only [Res.ok.injEq] at hs; subst hs; rfl
              | err k => rw [hc] at hs; cases hs
              | panic => rw [hc] at hs; cases hs
            · cases hs
          | err k => rw [h] at hs; cases hs
          | panic => rw [h] at hs; cases hs
        | function s => simp [Token.isFunction] at h1
        | argCount n => exact absurd rfl (h2 n)
        | gopen c => simp [rpnStep] at hs
        | gclose c => simp [rpnStep] at hs
        | comma => simp [rpnStep] at hs
        | unknown s => simp [rpnStep] at hs
      by_cases hf : t.isFunction = true
      · have : r.2 = none := by
          cases t with
          | function s =>
            simp only [rpnStep] at hs
            cases h : Res.ofOption (ctx.getFunction s) ErrorKind.invalidInput with
            | ok v =>
              rw [h, Res.bind_ok] at hs
              cases h' : Res.ofOption argc ErrorKind.invalidInput with
              | ok n =>
                rw [h', Res.bind_ok] at hs
                cases hc : v (values.take n).reverse with
                | ok x => rw [hc, Res.bind_ok] at hs; simp only [Res.ok.injEq] at hs; subst hs; rfl
                | err k => rw [hc] at hs; cases hs
                | panic => rw [hc] at hs; cases hs
              | err k => rw [h'] at hs; cases hs
              | panic => rw [h'] at hs; cases hs
            | err k => rw [h] at hs; cases hs
            | panic => rw [h] at hs; cases hs
          | _ => simp [Token.isFunction] at hf
        rw [this] at hr
        have hw : 1 ≤ weight t := by cases t <;> simp [weight]
        simp only [hf, if_true]
        simp only [this, Option.getD_none] at hr ⊢
        omega
      · by_cases ha : ∃ n, t = .argCount n
        · obtain ⟨n, rfl⟩ := ha
          simp only [rpnStep] at hs
          split at hs
          · cases hs
          · simp only [Res.ok.injEq] at hs
            subst hs
            simp only [Option.getD_some] at hr
            simp only [Token.isFunction, weight]
            simp only [Bool.false_eq_true, if_false]
            omega
        · have h2 := same (by simpa using hf) (fun n hn => ha ⟨n, hn⟩)
          have hw : 1 ≤ weight t := by cases t <;> simp [weight]
          rw [h2] at hr
          simp only [hf]
          simp only [h2] at hr ⊢
          simp only [Bool.false_eq_true, if_false]
          omega

/-- C120. Evaluating tokens takes at most six rounds of its loops for each token, whatever the tokens and the context are. -/
theorem C120_tokens (ctx : Ctx N) (tokens : List (Token N)) : evalTokensCost ctx tokens ≤ 6 * tokens.length := by
  have hi : (SY.init : SY N).Plain := by simp [SY.Plain, SY.init]
  have h1 := (syCost_le ctx tokens tokens 0 SY.init hi).1
  have h0 : (SY.init : SY N).ops.length = 0 := rfl
  unfold evalTokensCost
  cases hr : infixToRpn ctx tokens with
  | ok rpn =>
    have h2 := infixToRpn_weights hr
    have h3 := rpnCost_le ctx rpn [] none
    simp only [Option.getD_none] at h3 ⊢
    omega
  | err k => simp only; omega
  | panic => simp only; omega

/-- C120. Evaluating a text takes a number of rounds that is at most proportional to its length, whatever the text, the context, the number type and
the rules are. `calls` of the functions of the context count as one round. -/
theorem C120_text (parse : Str → Option N) (rules : List Rule) (h : ∀ r ∈ rules, r.Bounded) (ctx : Ctx N) (s : Str) :
    evalCost parse rules ctx s ≤ (rules.length + 9) * s.length := by
  have h1 := splitLoopCost_le h s.length s
  have h2 := split_length_le rules s
  have e : (rules.length + 9) * s.length = (rules.length + 2) * s.length + 7 * s.length := by rw [← Nat.add_mul]
  unfold evalCost splitCost
  rw [e]
  cases ht : tokenize parse (split rules) ctx s with
  | ok ts =>
    have h3 := tokenize_length ht
    have h4 := C120_tokens ctx ts
    simp only
    omega
  | err k => simp only; omega
  | panic => simp only; omega

/-- The rules of the crate are bounded; evaluating `2 *(3+4)` takes at most 104 rounds. -/
example : (∀ r ∈ defaultRules, r.Bounded) ∧
    evalCost Demo.parse defaultRules (Demo.ctx false false) ['2', ' ', '*', '(', '3', '+', '4', ')'] ≤ 104 := by
  have hb : ∀ r ∈ defaultRules, r.Bounded := fun r hr c rest => (defaultRules_good r hr).bound c rest
  exact ⟨hb, C120_text Demo.parse defaultRules hb (Demo.ctx false false) ['2', ' ', '*', '(', '3', '+', '4', ')']⟩

/-! ## The exception: factorials -/

/-- The loop of `n!` over integers in a release build, where no product that overflows ends it. -/
theorem factorialCost_release {w : Width} (toF64 : SInt w → F) (fromF64 : F → Option (SInt w)) (fuel m : Nat) (hm : m ≤ fuel)
    (total next : SInt w) (hn : next.1 = m) : factorialCost (SInt.num w false toF64 fromF64) fuel total next = m := by
  induction fuel generalizing m total next with
  | zero => simp [factorialCost]; omega
  | succ fuel ih =>
    unfold factorialCost
    have hd : (SInt.num w false toF64 fromF64).ge next (SInt.num w false toF64 fromF64).one = decide (1 ≤ m) := by
      show decide ((1 : Int) ≤ next.1) = decide (1 ≤ m)
      rw [hn]; simp only [decide_eq_decide]; omega
    rw [hd]
    by_cases h0 : m = 0
    · subst h0; simp
    · have h1 : 1 ≤ m := by omega
      have hfit : w.Fits ((m - 1 : Nat) : Int) := by
        have := next.2
        rw [hn] at this
        have h0 := SInt.lo_lt_zero w
        exact ⟨by omega, by have := this.2; omega⟩
      have hsub : (SInt.num w false toF64 fromF64).sub next (SInt.num w false toF64 fromF64).one = .ok ⟨((m - 1 : Nat) : Int), hfit⟩ := by
        show SInt.arith false (next.1 - 1) = _
        have : next.1 - 1 = ((m - 1 : Nat) : Int) := by rw [hn]; omega
        unfold SInt.arith
        rw [this, SInt.of?_fits hfit]
      have hmul : ∃ t, (SInt.num w false toF64 fromF64).mul total next = .ok t := by
        show ∃ t, SInt.arith false (total.1 * next.1) = .ok t
        unfold SInt.arith
        split
        · exact ⟨_, rfl⟩
        · exact ⟨_, rfl⟩
      obtain ⟨t, ht⟩ := hmul
      simp only [h1, decide_true, if_true, ht, hsub]
      rw [ih (m - 1) (by omega) t ⟨((m - 1 : Nat) : Int), hfit⟩ rfl]
      omega

/-- C120 leaves out what the functions do, and for factorials that matters: `n!` over integers in a release build makes `n - 1` rounds for every `n`,
so that the time is exponential in the number of digits. The text of 40 characters `170141183460469231731687303715884105727!` makes
more than `10 ^ 38` rounds over `i128`, the type of the `eval` program. -/
theorem C120_factorial_counterexample :
    (∀ (w : Width) (toF64 : SInt w → F) (fromF64 : F → Option (SInt w)) (n next : SInt w), 2 ≤ n.1 →
      (SInt.num w false toF64 fromF64).sub n (SInt.num w false toF64 fromF64).one = .ok next →
      ((factorialCost (SInt.num w false toF64 fromF64) ((SInt.num w false toF64 fromF64).fuel n) n next : Nat) : Int) = n.1 - 1) ∧
    ∃ n : SInt i128, SInt.parse i128 (str "170141183460469231731687303715884105727") = some n ∧ 10 ^ 38 < n.1 - 1 := by
  constructor
  · intro w toF64 fromF64 n next hn hs
    have hfit : w.Fits (n.1 - 1) := by
      have := n.2
      have h0 := SInt.lo_lt_zero w
      exact ⟨by omega, by have := this.2; omega⟩
    have : next.1 = n.1 - 1 := by
      have h : SInt.arith false (n.1 - 1) = Res.ok next := hs
      unfold SInt.arith at h
      rw [SInt.of?_fits hfit] at h
      injection h with h
      rw [← h]
    show ((factorialCost _ n.1.toNat n next : Nat) : Int) = _
    rw [factorialCost_release toF64 fromF64 n.1.toNat (n.1 - 1).toNat (by omega) n next (by rw [this]; omega)]
    omega
  · exact ⟨⟨170141183460469231731687303715884105727, by decide +kernel⟩, by decide +kernel, by decide +kernel⟩

/-- C120. Worse, for a number type where subtracting 1 from a number large enough gives the number back and where no product fails — `f64` from
`2 ^ 54` on, so `20000000000000000!` — the loop of the factorial does not end at all: it makes any number of rounds. -/
theorem C120_factorial_hangs (num : Num N F) (next : N) (h1 : num.ge next num.one = true) (h2 : num.sub next num.one = .ok next)
    (h3 : ∀ total, ∃ t, num.mul total next = .ok t) (fuel : Nat) (total : N) :
    factorialCost num fuel total next = fuel ∧ Ops.factorialLoop num fuel total next = .panic := by
  induction fuel generalizing total with
  | zero => simp [factorialCost, Ops.factorialLoop, h1]
  | succ fuel ih =>
    obtain ⟨t, ht⟩ := h3 total
    simp [factorialCost, Ops.factorialLoop, h1, h2, ht, ih t, Nat.add_comm]

/-- A number type that cannot tell large numbers apart: a difference is rounded to a multiple of ten. -/
def Demo.coarse : Num Int Int where
  zero := 0
  one := 1
  isZero := (· == 0)
  isOne := (· == 1)
  lt x y := decide (x < y)
  ge x y := decide (y ≤ x)
  checkedAdd x y := some (x + y)
  checkedSub x y := some ((x - y + 5) / 10 * 10)
  checkedMul x y := some (x * y)
  checkedDiv x y := some (x / y)
  checkedRem x y := some (x % y)
  checkedNeg x := some (-x)
  add x y := .ok (x + y)
  sub x y := .ok ((x - y + 5) / 10 * 10)
  mul x y := .ok (x * y)
  div x y := .ok (x / y)
  rem x y := .ok (x % y)
  neg x := .ok (-x)
  fromUsize n := some n
  toF64 := some
  fromF64 := some
  fuel := Int.toNat

/-- In it, `100!` is an endless loop. -/
example (fuel : Nat) : factorialCost Demo.coarse fuel 100 100 = fuel :=
  (C120_factorial_hangs Demo.coarse 100 (by decide) (by decide) (fun t => ⟨t * 100, rfl⟩) fuel 100).1

end Prexel
