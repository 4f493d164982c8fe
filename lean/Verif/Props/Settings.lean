import Mathlib.Data.List.Induction
import Verif.Props.Context
import Verif.Props.Evaluator
import Verif.Lemmas.Calls
/-!
# C135: chains of configuration calls
-/

namespace Prexel

/-- A call on a `Config` (`with_implicit_mul`, `with_complex_number`, `with_custom_function_call`, `with_grouping`). -/
inductive Setting
  | implicitMul (b : Bool)
  | complexNumber (b : Bool)
  | customFunctionCall (b : Bool)
  | grouping (g : Grouping)

/-- What the call does, as the library is used: `config.with_…(…)`. -/
def Setting.apply (c : Config) : Setting → Config
  | .implicitMul b => c.withImplicitMul b
  | .complexNumber b => c.withComplexNumber b
  | .customFunctionCall b => c.withCustomFunctionCall b
  | .grouping g => c.withGrouping g

/-- The last argument of the calls that `which` picks; off if there is none. -/
def lastOf (which : Setting → Option Bool) (l : List Setting) : Bool := (l.filterMap which).getLast?.getD false

/-- The calls which turn products without a sign on or off. -/
def Setting.mul? : Setting → Option Bool
  | .implicitMul b => some b
  | _ => none

/-- The calls which turn complex numbers on or off. -/
def Setting.complex? : Setting → Option Bool
  | .complexNumber b => some b
  | _ => none

/-- The calls which turn calls with other brackets on or off. -/
def Setting.custom? : Setting → Option Bool
  | .customFunctionCall b => some b
  | _ => none

theorem lastOf_snoc (which : Setting → Option Bool) (l : List Setting) (s : Setting) :
    lastOf which (l ++ [s]) = (which s).getD (lastOf which l) := by
  unfold lastOf
  rw [List.filterMap_append]
  cases h : which s <;> simp [h]

/-- C135, the options. After any chain of configuration calls on an empty configuration or a new one, each of the three options has the value of the last
call for it and is off without one; the grouping symbols are those that were added, and the parentheses of a new configuration; none is listed twice. -/
theorem C135_settings (start : Config) (hs : start = .default_ ∨ start = .new) (l : List Setting) :
    let c := l.foldl Setting.apply start
    c.implicitMul = lastOf Setting.mul? l ∧ c.complexNumber = lastOf Setting.complex? l ∧ c.customFunctionCall = lastOf Setting.custom? l ∧
    (∀ g, g ∈ c.grouping ↔ .grouping g ∈ l ∨ (start = .new ∧ g = .parenthesis)) ∧ c.grouping.Nodup := by
  intro c
  induction l using List.reverseRecOn with
  | nil =>
    rcases hs with rfl | rfl <;> refine ⟨rfl, rfl, rfl, ?_, by decide⟩ <;> intro g <;> cases g <;>
      simp [c, Config.default_, Config.new, Config.withGrouping]
  | append_singleton l s ih =>
    obtain ⟨h1, h2, h3, h4, h5⟩ := ih
    have hc : c = Setting.apply (l.foldl Setting.apply start) s := by simp [c]
    rw [hc, lastOf_snoc, lastOf_snoc, lastOf_snoc]
    cases s with
    | implicitMul b => exact ⟨rfl, h2, h3, fun g => by simpa [Setting.apply, Config.withImplicitMul, Config.withComplexNumber, Config.withCustomFunctionCall] using h4 g, h5⟩
    | complexNumber b => exact ⟨h1, rfl, h3, fun g => by simpa [Setting.apply, Config.withImplicitMul, Config.withComplexNumber, Config.withCustomFunctionCall] using h4 g, h5⟩
    | customFunctionCall b => exact ⟨h1, h2, rfl, fun g => by simpa [Setting.apply, Config.withImplicitMul, Config.withComplexNumber, Config.withCustomFunctionCall] using h4 g, h5⟩
    | grouping g =>
      refine ⟨h1, h2, h3, ?_, ?_⟩
      · intro g'
        simp only [Setting.apply, Config.withGrouping]
        split
        · rename_i hm
          rw [h4 g']
          simp only [List.mem_append, List.mem_singleton, Setting.grouping.injEq]
          constructor
          · rintro (h | h)
            · exact .inl (.inl h)
            · exact .inr h
          · rintro ((h | rfl) | h)
            · exact .inl h
            · exact (h4 g').1 hm
            · exact .inr h
        · simp only [List.mem_cons, h4 g', List.mem_append, List.not_mem_nil, or_false, Setting.grouping.injEq]
          constructor
          · rintro (h | h | h)
            · exact .inl (.inr h)
            · exact .inl (.inl h)
            · exact .inr h
          · rintro ((h | h) | h)
            · exact .inr (.inl h)
            · exact .inl h
            · exact .inr (.inr h)
      · simp only [Setting.apply, Config.withGrouping]
        split
        · exact h5
        · rename_i hm
          exact List.nodup_cons.2 ⟨hm, h5⟩

/-- C135, the order. Two chains of calls with the same last value for each of the three options configure evaluators that evaluate every expression alike:
the order of the calls, repeated calls and the grouping symbols make no difference. -/
theorem C135_order (parse : Str → Option N) (splitter : Str → List Str) (ctx : Ctx N) (start start' : Config) (hs : start = .default_ ∨ start = .new)
    (hs' : start' = .default_ ∨ start' = .new) (l l' : List Setting)
    (h : ∀ which ∈ [Setting.mul?, Setting.complex?, Setting.custom?], lastOf which l = lastOf which l') (s : Str) (ts : List (Token N)) :
    let c := { ctx with config := l.foldl Setting.apply start }
    let c' := { ctx with config := l'.foldl Setting.apply start' }
    tokenize parse splitter c s = tokenize parse splitter c' s ∧ evalTokens c ts = evalTokens c' ts ∧ eval parse splitter c s = eval parse splitter c' s := by
  intro c c'
  obtain ⟨h1, h2, h3, -⟩ := C135_settings start hs l
  obtain ⟨k1, k2, k3, -⟩ := C135_settings start' hs' l'
  have hcc : c = c'.withGroupingSet c.config.grouping := by
    have : c.config = { c'.config with grouping := c.config.grouping } := by
      have e1 : c.config.implicitMul = c'.config.implicitMul := h1.trans ((h _ (by simp)).trans k1.symm)
      have e2 : c.config.complexNumber = c'.config.complexNumber := h2.trans ((h _ (by simp)).trans k2.symm)
      have e3 : c.config.customFunctionCall = c'.config.customFunctionCall := h3.trans ((h _ (by simp)).trans k3.symm)
      generalize c.config = a at *
      generalize c'.config = b at *
      cases a; cases b; simp_all
    have e : c = { c' with config := c.config } := rfl
    rw [e]
    unfold Ctx.withGroupingSet
    rw [this]
  obtain ⟨a, -, b, d⟩ := C30_grouping_set_ignored_partial parse splitter c' c.config.grouping s ts
  rw [← hcc] at a b d
  exact ⟨a, b, d⟩

/-- C135, calls with other brackets. `f[x]` and `f{x}` are evaluated if the last call for this option turned it on, and refused otherwise. -/
theorem C135_brackets (ctx : Ctx N) (hsafe : ctx.Safe) (start : Config) (hs : start = .default_ ∨ start = .new) (l : List Setting) {f : Str} {g : Fn N}
    (hf : ctx.getFunction f = some g) (x : N) :
    let c := { ctx with config := l.foldl Setting.apply start }
    ∀ b ∈ [('[', ']'), ('{', '}')], let result := evalTokens c [.function f, .gopen b.1, .number x, .gclose b.2]
      (lastOf Setting.custom? l = true → result = g [x]) ∧ (lastOf Setting.custom? l = false → ∃ k, result = .err k) := by
  intro c b hb result
  have h3 : c.config.customFunctionCall = _ := (C135_settings start hs l).2.2.1
  have key : ∀ gr : Grouping, c.config.customFunctionCall = true →
      evalTokens c [.function f, .gopen gr.opn, .number x, .gclose gr.cls] = g [x] := by
    intro gr hc
    have := C01_eval_eq_denote c (.call f gr (.one (.atom (.num x)))) ⟨.inr hc, trivial⟩
    simp only [Expr.render, Args.render, Atom.token, List.cons_append, List.nil_append] at this
    rw [this]
    have hf' : c.getFunction f = some g := hf
    simp [Expr.denote, Args.denote, Atom.denote, hf', Res.ofOption]
  refine ⟨fun h => ?_, fun h => ?_⟩
  · simp only [List.mem_cons, List.not_mem_nil, or_false] at hb
    rcases hb with rfl | rfl
    · exact key .bracket (h3.trans h)
    · exact key .brace (h3.trans h)
  · refine C08_missing_parenthesis_err c hsafe (h3.trans h) _ 0 f rfl ?_
    simp only [List.mem_cons, List.not_mem_nil, or_false] at hb
    rcases hb with rfl | rfl <;> simp

/-- C135, the symbols. Whatever the configuration: each opening symbol has its closing symbol and the reverse; no other character opens or closes. -/
theorem C135_symbols (c : Config) (x y : Char) :
    (c.getGroupCloseFor x = some y ↔ (x, y) ∈ [('(', ')'), ('[', ']'), ('{', '}')]) ∧
    (c.getGroupOpenFor y = some x ↔ (x, y) ∈ [('(', ')'), ('[', ']'), ('{', '}')]) ∧
    (c.isGroupOpen x = true ↔ x ∈ ['(', '[', '{']) ∧ (c.isGroupClose x = true ↔ x ∈ [')', ']', '}']) := by
  have hx : ∀ z : Char, z = '(' ∨ z = ')' ∨ z = '[' ∨ z = ']' ∨ z = '{' ∨ z = '}' ∨ Grouping.new z = none := by
    intro z
    unfold Grouping.new
    by_cases h1 : z = '(' <;> by_cases h2 : z = ')' <;> by_cases h3 : z = '[' <;> by_cases h4 : z = ']' <;> by_cases h5 : z = '{' <;>
      by_cases h6 : z = '}' <;> simp_all
  have other : ∀ z, Grouping.new z = none → z ≠ '(' ∧ z ≠ ')' ∧ z ≠ '[' ∧ z ≠ ']' ∧ z ≠ '{' ∧ z ≠ '}' := by
    intro z hz
    refine ⟨?_, ?_, ?_, ?_, ?_, ?_⟩ <;> rintro rfl <;> revert hz <;> decide
  have e1 : c.getGroupCloseFor x = some y ↔ (x, y) ∈ [('(', ')'), ('[', ']'), ('{', '}')] := by
    rcases hx x with rfl | rfl | rfl | rfl | rfl | rfl | h
    all_goals first
      | (have := other _ h
         simp [Config.getGroupCloseFor, h, this])
      | (simp [Config.getGroupCloseFor, Grouping.new, Grouping.closeFor, Grouping.opn, Grouping.cls, eq_comm])
  have e2 : c.getGroupOpenFor y = some x ↔ (x, y) ∈ [('(', ')'), ('[', ']'), ('{', '}')] := by
    rcases hx y with rfl | rfl | rfl | rfl | rfl | rfl | h
    all_goals first
      | (have := other _ h
         simp [Config.getGroupOpenFor, h, this])
      | (simp [Config.getGroupOpenFor, Grouping.new, Grouping.openFor, Grouping.opn, Grouping.cls, eq_comm])
  refine ⟨e1, e2, ?_, ?_⟩
  · rcases hx x with rfl | rfl | rfl | rfl | rfl | rfl | h
    all_goals first
      | (have := other _ h
         simp [Config.isGroupOpen, h, this])
      | decide
      | (simp [Config.isGroupOpen, Grouping.new, Grouping.opn])
  · rcases hx x with rfl | rfl | rfl | rfl | rfl | rfl | h
    all_goals first
      | (have := other _ h
         simp [Config.isGroupClose, h, this])
      | decide
      | (simp [Config.isGroupClose, Grouping.new, Grouping.cls])

/-- A chain in which an option is set twice; the last one counts. -/
example : lastOf Setting.custom? [.customFunctionCall true, .grouping .brace, .implicitMul true, .customFunctionCall false] = false ∧
    lastOf Setting.mul? [.customFunctionCall true, .grouping .brace, .implicitMul true, .customFunctionCall false] = true ∧
    lastOf Setting.custom? [.customFunctionCall false, .customFunctionCall true] = true ∧
    (∃ g, (Demo.ctx false false).getFunction ['d'] = some g) ∧
    evalTokens { Demo.ctx false false with config := [Setting.customFunctionCall false, .customFunctionCall true].foldl Setting.apply .new }
      [.function ['d'], .gopen '[', .number 3, .gclose ']'] = .ok 3 := by
  refine ⟨rfl, rfl, rfl, ?_, by decide⟩
  exact Option.isSome_iff_exists.1 (by decide)

end Prexel
