import Verif.Lemmas.DoubleText
import Verif.Props.Doubles
import Verif.Props.ReadBack
/-!
# Float literals and the texts of floats (C132, C108, C131)
-/

set_option linter.unusedVariables false

namespace Prexel
open B64

/-- C132. A numeral, alone, evaluates over `f64` to what it stands for, rounded as IEEE 754 requires, whatever is registered. -/
theorem C132_literal {rules : List Rule} (hr : rules = defaultRules ∨ rules = replRules false) (ctx : Ctx B64) {s : Str} {q : ℚ} (h : Stands s q) :
    ∃ x, eval fromStr (split rules) ctx s = .ok x ∧ RoundedTo q x ∧ x.sign = false := by
  refine ⟨_, eval_word fromStr (plain_of hr) ctx (.numeral h.numeral) (fromStr_stands h), rounded_of _ _, ?_⟩
  rcases (stands_nonneg h).eq_or_lt with h0 | h0
  · exact (of_sign false q).2.2 h0.symm
  · exact (of_sign false q).2.1 h0

/-- `0.1` is not a tenth, but the double nearest to it. -/
example (ctx : Ctx B64) : ∃ x, eval fromStr (split defaultRules) ctx (str "0.1") = .ok x ∧ x.val = 3602879701896397 / 36028797018963968 ∧ x.val ≠ 1 / 10 := by
  have h : Stands (str "0.1") ((digitsValue (str "01") : ℚ) / 10 ^ 1) :=
    Stands.pointed (a := str "0") (b := str "1") ⟨by decide, by decide⟩ ⟨by decide, by decide⟩
  refine ⟨of false (((digitsValue (str "01") : ℕ) : ℚ) / 10 ^ 1), eval_word _ defaultRules_plain ctx (.numeral h.numeral) (fromStr_stands h), ?_⟩
  have : (of false (((digitsValue (str "01") : ℕ) : ℚ) / 10 ^ 1)).val = 3602879701896397 / 36028797018963968 := by decide +kernel
  rw [this]
  norm_num

/-- No word of an arithmetic expression but its literals is a number. -/
theorem words_none : ∀ w ∈ arithWords, fromStr w = none := by decide +kernel

/-- The texts of a tree of which every literal is a numeral for that number. -/
def Literal (lit : B64 → Str) (e : Arith B64) : Prop := ∀ n, Token.number n ∈ e.tokens → ∃ q, Stands (lit n) q ∧ IsDouble q ∧ n = of false q

section
variable {K : Keys} {debug docs : Bool} {lib : Libm} {draw : B64}

theorem double_text {config : Config} (hcx : config.complexNumber = false) {c : Context B64}
    (hc : Context.checked K debug docs (f64 lib draw) ((f64 lib draw).num B64.num) config = .ok c ∨
      Context.unchecked K debug (f64 lib draw) ((f64 lib draw).num B64.num) config = .ok c)
    (lit : B64 → Str) (e : Arith B64) (hl : ∀ n, .number n ∈ e.tokens → ∃ q, Stands (lit n) q ∧ n = of false q) (s : Str)
    (hs : Spaced (e.tokens.map (wordOf lit)) s) :
    eval fromStr (split defaultRules) (c.view K) s = e.value (doubleArithmetic lib draw) := by
  have hlit : ∀ n, .number n ∈ e.tokens → fromStr (lit n) = some n ∧ split defaultRules (lit n) = [lit n] := by
    intro n hn
    obtain ⟨q, h1, h2⟩ := hl n hn
    exact ⟨by rw [fromStr_stands h1, ← h2], split_numberWord defaultRules_plain (.numeral h1.numeral)⟩
  rcases hc with hc | hc
  · rw [C32_checked_text K debug docs _ _ config hcx c hc fromStr lit words_none e hlit s hs, checked_double]
  · rw [C32_unchecked_text K debug _ _ config hcx c hc fromStr lit words_none e hlit s hs, unchecked_double]

/-- C131 from text: the literals are numerals, written with any white space between the tokens. -/
theorem C131_text {config : Config} (hcx : config.complexNumber = false) {c : Context B64}
    (hc : Context.checked K debug docs (f64 lib draw) ((f64 lib draw).num B64.num) config = .ok c ∨
      Context.unchecked K debug (f64 lib draw) ((f64 lib draw).num B64.num) config = .ok c)
    (lit : B64 → Str) (e : Arith B64) (hl : Literal lit e) (hr : e.Rational) (ha : e.AllDoubles) (s : Str) (hs : Spaced (e.tokens.map (wordOf lit)) s) :
    (∀ q, e.ratValue B64.val = some q → ∃ r, eval fromStr (split defaultRules) (c.view K) s = .ok r ∧ r.isFin ∧ r.val = q) ∧
    (e.ratValue B64.val = none → eval fromStr (split defaultRules) (c.view K) s = .err .divisionByZero) := by
  rw [double_text hcx hc lit e (fun n hn => by obtain ⟨q, h1, -, h2⟩ := hl n hn; exact ⟨q, h1, h2⟩) s hs]
  have h := C131_exact (ctx := (c.runAll K debug []).view K) ⟨config, c, [], hc, rfl⟩ e hr ha
  rwa [double_tree (ctx := (c.runAll K debug []).view K) ⟨config, c, [], hc, rfl⟩ e] at h

/-! ## C108 over floats -/

/-- The sign of a double is written as a minus sign before the text of its absolute value, which is a numeral or `inf`. -/
theorem text_cases (x : B64) : ∃ s m, NumberWord s ∧ fromStr s = some m ∧ ((toStr x = s ∧ m = x) ∨ (toStr x = '-' :: s ∧ B64.neg m = x)) := by
  have hr := toStr_reads x
  cases x with
  | nan => exact ⟨_, _, .letters (by decide) (by decide), hr, .inl ⟨rfl, rfl⟩⟩
  | inf a =>
    cases a with
    | false => exact ⟨_, _, .letters (by decide) (by decide), hr, .inl ⟨rfl, rfl⟩⟩
    | true => exact ⟨str "inf", .inf false, .letters (by decide) (by decide), by decide +kernel, .inr ⟨rfl, rfl⟩⟩
  | fin a k h =>
    obtain ⟨q, h1, h2⟩ := digitsOf_stands h
    cases a with
    | false => exact ⟨_, _, .numeral h1.numeral, by rw [fromStr_stands h1, h2], .inl ⟨toStr_pos k h, rfl⟩⟩
    | true => exact ⟨_, _, .numeral h1.numeral, by rw [fromStr_stands h1, h2], .inr ⟨toStr_neg k h, rfl⟩⟩

/-- C108 for floats in the library. The text of any double, entered as an expression in the checked or the unchecked context, evaluates to it, unless
something is named `-`. -/
theorem C108_float {ctx : Ctx B64} (h : BuiltIn K debug docs (f64 lib draw) ((f64 lib draw).num B64.num) ctx) (hd : DashFree ctx)
    {rules : List Rule} (hr : rules = defaultRules ∨ rules = replRules false) (x : B64) :
    eval fromStr (split rules) ctx (toStr x) = .ok x := by
  obtain ⟨s, m, hw, hm, ⟨h1, rfl⟩ | ⟨h1, h2⟩⟩ := text_cases x
  · rw [h1]; exact eval_word _ (plain_of hr) ctx hw hm
  · obtain ⟨config, c, os, hc, rfl⟩ := h
    rw [h1]
    rcases hc with hc | hc
    · have hu : ((c.runAll K debug os).view K).getUnary ['-'] = some (Ops.checkedNeg ((f64 lib draw).num B64.num)).fn := by
        refine (C26_never_replaced K debug c os _).2.1 _ ?_
        obtain ⟨pi, e, hv⟩ := checked_inv hc
        rw [hv]; rfl
      rw [eval_dash fromStr (plain_of hr) _ hw hm (by decide +kernel) hd hu rfl, ← h2]
      rfl
    · have hu : ((c.runAll K debug os).view K).getUnary ['-'] = some (Ops.uncheckedNeg ((f64 lib draw).num B64.num)).fn := by
        refine (C26_never_replaced K debug c os _).2.1 _ ?_
        obtain ⟨pi, e, hv⟩ := unchecked_inv hc
        rw [hv]; rfl
      rw [eval_dash fromStr (plain_of hr) _ hw hm (by decide +kernel) hd hu rfl, ← h2]
      rfl

/-- C108 at the server for floats, without any assumption about reading and printing: every answer, sent as the expression of the same request, is
answered with itself. -/
theorem C108_server_float {D T : Type} (W : World D B64 T) (hnum : W.floatNum = B64.num) (hread : W.readFloat = fromStr) (hshow : W.showFloat = toStr)
    (r : Request B64) (htype : r.numberType = .float) (hn : r.Distinct) {t : Str} (hres : W.evalExpression r = .result t)
    (hv : ∀ e ∈ r.variables.getD [], e.1 ≠ ['-']) : W.evalExpression { r with expression := t } = .result t := by
  refine C108_server_partial W r hn hres ?_ fun _ _ => hv
  rw [htype]
  have ht : ∃ x, t = toStr x := by
    have htype' : r.type.getD .decimal = .float := by rw [← htype]; unfold Request.numberType; cases r.type <;> rfl
    have hn' : ((W.texts r).map (·.1)).Nodup := by simpa [World.texts, Request.Distinct, Function.comp_def] using hn
    unfold World.evalExpression at hres
    simp only [htype'] at hres
    obtain ⟨c, hc, -, n, -, h⟩ := (serve_result _ _ _ _ _ hn' _ _).1 hres
    exact ⟨n, by rw [← h]; show W.showFloat n = _; rw [hshow]⟩
  obtain ⟨x, rfl⟩ := ht
  show W.readFloat _ = none ∧ Backend.Reads _ _ _
  rw [hread, hnum]
  refine ⟨by decide +kernel, ?_⟩
  obtain ⟨s, m, hw, hm, ⟨h1, rfl⟩ | ⟨h1, h2⟩⟩ := text_cases x
  · exact ⟨s, m, hw, by show W.readFloat s = _; rw [hread]; exact hm, .inl ⟨h1, by show W.showFloat m = _; rw [hshow]⟩⟩
  · exact ⟨s, m, hw, by show W.readFloat s = _; rw [hread]; exact hm, .inr ⟨h1, x, by rw [← h2]; rfl, by show W.showFloat x = _; rw [hshow]⟩⟩

/-! ## Examples -/

/-- Both contexts exist over `f64`. -/
theorem double_contexts (config : Config) :
    (∃ c, Context.checked K debug docs (f64 lib draw) ((f64 lib draw).num B64.num) config = .ok c ∧ DashFree (c.view K)) ∧
    (∃ c, Context.unchecked K debug (f64 lib draw) ((f64 lib draw).num B64.num) config = .ok c ∧ DashFree (c.view K)) := by
  obtain ⟨c, hc, hv⟩ := checked_build K debug docs (f64 lib draw) ((f64 lib draw).num B64.num) config _ _ rfl rfl
  obtain ⟨c', hc', hv'⟩ := unchecked_build K debug (f64 lib draw) ((f64 lib draw).num B64.num) config _ _ rfl rfl
  exact ⟨⟨c, hc, by rw [hv]; exact ⟨rfl, rfl, by cases docs <;> rfl⟩⟩, ⟨c', hc', by rw [hv']; exact ⟨rfl, rfl, rfl⟩⟩⟩

/-- The tree of `0.1 + 0.2`. -/
def tenths : Arith B64 := .bin .add (.num (lit (1 / 10))) (.num (lit (2 / 10)))

/-- Why C131 needs that the values are doubles: `0.1 + 0.2` is not what `0.3` is, whatever is registered. -/
theorem C131_counterexample {ctx : Ctx B64} (h : BuiltIn K debug docs (f64 lib draw) ((f64 lib draw).num B64.num) ctx) :
    ∃ x y, evalTokens ctx tenths.tokens = .ok x ∧ eval fromStr (split defaultRules) ctx (str "0.3") = .ok y ∧ x ≠ y ∧
      toStr x = str "0.30000000000000004" ∧ toStr y = str "0.3" := by
  have hs : Stands (str "0.3") ((digitsValue (str "03") : ℚ) / 10 ^ 1) :=
    Stands.pointed (a := str "0") (b := str "3") ⟨by decide, by decide⟩ ⟨by decide, by decide⟩
  refine ⟨_, _, double_tree h tenths, eval_word _ defaultRules_plain ctx (.numeral hs.numeral) (fromStr_stands hs), ?_, ?_, ?_⟩ <;> decide +kernel

/-- The tree of `(0.5 + 0.25) * 3 / (1.5 - 0.75)`, all of whose parts are doubles. -/
def quarters : Arith B64 :=
  .bin .div (.bin .mul (.bin .add (.num (lit (1 / 2))) (.num (lit (1 / 4)))) (.num (lit 3))) (.bin .sub (.num (lit (3 / 2))) (.num (lit (3 / 4))))

theorem quarter_double (n : ℤ) (hn : |n| ≤ 2 ^ 50) {q : ℚ} (hq : q = n / 4) : IsDouble q :=
  ⟨n, -2, by omega, by norm_num, by norm_num, by rw [hq]; norm_num; ring⟩

example : quarters.Rational ∧ quarters.AllDoubles ∧ quarters.ratValue B64.val = some 3 := by
  have h12 : (lit (1 / 2)).val = 1 / 2 := by decide +kernel
  have h14 : (lit (1 / 4)).val = 1 / 4 := by decide +kernel
  have h3 : (lit 3).val = 3 := by decide +kernel
  have h32 : (lit (3 / 2)).val = 3 / 2 := by decide +kernel
  have h34 : (lit (3 / 4)).val = 3 / 4 := by decide +kernel
  refine ⟨by simp [quarters, Arith.Rational], ?_, ?_⟩
  · refine ⟨⟨⟨⟨by decide +kernel, by decide +kernel⟩, ⟨by decide +kernel, by decide +kernel⟩, ?_⟩, ⟨by decide +kernel, by decide +kernel⟩, ?_⟩,
      ⟨⟨by decide +kernel, by decide +kernel⟩, ⟨by decide +kernel, by decide +kernel⟩, ?_⟩, ?_⟩ <;> intro q hq <;>
      simp only [Arith.ratValue, Option.bind_some, Option.some.injEq, h12, h14, h3, h32, h34] at hq
    · exact quarter_double 3 (by norm_num) (by rw [← hq]; norm_num)
    · exact quarter_double 9 (by norm_num) (by rw [← hq]; norm_num)
    · exact quarter_double 3 (by norm_num) (by rw [← hq]; norm_num)
    · norm_num at hq
      exact quarter_double 12 (by norm_num) (by rw [← hq]; norm_num)
  · simp only [quarters, Arith.ratValue, Option.bind_some, h12, h14, h3, h32, h34]
    norm_num

end

end Prexel
