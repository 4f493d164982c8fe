import Verif.Lemmas.Values
import Verif.Lemmas.Complex
import Verif.Props.DecimalFunctions
import Verif.Props.Session
import Verif.Examples.Complex
/-!
# Complex numbers (C31, C32, C52, C70-C75)
-/

set_option linter.unusedVariables false
set_option linter.unusedSimpArgs false

namespace Prexel
variable {T : Type} {k : Cx T}

/-! ## C31, C32: the context and its arithmetic -/

/-- The names of the functions of the complex context. -/
def complexFunctionNames : List String :=
  ["sum", "avg", "product", "sqrt", "ln", "log", "random", "exp", "sin", "cos", "tan", "csc", "sec", "cot", "asin", "acos", "atan", "acsc",
   "asec", "acot", "sinh", "cosh", "tanh", "csch", "sech", "coth", "asinh", "acosh", "atanh", "acsch", "asech", "acoth"]

theorem complexFunctions_names (k : Cx T) : k.functions.flatMap Named.names = complexFunctionNames.map str := rfl

theorem complex_tables (k : Cx T) (pi e : Cplx T) :
    Tables [(str "PI", pi), (str "E", e), (str "i", k.i)] k.binaryOps k.unaryOps k.functions where
  constants := show GoodNames [str "PI", str "E", str "i"] by decide
  binary := show GoodNames (["+", "-", "*", "/", "mod", "^"].map str) by decide
  unary := show GoodNames (["+", "-"].map str) by decide
  functions := by
    rw [complexFunctions_names]
    decide +kernel

theorem complex_build (K : Keys) (debug : Bool) (k : Cx T) (config : Config) (pi e : T) (hpi : k.pi = some pi) (he : k.e = some e) :
    ∃ c, k.context K debug config = .ok c ∧
      c.view K = tablesCtx (config.withComplexNumber true) [(str "PI", k.real pi), (str "E", k.real e), (str "i", k.i)] k.binaryOps
        k.unaryOps k.functions := by
  unfold Cx.context
  rw [hpi, he]
  exact build_ok K debug _ (complex_tables k _ _)

theorem complex_inv {K : Keys} {debug : Bool} {config : Config} {c : Context (Cplx T)} (hc : k.context K debug config = .ok c) :
    ∃ pi e, k.pi = some pi ∧ k.e = some e ∧
      c.view K = tablesCtx (config.withComplexNumber true) [(str "PI", k.real pi), (str "E", k.real e), (str "i", k.i)] k.binaryOps
        k.unaryOps k.functions := by
  cases hpi : k.pi with
  | none => simp [Cx.context, hpi] at hc
  | some pi =>
    cases he : k.e with
    | none => simp [Cx.context, hpi, he] at hc
    | some e =>
      obtain ⟨c', hc', hv⟩ := complex_build K debug k config pi e hpi he
      rw [hc] at hc'
      cases hc'
      exact ⟨pi, e, rfl, rfl, hv⟩

/-- C31 for the context of complex numbers: it is built if the component type can represent π and e. -/
theorem C31_complex (K : Keys) (debug : Bool) (k : Cx T) (config : Config) (pi e : T) (hpi : k.pi = some pi) (he : k.e = some e) :
    ∃ c, k.context K debug config = .ok c ∧
      Provides (c.view K) (config.withComplexNumber true) [(str "PI", ⟨pi, k.zero⟩), (str "E", ⟨e, k.zero⟩), (str "i", ⟨k.zero, k.one⟩)]
        k.binaryOps k.unaryOps k.functions ∧
      (k.binaryOps).flatMap (fun g => g.name :: g.aliases) = ["+", "-", "*", "/", "mod", "^"].map str ∧
      (k.unaryOps).flatMap (fun g => g.name :: g.aliases) = ["+", "-"].map str ∧
      (k.functions).flatMap (fun g => g.name :: g.aliases) = complexFunctionNames.map str := by
  obtain ⟨c, hc, hv⟩ := complex_build K debug k config pi e hpi he
  exact ⟨c, hc, by rw [hv]; exact tables_provides _ (complex_tables k _ _), rfl, rfl, rfl⟩

example : ∃ c, Demo.cx.newContext Demo.keys true = .ok c := by
  obtain ⟨c, hc, -⟩ := C31_complex Demo.keys true Demo.cx (Config.new.withComplexNumber true) 3 2 rfl rfl
  exact ⟨c, hc⟩

/-- What the operators of the complex context do, component by component. There is no factorial. -/
def complexArithmetic (k : Cx T) : Arithmetic (Cplx T) where
  op
    | .add => fun z w => .ok ⟨k.add z.re w.re, k.add z.im w.im⟩
    | .sub => fun z w => .ok ⟨k.sub z.re w.re, k.sub z.im w.im⟩
    | .mul => fun z w => .ok ⟨k.sub (k.mul z.re w.re) (k.mul z.im w.im), k.add (k.mul z.re w.im) (k.mul z.im w.re)⟩
    | .div => fun z w => if k.isZero w.re && k.isZero w.im then .err .divisionByZero else .ok (k.cDiv z w)
    | .mod => fun z w => if k.isZero w.re && k.isZero w.im then .err .divisionByZero else .ok (k.cRem z w)
    | .pow => fun z w => .ok (k.powc z w)
  neg z := .ok ⟨k.neg z.re, k.neg z.im⟩
  fact _ := .err .invalidInput

theorem complex_operators (config : Config) (cs : List (Str × Cplx T)) (fs : List (Named (Fn (Cplx T)))) (k : Cx T) :
    Operators (tablesCtx config cs k.binaryOps k.unaryOps fs) (complexArithmetic k) where
  binary o := by cases o <;> rfl
  neg := rfl

/-- C32 for complex numbers: every arithmetic tree without factorials evaluates to its value. -/
theorem C32_complex (K : Keys) (debug : Bool) (k : Cx T) (config : Config) (c : Context (Cplx T)) (hc : k.context K debug config = .ok c)
    (os : List (Op (Cplx T))) (e : Arith (Cplx T)) (hf : e.hasFact = false) :
    evalTokens ((c.runAll K debug os).view K) e.tokens = e.value (complexArithmetic k) := by
  obtain ⟨pi, ee, -, -, hv⟩ := complex_inv hc
  have hs : Operators (c.view K) (complexArithmetic k) := by rw [hv]; exact complex_operators _ _ _ _
  have hs' := hs.runAll debug os
  rw [← e.toExpr_render, C01_eval_eq_denote _ _ (e.toExpr_wf' hs' (by simp [hf])), e.toExpr_denote' hs' (by simp [hf])]

/-! ## C71: imaginary literals -/

/-- C71. An arithmetic tree over complex numbers, written as text with white space between the words, evaluates to its value. The literal of
a number is one word for the splitter, or a number with an `i` behind it, which the splitter gives as two words. -/
theorem C71_complex_text (K : Keys) (debug : Bool) (k : Cx T) (config : Config) (c : Context (Cplx T)) (hc : k.context K debug config = .ok c)
    (parse : Str → Option (Cplx T)) (lit : Cplx T → Str) (hparse : ∀ w ∈ arithWords, parse w = none)
    (e : Arith (Cplx T)) (hf : e.hasFact = false)
    (hlit : ∀ z, .number z ∈ e.tokens → parse (lit z) = some z ∧
      (split defaultRules (lit z) = [lit z] ∨
        ∃ u, (parse u).isSome = true ∧ lit z = u ++ ['i'] ∧ split defaultRules (lit z) = [u, ['i']]))
    (s : Str) (hsp : Spaced (e.tokens.map (wordOf lit)) s) :
    eval parse (split defaultRules) (c.view K) s = e.value (complexArithmetic k) := by
  have hval := C32_complex K debug k config c hc [] e hf
  obtain ⟨pi, ee, -, -, hv⟩ := complex_inv hc
  have hval : evalTokens (c.view K) e.tokens = e.value (complexArithmetic k) := hval
  rw [hv] at hval ⊢
  generalize hcc : [(str "PI", k.real pi), (str "E", k.real ee), (str "i", k.i)] = cs at hval
  have hops : ∀ config, Operators (tablesCtx config cs k.binaryOps k.unaryOps k.functions) (complexArithmetic k) :=
    fun config => complex_operators _ _ _ _
  have hb : ∀ n ∈ (k.binaryOps).flatMap Named.names, n ∈ ["+", "-", "*", "/", "^", "mod"].map str := by
    rw [show (k.binaryOps).flatMap Named.names = ["+", "-", "*", "/", "mod", "^"].map str from rfl]; decide
  have hu : ∀ n ∈ (k.unaryOps).flatMap Named.names, n ∈ ["+", "-", "!"].map str := by
    rw [show (k.unaryOps).flatMap Named.names = ["+", "-"].map str from rfl]; decide
  have hnames : ∀ w ∈ arithWords, lookupConstant hashSame cs w = none ∧ lookup hashSame k.functions w = none := by
    intro w hw
    have hk : ∀ w ∈ arithWords, ((complexFunctionNames.map str).any (fun n => hashSame n w) = false) ∧
        hashSame (str "PI") w = false ∧ hashSame (str "E") w = false ∧ hashSame (str "i") w = false := by decide +kernel
    obtain ⟨h1, h2, h3, h4⟩ := hk w hw
    subst hcc
    constructor
    · simp [lookupConstant, List.find?_cons, h2, h3, h4]
    · cases hl : lookup hashSame k.functions w with
      | none => rfl
      | some g =>
        have h4 : (lookup hashSame k.functions w).isSome = true := by rw [hl]; rfl
        rw [lookup_isSome, complexFunctions_names, ← List.any_eq_true, h1] at h4
        cases h4
  have hbang : ∀ t ∈ e.tokens, t ≠ .unary ['!'] := by
    have aux : ∀ e : Arith (Cplx T), e.hasFact = false → ∀ t ∈ e.tokens, t ≠ .unary ['!'] := by
      have hbr : ∀ l : List (Token (Cplx T)), (∀ t ∈ l, t ≠ .unary ['!']) → ∀ t ∈ bracketed l, t ≠ .unary ['!'] := by
        intro l hl t ht
        simp only [bracketed, List.mem_cons, List.mem_append, List.not_mem_nil, or_false] at ht
        rcases ht with rfl | ht | rfl
        · simp
        · exact hl t ht
        · simp
      have hat : ∀ (a b : Nat) (l : List (Token (Cplx T))), (∀ t ∈ l, t ≠ .unary ['!']) → ∀ t ∈ atLevel a b l, t ≠ .unary ['!'] := by
        intro a b l hl
        unfold atLevel
        split
        · exact hl
        · exact hbr l hl
      have hneg : ∀ l : List (Token (Cplx T)), (∀ t ∈ l, t ≠ .unary ['!']) → ∀ t ∈ .unary ['-'] :: l, t ≠ .unary ['!'] := by
        intro l hl t ht
        rcases List.mem_cons.mp ht with rfl | ht
        · simp
        · exact hl t ht
      intro e
      induction e with
      | num n => intro _ t ht; simp only [Arith.tokens, List.mem_singleton] at ht; subst ht; simp
      | neg e ih =>
        intro hf
        have ih := ih hf
        cases e with
        | num n => exact hneg _ ih
        | neg e => exact hbr _ (hneg _ (hbr _ ih))
        | fact e => cases hf
        | bin o l r => exact hbr _ (hneg _ (hbr _ ih))
      | fact e ih => intro hf; cases hf
      | bin o l r ihl ihr =>
        intro hf t ht
        simp only [Arith.hasFact, Bool.or_eq_false_iff] at hf
        simp only [Arith.tokens, List.mem_append, List.mem_cons] at ht
        rcases ht with ht | rfl | ht
        · exact hat _ _ _ (ihl hf.1) t ht
        · simp
        · exact hat _ _ _ (ihr hf.2) t ht
    exact aux e hf
  have hst : ∀ config, ∀ t ∈ e.tokens, StandsFor parse (tablesCtx config cs k.binaryOps k.unaryOps k.functions) (wordOf lit t) t ∧
      (t.isNumber = false → split defaultRules (wordOf lit t) = [wordOf lit t] ∧ wordOf lit t ∈ arithWords) := by
    intro config t ht
    exact school_stands (hops config) hb hu hnames parse lit hparse t (e.tokens_ar t ht) (fun h => absurd h (hbang t ht))
      (fun z hz => (hlit z (by rw [← hz]; exact ht)).1)
  let c1 := tablesCtx (config.withComplexNumber true) cs k.binaryOps k.unaryOps k.functions
  let c0 := tablesCtx { config.withComplexNumber true with complexNumber := false } cs k.binaryOps k.unaryOps k.functions
  have hparts : ∀ l : List (Token (Cplx T)), (∀ t ∈ l, t ∈ e.tokens) →
      Parts parse (l.map (wordOf lit)) ((l.map (wordOf lit)).flatMap (split defaultRules)) := by
    intro l hl
    induction l with
    | nil => exact .nil
    | cons t l ih =>
      have ih := ih fun x hx => hl x (by simp [hx])
      have ht := hl t (by simp)
      simp only [List.map_cons, List.flatMap_cons]
      by_cases hn : t.isNumber = true
      · cases t with
        | number z =>
          obtain ⟨h1, h2 | ⟨u, hu1, hu2, hu3⟩⟩ := hlit z ht
          · rw [show wordOf lit (.number z) = lit z from rfl, h2]
            exact .word _ ih
          · obtain ⟨n, hn⟩ := Option.isSome_iff_exists.mp hu1
            rw [show wordOf lit (.number z) = lit z from rfl, hu3, hu2]
            exact .imaginary u n z hn (by rw [← hu2]; exact h1) ih
        | _ => simp [Token.isNumber] at hn
      · obtain ⟨h1, -⟩ := (hst (config.withComplexNumber true) t ht).2 (by simpa using hn)
        rw [h1]
        exact .word _ ih
  have hlex : Lexical c0 := school_lexical (hops _) hb hu ⟨_, rfl⟩
  have hpw : ∀ config, Pairwise2 (StandsFor parse (tablesCtx config cs k.binaryOps k.unaryOps k.functions)) (e.tokens.map (wordOf lit)) e.tokens :=
    fun config => pairwise2_map _ fun t ht => (hst config t ht).1
  have hloop0 : tokenizeLoop parse c0 none (e.tokens.map (wordOf lit)) = .ok e.tokens := by
    have := tokenizeLoop_render (parse := parse) (ctx := c0) rfl hlex e.toExpr (e.toExpr_wf' (hops _) (by simp [hf])) e.toExpr_plain
      (by rw [e.toExpr_render]; exact hpw _)
    rw [e.toExpr_render] at this
    exact this
  have hloop : tokenizeLoop parse c1 none (split defaultRules s) = .ok e.tokens := by
    rw [split_spaced defaultRules_good defaultRules_skips hsp]
    rw [tokenizeLoop_parts (c := c1) (q := none) (ts := e.tokens) (.inr (by subst hcc; rfl)) rfl (hparts _ fun _ h => h) (.inl rfl)
      e.noAdjacent (hpw _) ?_]
    · exact hloop0
    · intro w hw hwi
      obtain ⟨t, ht, rfl⟩ := List.mem_map.mp hw
      by_cases hn : t.isNumber = true
      · cases t with
        | number z =>
          show (parse (lit z)).isSome = true
          rw [(hlit z ht).1]; rfl
        | _ => simp [Token.isNumber] at hn
      · obtain ⟨-, h2⟩ := (hst (config.withComplexNumber true) t ht).2 (by simpa using hn)
        rw [hwi] at h2
        exact absurd h2 (by decide)
  have hne : s.all isWhitespace = false := by
    cases hall : s.all isWhitespace with
    | false => rfl
    | true =>
      have h1 : split defaultRules s = [] := split_blank defaultRules_skips (by simpa [Blank, List.all_eq_true] using hall)
      rw [h1] at hloop
      simp only [tokenizeLoop, Res.ok.injEq] at hloop
      have := e.toExpr.render_ne_nil
      rw [e.toExpr_render] at this
      exact absurd hloop.symm this
  show (tokenize parse (split defaultRules) c1 s).bind (evalTokens c1) = _
  unfold tokenize
  rw [hne, hloop]
  exact hval

/-- `2 + 3i * i - 4 i`, with three ways to write imaginary numbers. -/
def sampleComplex : Arith (Cplx Rat) :=
  .bin .sub (.bin .add (.num ⟨2, 0⟩) (.bin .mul (.num ⟨0, 3⟩) (.num ⟨0, 1⟩))) (.num ⟨0, 4⟩)

def sampleLit (z : Cplx Rat) : Str :=
  if z = ⟨2, 0⟩ then str "2" else if z = ⟨0, 3⟩ then str "3i" else if z = ⟨0, 1⟩ then str "i" else str "4i"

example : ∃ c, Demo.cx.newContext Demo.keys true = .ok c ∧
    eval Demo.cxParse (split defaultRules) (c.view Demo.keys) (str "2 + 3i * i - 4i") = .ok ⟨-1, -4⟩ := by
  obtain ⟨c, hc, -⟩ := C31_complex Demo.keys true Demo.cx (Config.new.withComplexNumber true) 3 2 rfl rfl
  refine ⟨c, hc, (C71_complex_text Demo.keys true Demo.cx _ c hc Demo.cxParse sampleLit (by decide +kernel) sampleComplex rfl ?_ _ ?_).trans
    (by decide +kernel)⟩
  · have : ∀ z, Token.number z ∈ sampleComplex.tokens → z = ⟨2, 0⟩ ∨ z = ⟨0, 3⟩ ∨ z = ⟨0, 1⟩ ∨ z = ⟨0, 4⟩ := by
      intro z hz
      simpa [sampleComplex, Arith.tokens, atLevel, ArOp.leftLevel, ArOp.rightLevel, ArOp.level, Arith.level] using hz
    intro z hz
    rcases this z hz with rfl | rfl | rfl | rfl
    · exact ⟨by decide +kernel, .inl (by decide +kernel)⟩
    · exact ⟨by decide +kernel, .inr ⟨str "3", by decide +kernel, by decide +kernel, by decide +kernel⟩⟩
    · exact ⟨by decide +kernel, .inl (by decide +kernel)⟩
    · exact ⟨by decide +kernel, .inr ⟨str "4", by decide +kernel, by decide +kernel, by decide +kernel⟩⟩
  · have hb : Blank [] := by simp [Blank]
    have : sampleComplex.tokens.map (wordOf sampleLit) = [str "2", str "+", str "3i", str "*", str "i", str "-", str "4i"] := by
      decide +kernel
    rw [this]
    exact .cons [] (str "2") ' ' _ _ _ hb rfl (.cons [] (str "+") ' ' _ _ _ hb rfl (.cons [] (str "3i") ' ' _ _ _ hb rfl
      (.cons [] (str "*") ' ' _ _ _ hb rfl (.cons [] (str "i") ' ' _ _ _ hb rfl (.cons [] (str "-") ' ' _ _ _ hb rfl
        (.last [] (str "4i") [] hb hb))))))

/-! ## Calls -/

theorem complex_call {K : Keys} {debug : Bool} {config : Config} {c : Context (Cplx T)} (hc : k.context K debug config = .ok c)
    (os : List (Op (Cplx T))) {name : Str} {g : Fn (Cplx T)} (h : lookup hashSame k.functions name = some g) (xs : List (Cplx T)) :
    evalTokens ((c.runAll K debug os).view K) (callTokens name xs) = g xs := by
  obtain ⟨pi, e, -, -, hv⟩ := complex_inv hc
  refine eval_call _ ((C26_never_replaced K debug c os _).1 _ ?_) xs
  rw [hv]; exact h

theorem complex_infix {K : Keys} {debug : Bool} {config : Config} {c : Context (Cplx T)} (hc : k.context K debug config = .ok c)
    (os : List (Op (Cplx T))) {o : Str} {g : BinFn (Cplx T)} (h : lookup hashSame k.binaryOps o = some g) (x y : Cplx T) :
    evalTokens ((c.runAll K debug os).view K) (infixTokens x o y) = g.call x y := by
  obtain ⟨pi, e, -, -, hv⟩ := complex_inv hc
  refine eval_infix _ ((C26_never_replaced K debug c os _).2.2 _ ?_) x y
  rw [hv]; exact h

/-! ## C70: complex arithmetic -/

/-- C70. With exact components the operators compute what they should for complex numbers; division is refused exactly for the divisor 0,
and otherwise the quotient times the divisor is the dividend. -/
theorem C70_exact_arithmetic (K : Keys) (debug : Bool) (h : k.Exact) (config : Config) (c : Context (Cplx T))
    (hc : k.context K debug config = .ok c) (os : List (Op (Cplx T))) (z w : Cplx T) :
    (∃ r, evalTokens ((c.runAll K debug os).view K) (infixTokens z ['+'] w) = .ok r ∧
      h.parts r = ((h.parts z).1 + (h.parts w).1, (h.parts z).2 + (h.parts w).2)) ∧
    (∃ r, evalTokens ((c.runAll K debug os).view K) (infixTokens z ['-'] w) = .ok r ∧
      h.parts r = ((h.parts z).1 - (h.parts w).1, (h.parts z).2 - (h.parts w).2)) ∧
    (∃ r, evalTokens ((c.runAll K debug os).view K) (infixTokens z ['*'] w) = .ok r ∧
      h.parts r = ((h.parts z).1 * (h.parts w).1 - (h.parts z).2 * (h.parts w).2,
        (h.parts z).1 * (h.parts w).2 + (h.parts z).2 * (h.parts w).1)) ∧
    (h.parts w = (0, 0) → evalTokens ((c.runAll K debug os).view K) (infixTokens z ['/'] w) = .err .divisionByZero) ∧
    (h.parts w ≠ (0, 0) → ∃ q r, evalTokens ((c.runAll K debug os).view K) (infixTokens z ['/'] w) = .ok q ∧
      evalTokens ((c.runAll K debug os).view K) (infixTokens q ['*'] w) = .ok r ∧ h.parts r = h.parts z) := by
  have hmul := fun z w => complex_infix hc os (o := ['*']) (g := (Ops.uncheckedMul k.num).fn) rfl z w
  have hdiv : evalTokens ((c.runAll K debug os).view K) (infixTokens z ['/'] w) =
      if k.isZero w.re && k.isZero w.im then .err .divisionByZero else .ok (k.cDiv z w) :=
    complex_infix hc os (o := ['/']) (g := (Ops.uncheckedDiv k.num).fn) rfl z w
  refine ⟨⟨_, complex_infix hc os (o := ['+']) (g := (Ops.uncheckedAdd k.num).fn) rfl z w, ?_⟩,
    ⟨_, complex_infix hc os (o := ['-']) (g := (Ops.uncheckedSub k.num).fn) rfl z w, ?_⟩, ⟨_, hmul z w, ?_⟩, ?_, ?_⟩
  · simp [Cx.Exact.parts, Cx.cAdd, h.add]
  · simp [Cx.Exact.parts, Cx.cSub, h.sub]
  · simp [Cx.Exact.parts, Cx.cMul, h.sub, h.add, h.mul]
  · intro h0
    simp only [Cx.Exact.parts, Prod.mk.injEq] at h0
    rw [hdiv, (h.isZero _).mpr h0.1, (h.isZero _).mpr h0.2]
    rfl
  · intro h0
    have hcond : ¬ ((k.isZero w.re && k.isZero w.im) = true) := by
      rw [Bool.and_eq_true, h.isZero, h.isZero]
      intro h1
      exact h0 (by simp [Cx.Exact.parts, h1])
    rw [if_neg hcond] at hdiv
    refine ⟨_, _, hdiv, hmul _ w, ?_⟩
    have hn : h.val (k.normSqr w) ≠ 0 := by
      rw [Cx.normSqr, h.add, h.mul, h.mul]
      intro h1
      apply hcond
      rw [Bool.and_eq_true, h.isZero, h.isZero]
      have ha : 0 ≤ h.val w.re * h.val w.re := by
        rcases Rat.le_total (a := 0) (b := h.val w.re) with h2 | h2
        · exact Rat.mul_nonneg h2 h2
        · have := Rat.mul_nonneg (a := - h.val w.re) (b := - h.val w.re) (by grind) (by grind)
          grind
      have hb : 0 ≤ h.val w.im * h.val w.im := by
        rcases Rat.le_total (a := 0) (b := h.val w.im) with h2 | h2
        · exact Rat.mul_nonneg h2 h2
        · have := Rat.mul_nonneg (a := - h.val w.im) (b := - h.val w.im) (by grind) (by grind)
          grind
      have h3 : h.val w.re * h.val w.re = 0 := by grind
      have h4 : h.val w.im * h.val w.im = 0 := by grind
      exact ⟨by grind [Rat.mul_eq_zero], by grind [Rat.mul_eq_zero]⟩
    have hq : h.val (k.normSqr w) = h.val w.re * h.val w.re + h.val w.im * h.val w.im := by
      rw [Cx.normSqr, h.add, h.mul, h.mul]
    simp only [Cx.Exact.parts, Cx.cMul, Cx.cDiv, h.sub, h.add, h.mul, h.div _ _ hn, Prod.mk.injEq]
    rw [hq] at hn ⊢
    constructor <;> grind

/-- `i * i` is -1, and `(1 + 2i) / (3 - i)` is not refused. -/
example : ∃ c, Demo.cx.newContext Demo.keys true = .ok c ∧
    evalTokens (c.view Demo.keys) (infixTokens ⟨0, 1⟩ ['*'] ⟨0, 1⟩) = .ok ⟨-1, 0⟩ ∧
    Demo.cxExact.parts ⟨3, -1⟩ ≠ (0, 0) := by
  obtain ⟨c, hc, -⟩ := C31_complex Demo.keys true Demo.cx (Config.new.withComplexNumber true) 3 2 rfl rfl
  refine ⟨c, hc, ?_, by decide +kernel⟩
  exact (complex_infix hc [] (o := ['*']) (g := (Ops.uncheckedMul Demo.cx.num).fn) rfl _ _).trans (by decide +kernel)

/-! ## C52: logarithms -/

theorem complex_log {K : Keys} {debug : Bool} {config : Config} {c : Context (Cplx T)} (hc : k.context K debug config = .ok c)
    (os : List (Op (Cplx T))) (xs : List (Cplx T)) :
    evalTokens ((c.runAll K debug os).view K) (callTokens (str "log") xs) = k.logFn.fn xs := complex_call hc os rfl xs

/-- C52, the part that holds: `log(z)` is the logarithm to the base 10. Missing: the base given as an argument, see the counterexample. -/
theorem C52_log_partial (K : Keys) (debug : Bool) (k : Cx T) (config : Config) (c : Context (Cplx T)) (hc : k.context K debug config = .ok c)
    (os : List (Op (Cplx T))) (z : Cplx T) :
    evalTokens ((c.runAll K debug os).view K) (callTokens (str "log") [z]) =
      match k.ten with
      | some ten => .ok (k.log z ten)
      | none => .err .overflow := by
  rw [complex_log hc]
  show (Res.ofOption k.ten .overflow).bind _ = _
  cases k.ten <;> rfl

/-- C52, what the code does with two arguments: every real base is refused, and a base that is not real is used without its imaginary
part. -/
theorem C52_log_base_counterexample (K : Keys) (debug : Bool) (k : Cx T) (config : Config) (c : Context (Cplx T))
    (hc : k.context K debug config = .ok c) (os : List (Op (Cplx T))) (z b : Cplx T) :
    evalTokens ((c.runAll K debug os).view K) (callTokens (str "log") [z, b]) =
      if k.isZero b.im then .err .invalidInput else .ok (k.log z b.re) := by
  rw [complex_log hc]
  show (if !k.isZero b.im then Res.ok (k.log z b.re) else .err .invalidInput) = _
  cases k.isZero b.im <;> rfl

/-- `log(8, 2)` is refused. -/
example : ∃ c, Demo.cx.newContext Demo.keys true = .ok c ∧
    evalTokens (c.view Demo.keys) (callTokens (str "log") [⟨8, 0⟩, ⟨2, 0⟩]) = .err .invalidInput := by
  obtain ⟨c, hc, -⟩ := C31_complex Demo.keys true Demo.cx (Config.new.withComplexNumber true) 3 2 rfl rfl
  exact ⟨c, hc, C52_log_base_counterexample Demo.keys true Demo.cx _ c hc [] _ _⟩

/-! ## C72: reciprocal functions -/

/-- The reciprocal functions and the functions whose reciprocal they should be. -/
def reciprocals : List (String × String) :=
  [("csc", "sin"), ("sec", "cos"), ("cot", "tan"), ("csch", "sinh"), ("sech", "cosh"), ("coth", "tanh")]

/-- The code also makes these reciprocals, though the inverse of a reciprocal function is another function. -/
def inverseReciprocals : List (String × String) :=
  [("acsc", "asin"), ("asec", "acos"), ("acot", "atan"), ("acsch", "asinh"), ("asech", "acosh"), ("acoth", "atanh")]

theorem reciprocal_call {K : Keys} {debug : Bool} {config : Config} {c : Context (Cplx T)} (hc : k.context K debug config = .ok c)
    (os : List (Op (Cplx T))) {p : String × String} (hp : p ∈ reciprocals ++ inverseReciprocals) (z : Cplx T) :
    ∃ r, evalTokens ((c.runAll K debug os).view K) (callTokens (str p.2) [z]) = .ok r ∧
      evalTokens ((c.runAll K debug os).view K) (callTokens (str p.1) [z]) = .ok (k.cInv r) := by
  have : ∃ g, lookup hashSame k.functions (str p.2) = some (Cx.forward (str p.2) g).fn ∧
      lookup hashSame k.functions (str p.1) = some (k.forwardInv (str p.1) g).fn := by
    simp only [reciprocals, inverseReciprocals, List.cons_append, List.nil_append, List.mem_cons, List.not_mem_nil, or_false] at hp
    rcases hp with rfl | rfl | rfl | rfl | rfl | rfl | rfl | rfl | rfl | rfl | rfl | rfl
    · exact ⟨k.sin, rfl, rfl⟩
    · exact ⟨k.cos, rfl, rfl⟩
    · exact ⟨k.tan, rfl, rfl⟩
    · exact ⟨k.sinh, rfl, rfl⟩
    · exact ⟨k.cosh, rfl, rfl⟩
    · exact ⟨k.tanh, rfl, rfl⟩
    · exact ⟨k.asin, rfl, rfl⟩
    · exact ⟨k.acos, rfl, rfl⟩
    · exact ⟨k.atan, rfl, rfl⟩
    · exact ⟨k.asinh, rfl, rfl⟩
    · exact ⟨k.acosh, rfl, rfl⟩
    · exact ⟨k.atanh, rfl, rfl⟩
  obtain ⟨g, h1, h2⟩ := this
  exact ⟨_, complex_call hc os h1 [z], complex_call hc os h2 [z]⟩

/-- C72. With exact components `csc(z)` is the number whose product with `sin(z)` is 1, unless that is 0; likewise `sec`, `cot`, `csch`,
`sech`, `coth`. -/
theorem C72_reciprocal (K : Keys) (debug : Bool) (h : k.Exact) (config : Config) (c : Context (Cplx T))
    (hc : k.context K debug config = .ok c) (os : List (Op (Cplx T))) (p : String × String) (hp : p ∈ reciprocals) (z : Cplx T) :
    ∃ r s, evalTokens ((c.runAll K debug os).view K) (callTokens (str p.2) [z]) = .ok r ∧
      evalTokens ((c.runAll K debug os).view K) (callTokens (str p.1) [z]) = .ok s ∧
      (h.parts r ≠ (0, 0) → ∃ t, evalTokens ((c.runAll K debug os).view K) (infixTokens r ['*'] s) = .ok t ∧ h.parts t = (1, 0)) := by
  obtain ⟨r, h1, h2⟩ := reciprocal_call hc os (p := p) (by simp [hp]) z
  refine ⟨r, _, h1, h2, fun h0 => ⟨_, complex_infix hc os (o := ['*']) (g := (Ops.uncheckedMul k.num).fn) rfl _ _, ?_⟩⟩
  have hq : h.val (k.normSqr r) = h.val r.re * h.val r.re + h.val r.im * h.val r.im := by
    rw [Cx.normSqr, h.add, h.mul, h.mul]
  have hn : h.val (k.normSqr r) ≠ 0 := by
    rw [hq]
    intro h1
    have ha : ∀ x : Rat, 0 ≤ x * x := by
      intro x
      rcases Rat.le_total (a := 0) (b := x) with h2 | h2
      · exact Rat.mul_nonneg h2 h2
      · have := Rat.mul_nonneg (a := -x) (b := -x) (by grind) (by grind)
        grind
    have h2 := ha (h.val r.re)
    have h3 := ha (h.val r.im)
    have h4 : h.val r.re * h.val r.re = 0 := by grind
    have h5 : h.val r.im * h.val r.im = 0 := by grind
    exact h0 (by simp only [Cx.Exact.parts, Prod.mk.injEq]; exact ⟨by grind [Rat.mul_eq_zero], by grind [Rat.mul_eq_zero]⟩)
  simp only [Cx.Exact.parts, Cx.cMul, Cx.cInv, h.sub, h.add, h.mul, h.neg, h.div _ _ hn, Prod.mk.injEq]
  rw [hq] at hn ⊢
  constructor <;> grind

/-- C72, what the code does for the inverses: `acsc(z)` is `1 / asin(z)`, not `asin(1 / z)`; likewise the other five. -/
theorem C72_inverse_counterexample (K : Keys) (debug : Bool) (k : Cx T) (config : Config) (c : Context (Cplx T))
    (hc : k.context K debug config = .ok c) (os : List (Op (Cplx T))) (p : String × String) (hp : p ∈ inverseReciprocals) (z : Cplx T) :
    ∃ r, evalTokens ((c.runAll K debug os).view K) (callTokens (str p.2) [z]) = .ok r ∧
      evalTokens ((c.runAll K debug os).view K) (callTokens (str p.1) [z]) = .ok (k.cInv r) :=
  reciprocal_call hc os (by simp [hp]) z

/-! ## C73: random -/

theorem complex_random {K : Keys} {debug : Bool} {config : Config} {c : Context (Cplx T)} (hc : k.context K debug config = .ok c)
    (os : List (Op (Cplx T))) (xs : List (Cplx T)) :
    evalTokens ((c.runAll K debug os).view K) (callTokens (str "random") xs) = k.randFn.fn xs := complex_call hc os rfl xs

/-- C73, the part that holds: with one argument both parts are between 0 and the argument, a negative argument and one that is not real are
refused. With two non-negative real arguments `min ≤ max` both parts are between them. Missing: arguments with `min > max` should be refused
and those with `min < 0 < max` should not, see the counterexample. -/
theorem C73_random_partial (K : Keys) (debug : Bool) (h : k.Draws) (config : Config) (c : Context (Cplx T))
    (hc : k.context K debug config = .ok c) (os : List (Op (Cplx T))) :
    (∃ r, evalTokens ((c.runAll K debug os).view K) (callTokens (str "random") []) = .ok r ∧
      0 ≤ h.val r.re ∧ h.val r.re < 1 ∧ 0 ≤ h.val r.im ∧ h.val r.im < 1) ∧
    (∀ z, h.val z.im ≠ 0 → evalTokens ((c.runAll K debug os).view K) (callTokens (str "random") [z]) = .err .invalidInput) ∧
    (∀ z, h.val z.im = 0 → h.val z.re < 0 →
      evalTokens ((c.runAll K debug os).view K) (callTokens (str "random") [z]) = .err .negativeValue) ∧
    (∀ z, h.val z.im = 0 → 0 < h.val z.re → ∃ r, evalTokens ((c.runAll K debug os).view K) (callTokens (str "random") [z]) = .ok r ∧
      0 ≤ h.val r.re ∧ h.val r.re < h.val z.re ∧ 0 ≤ h.val r.im ∧ h.val r.im < h.val z.re) ∧
    (∀ z w, h.val z.im ≠ 0 ∨ h.val w.im ≠ 0 →
      evalTokens ((c.runAll K debug os).view K) (callTokens (str "random") [z, w]) = .err .invalidInput) ∧
    (∀ z w, h.val z.im = 0 → h.val w.im = 0 → 0 < h.val z.re → h.val z.re ≤ h.val w.re →
      ∃ r, evalTokens ((c.runAll K debug os).view K) (callTokens (str "random") [z, w]) = .ok r ∧
        h.val z.re ≤ h.val r.re ∧ h.val r.re ≤ h.val w.re ∧ h.val z.re ≤ h.val r.im ∧ h.val r.im ≤ h.val w.re) := by
  have hreal : ∀ z, h.val z.im = 0 → k.tryGetReal z = .ok z.re := by
    intro z hz
    simp [Cx.tryGetReal, (h.isZero _).mpr hz]
  have hnot : ∀ z, h.val z.im ≠ 0 → k.tryGetReal z = .err .invalidInput := by
    intro z hz
    have : ¬ k.isZero z.im = true := fun h1 => hz ((h.isZero _).mp h1)
    simp [Cx.tryGetReal, this]
  have r1 := h.range1
  have r2 := h.range2
  have hm : ∀ a b : Rat, 0 ≤ a → 0 ≤ b → 0 ≤ a * b := fun a b => Rat.mul_nonneg
  have hlt : ∀ a b : Rat, a < 1 → 0 < b → a * b < b := by
    intro a b h1 h2
    have := Rat.mul_pos (a := 1 - a) (b := b) (by grind) h2
    grind
  have hle : ∀ a b : Rat, a < 1 → 0 ≤ b → b * a ≤ b := by
    intro a b h1 h2
    have := Rat.mul_nonneg (a := 1 - a) (b := b) (by grind) h2
    grind
  refine ⟨?_, ?_, ?_, ?_, ?_, ?_⟩
  · refine ⟨⟨h.random1, h.random2⟩, ?_, r1.1, r1.2, r2.1, r2.2⟩
    rw [complex_random hc]
    simp [Cx.randFn, h.drawn1, h.drawn2, Res.ofOption]
  · intro z hz
    rw [complex_random hc]
    simp [Cx.randFn, hnot z hz]
  · intro z hz hneg
    rw [complex_random hc]
    simp [Cx.randFn, hreal z hz, h.negative _ hneg]
  · intro z hz hpos
    refine ⟨⟨k.mul h.random1 z.re, k.mul h.random2 z.re⟩, ?_, ?_⟩
    · rw [complex_random hc]
      simp [Cx.randFn, hreal z hz, h.nonneg _ hpos, h.drawn1, h.drawn2, Res.ofOption]
    · simp only [h.mul]
      exact ⟨hm _ _ r1.1 (by grind), hlt _ _ r1.2 hpos, hm _ _ r2.1 (by grind), hlt _ _ r2.2 hpos⟩
  · intro z w hzw
    rw [complex_random hc]
    by_cases hz : h.val z.im = 0
    · have hw : h.val w.im ≠ 0 := hzw.resolve_left (fun h1 => h1 hz)
      simp [Cx.randFn, hreal z hz, hnot w hw]
    · simp [Cx.randFn, hnot z hz]
  · intro z w hz hw hpos hle'
    refine ⟨⟨k.add z.re (k.mul (k.sub w.re z.re) h.random1), k.add z.re (k.mul (k.sub w.re z.re) h.random2)⟩, ?_, ?_⟩
    · rw [complex_random hc]
      simp [Cx.randFn, hreal z hz, hreal w hw, h.nonneg _ hpos, h.nonneg w.re (by grind), h.drawn1, h.drawn2, Res.ofOption]
    · simp only [h.add, h.mul, h.sub]
      have a1 := hm (h.val w.re - h.val z.re) _ (by grind) r1.1
      have a2 := hm (h.val w.re - h.val z.re) _ (by grind) r2.1
      have b1 := hle _ (h.val w.re - h.val z.re) r1.2 (by grind)
      have b2 := hle _ (h.val w.re - h.val z.re) r2.2 (by grind)
      exact ⟨by grind, by grind, by grind, by grind⟩

/-- C73: `random(5, 1)` is answered, `random(-1, 1)` is refused. -/
theorem C73_random_counterexample : ∃ c, Demo.cx.newContext Demo.keys true = .ok c ∧
    evalTokens (c.view Demo.keys) (callTokens (str "random") [⟨5, 0⟩, ⟨1, 0⟩]) = .ok ⟨3, 4⟩ ∧
    evalTokens (c.view Demo.keys) (callTokens (str "random") [⟨-1, 0⟩, ⟨1, 0⟩]) = .err .invalidInput := by
  obtain ⟨c, hc, -⟩ := C31_complex Demo.keys true Demo.cx (Config.new.withComplexNumber true) 3 2 rfl rfl
  exact ⟨c, hc, (complex_random hc [] _).trans (by decide +kernel), (complex_random hc [] _).trans (by decide +kernel)⟩

/-! ## C74: no panics -/

theorem forward_ne_panic (name : Str) (g : Cplx T → Cplx T) (xs : List (Cplx T)) : (Cx.forward name g).fn xs ≠ .panic := by
  cases xs with
  | nil => simp [Cx.forward]
  | cons x xs => cases xs <;> simp [Cx.forward]

theorem forwardInv_ne_panic (k : Cx T) (name : Str) (g : Cplx T → Cplx T) (xs : List (Cplx T)) : (k.forwardInv name g).fn xs ≠ .panic := by
  cases xs with
  | nil => simp [Cx.forwardInv]
  | cons x xs => cases xs <;> simp [Cx.forwardInv]

theorem cfold_ne_panic (g : Cplx T → Cplx T → Cplx T) (acc : Option (Cplx T)) (xs : List (Cplx T)) :
    Ops.foldArgs (fun z w => .ok (g z w)) acc xs ≠ .panic := by
  induction xs generalizing acc with
  | nil => simp [Ops.foldArgs]
  | cons x xs ih =>
    cases acc with
    | none => exact ih _
    | some a => exact ih _

/-- C74. Evaluating an expression over complex numbers never panics, whatever its tokens and whatever variables and constants were added,
provided the component type can represent the number of arguments of `avg` (floating point types can). -/
theorem C74_complex_no_panic (K : Keys) (debug : Bool) (k : Cx T) (hsize : ∀ n, (k.fromUsize n).isSome = true) (config : Config)
    (c : Context (Cplx T)) (hc : k.context K debug config = .ok c) (os : List (Op (Cplx T))) (hos : OnlyValues os)
    (ts : List (Token (Cplx T))) :
    evalTokens ((c.runAll K debug os).view K) ts ≠ .panic := by
  obtain ⟨pi, e, -, -, hv⟩ := complex_inv hc
  obtain ⟨-, h2, h3, h4⟩ := runAll_values K debug hos c
  refine C04_eval_never_panics _ ⟨?_, ?_, ?_⟩ ts
  · intro s g hg
    have hg : (c.view K).getFunction s = some g := by
      simp only [Context.view, h2] at hg; exact hg
    rw [hv] at hg
    obtain ⟨f, hf, rfl, -⟩ := lookup_some (show lookup hashSame k.functions s = some g from hg)
    intro xs
    have hsum : ∀ g : Cplx T → Cplx T → Cplx T, Ops.orArgumentCount (Ops.foldArgs (fun z w => .ok (g z w)) none xs) ≠ .panic :=
      fun g => Res.bind_ne_panic (cfold_ne_panic g _ _) fun _ _ => ofOption_ne_panic _ _
    simp only [Cx.functions, List.mem_cons, List.not_mem_nil, or_false] at hf
    rcases hf with rfl | rfl | rfl | rfl | rfl | rfl | rfl | hf
    · exact hsum k.cAdd
    · refine Res.bind_ne_panic (cfold_ne_panic k.cAdd _ _) fun o _ => ?_
      cases o with
      | none => simp
      | some n =>
        obtain ⟨m, hm⟩ := Option.isSome_iff_exists.mp (hsize xs.length)
        simp [Cx.num, hm]
    · exact hsum k.cMul
    · exact forward_ne_panic _ _ _
    · exact forward_ne_panic _ _ _
    · show k.logFn.fn xs ≠ .panic
      unfold Cx.logFn
      simp only
      split
      · exact Res.bind_ne_panic (ofOption_ne_panic _ _) fun _ _ => by simp
      · split <;> simp
      · simp
    · show k.randFn.fn xs ≠ .panic
      have hreal : ∀ z, k.tryGetReal z ≠ .panic := by
        intro z; unfold Cx.tryGetReal; split <;> simp
      have hdraw : ∀ g : T → T → Res (Cplx T), (∀ x y, g x y ≠ .panic) →
          ((Res.ofOption k.random1 .overflow).bind fun re => (Res.ofOption k.random2 .overflow).bind fun im => g re im) ≠ .panic := fun g hg =>
        Res.bind_ne_panic (ofOption_ne_panic _ _) fun _ _ => Res.bind_ne_panic (ofOption_ne_panic _ _) fun _ _ => hg _ _
      unfold Cx.randFn
      simp only
      split
      · exact hdraw _ fun _ _ => by simp
      · refine Res.bind_ne_panic (hreal _) fun _ _ => ?_
        split
        · simp
        · exact hdraw _ fun _ _ => by simp
      · refine Res.bind_ne_panic (hreal _) fun _ _ => Res.bind_ne_panic (hreal _) fun _ _ => ?_
        split
        · simp
        · exact hdraw _ fun _ _ => by simp
      · simp
    · rcases hf with rfl | rfl | rfl | rfl | rfl | rfl | rfl | rfl | rfl | rfl | rfl | rfl | rfl | rfl | rfl | rfl | rfl | rfl | rfl | rfl |
        rfl | rfl | rfl | rfl | rfl <;> first | exact forward_ne_panic _ _ _ | exact forwardInv_ne_panic _ _ _ _
  · intro s g hg
    have hg : (c.view K).getUnary s = some g := by
      simp only [Context.view, h3] at hg; exact hg
    rw [hv] at hg
    obtain ⟨f, hf, rfl, -⟩ := lookup_some (show lookup hashSame k.unaryOps s = some g from hg)
    simp only [Cx.unaryOps, List.mem_cons, List.not_mem_nil, or_false] at hf
    rcases hf with rfl | rfl <;> intro x <;> simp [Ops.unaryPlus, Ops.uncheckedNeg, Cx.num]
  · intro s g hg
    have hg : (c.view K).getBinary s = some g := by
      simp only [Context.view, h4] at hg; exact hg
    rw [hv] at hg
    obtain ⟨f, hf, rfl, -⟩ := lookup_some (show lookup hashSame k.binaryOps s = some g from hg)
    simp only [Cx.binaryOps, List.mem_cons, List.not_mem_nil, or_false] at hf
    have hdiv : ∀ (y r : Cplx T), (if k.num.isZero y = true then Res.err ErrorKind.divisionByZero else Res.ok r) ≠ .panic := by
      intro y r
      cases h : k.num.isZero y <;> simp
    rcases hf with rfl | rfl | rfl | rfl | rfl | rfl <;> intro x y
    · simp [Ops.uncheckedAdd, Cx.num]
    · simp [Ops.uncheckedSub, Cx.num]
    · simp [Ops.uncheckedMul, Cx.num]
    · exact hdiv y _
    · exact hdiv y _
    · simp [Cx.powOp]

example : (∀ n, (Demo.cx.fromUsize n).isSome = true) ∧ OnlyValues [Op.setVariable (str "z") (⟨1, 2⟩ : Cplx Rat), .addConstant (str "w") ⟨0, 1⟩] := by
  refine ⟨fun n => rfl, ?_⟩
  intro o ho
  simp only [List.mem_cons, List.not_mem_nil, or_false] at ho
  rcases ho with rfl | rfl
  · exact .inl ⟨_, _, rfl⟩
  · exact .inr ⟨_, _, rfl⟩

end Prexel
