import Verif.Lemmas.Imaginary
import Verif.Props.Munch
import Verif.Props.Products
import Verif.Props.EffectsText
import Verif.Props.Complex
/-!
# C21, C23, C112, C115 and C122 for contexts with complex numbers

In such contexts a number and an `i` behind it are one word. The theorems for other contexts are in `Props/Tokenizer.lean`, `Props/Munch.lean`,
`Props/Products.lean` and `Props/EffectsText.lean`.
-/

namespace Prexel
variable {N σ T : Type}

/-- C21 with complex numbers: the same as `C21_sign`, whatever the configuration. -/
theorem C21_complex_sign (parse : Str → Option N) {rules : List Rule} (hg : AllGood rules) (hs : SkipsWs rules) (c : Ctx N)
    (hi : c.config.complexNumber = true → ReadsI parse c) (hl : Lexical c) (s : Str) (ts : List (Token N)) (h : tokenize parse (split rules) c s = .ok ts)
    (w : Str) (f : UnFn N) (hf : c.getUnary w = some f) (hn : f.notation_ = .pre) (hb : c.getBinary w ≠ none)
    (i : Nat) (ho : ts[i]? = some (.unary w) ∨ ts[i]? = some (.binary w)) :
    (i = 0 → ts[i]? = some (.unary w)) ∧
    ∀ p, 0 < i → ts[i - 1]? = some p →
      ((∃ x, p = .gopen x) ∨ p = .comma ∨ (∃ o, p = .binary o ∧ c.getBinary o ≠ none) → ts[i]? = some (.unary w)) ∧
      ((∃ n, p = .number n) ∨ (∃ x, p = .variable_ x) ∨ (∃ x, p = .constant x) ∨ (∃ x, p = .gclose x) ∨
        (∃ x g, p = .unary x ∧ c.getUnary x = some g ∧ g.notation_ = .post) → ts[i]? = some (.binary w)) := by
  cases hc : c.config.complexNumber with
  | false => exact C21_sign parse hg hs c hc hl s ts h w f hf hn hb i ho
  | true =>
    unfold tokenize at h
    split at h
    · cases h
    have hsp : ∀ w ∈ split rules s, ∀ x ∈ w, x ≠ ' ' := by
      intro w hm x hx e
      have := (split_no_ws hg hs s _ hm).2 x hx
      rw [e] at this
      revert this; decide
    have hj := joined_of_ok hc _ h
    rw [tokenizeLoop_joined hc (hi hc) hj (.inl rfl)] at h
    refine sign_words parse c.plain rfl (plain_lexical hl) _ ?_ ts h w f hf hn hb i ho
    intro hm
    have hall : ∀ ws ws' : List Str, Joined parse ws ws' → (∀ w ∈ ws, ∀ x ∈ w, x ≠ ' ') → ∀ w ∈ ws', ∀ x ∈ w, x ≠ ' ' := by
      intro ws ws' hj
      induction hj with
      | nil => simp
      | keep w _ _ ih =>
        intro h1 v hv
        rcases List.mem_cons.mp hv with rfl | hv
        · exact h1 _ (by simp)
        · exact ih (fun u hu => h1 u (by simp [hu])) v hv
      | join w _ _ _ ih =>
        intro h1 v hv
        rcases List.mem_cons.mp hv with rfl | hv
        · intro x hx
          rcases List.mem_append.mp hx with hx | hx
          · exact h1 _ (by simp) x hx
          · exact h1 ['i'] (by simp) x hx
        · exact ih (fun u hu => h1 u (by simp [hu])) v hv
    exact hall _ _ hj hsp _ hm ' ' (by simp) rfl

/-- C23 with complex numbers. Any text whose words, with imaginary numbers as one word, are the words of a dictated tree evaluates to the value of
the tree. -/
theorem C23_complex_text (parse : Str → Option N) {rules : List Rule} (hs : SkipsWs rules) (c : Ctx N)
    (hc : c.config.complexNumber = true) (hi : ReadsI parse c) (hl : Lexical c) (e : Expr N) (hw : e.WF c) (hp : e.Plain c) (s : Str)
    (ws : List Str) (hj : Joined parse (split rules s) ws) (h : Pairwise2 (StandsFor parse c) ws e.render) :
    tokenize parse (split rules) c s = .ok e.render ∧ eval parse (split rules) c s = e.denote c := by
  have ht : tokenize parse (split rules) c s = .ok e.render := by
    unfold tokenize
    split
    · rename_i hb
      have : split rules s = [] := split_blank hs (by simpa [Blank, List.all_eq_true] using hb)
      rw [this] at hj
      cases hj
      have hne := e.render_ne_nil
      cases hr : e.render with
      | nil => exact absurd hr hne
      | cons t l => rw [hr] at h; cases h
    · rw [tokenizeLoop_joined hc hi hj (.inl rfl)]
      refine tokenizeLoop_okSeq rfl (plain_lexical hl) (h.mono fun w t hwt => (plain_standsFor parse c w t).mpr hwt) (k := .start) rfl ?_
      rw [plain_okSeq]
      have := okSeq_expr c e hw hp .start [] (.inl rfl) trivial
      simpa using this
  exact ⟨ht, by rw [eval, ht, Res.bind_ok, C01_eval_eq_denote c e hw]⟩

/-- C115 with complex numbers: the words may be written without white space where they do not run together. -/
theorem C115_complex_text (parse : Str → Option N) (c : Ctx N) (hc : c.config.complexNumber = true) (hi : ReadsI parse c) (hl : Lexical c) (e : Expr N)
    (hw : e.WF c) (hp : e.Plain c) {ws ws' : List Str} {s : Str} (hws : ∀ w ∈ ws, Shape w) (hj : Joined parse ws ws')
    (h : Pairwise2 (StandsFor parse c) ws' e.render) (hs : Written ws s) : eval parse (split defaultRules) c s = e.denote c :=
  (C23_complex_text parse defaultRules_skips c hc hi hl e hw hp s ws' (by rw [C115_words hs hws]; exact hj) h).2

/-- C122 with complex numbers. -/
theorem C122_complex_text (parse : Str → Option N) {rules : List Rule} (hr : SkipsWs rules) (c : Ctx N) (hc : c.config.complexNumber = true)
    (hi : ReadsI parse c) (hl : Lexical c) (hs : (c.getBinary ['*']).isSome) (e : Expr N) (h : e.WF c) (hp : e.Plain c) (s s' : Str) (ws ws' : List Str)
    (hj : Joined parse (split rules s) ws) (hj' : Joined parse (split rules s') ws')
    (h1 : Pairwise2 (StandsFor parse c) ws e.render) (h2 : Pairwise2 (StandsFor parse c) ws' e.bracketed.render) :
    eval parse (split rules) c s = eval parse (split rules) c s' := by
  rw [(C23_complex_text parse hr c hc hi hl e h hp s ws hj h1).2,
    (C23_complex_text parse hr c hc hi hl _ (Expr.bracketed_wf c hs e h) (Expr.bracketed_plain c e hp) s' ws' hj' h2).2, Expr.bracketed_denote]

/-- C112 with complex numbers. -/
theorem C112_complex_text (parse : Str → Option N) {rules : List Rule} (hs : SkipsWs rules) (c : EffCtx σ N)
    (hc : c.ctx.config.complexNumber = true) (hi : ReadsI parse c.ctx) (hl : Lexical c.ctx) (e : Expr N) (hw : e.WF c.ctx) (hp : e.Plain c.ctx)
    (s : Str) (ws : List Str) (hj : Joined parse (split rules s) ws) (h : Pairwise2 (StandsFor parse c.ctx) ws e.render) :
    evalE c parse (split rules) s = e.run c := by
  unfold evalE
  rw [(C23_complex_text parse hs c.ctx hc hi hl e hw hp s ws hj h).1, Action.bind_lift_ok, C112_order c e hw]

/-- The built-in context of complex numbers is one to which these theorems apply. -/
theorem C23_complex_context (K : Keys) (debug : Bool) (k : Cx T) (config : Config) (c : Context (Cplx T)) (hc : k.context K debug config = .ok c)
    (parse : Str → Option (Cplx T)) :
    (c.view K).config.complexNumber = true ∧ ReadsI parse (c.view K) ∧ Lexical (c.view K) := by
  obtain ⟨pi, ee, -, -, hv⟩ := complex_inv hc
  rw [hv]
  refine ⟨rfl, .inr (.inr ?_), ?_⟩
  · exact Option.isSome_iff_ne_none.mp rfl
  · refine school_lexical (complex_operators _ _ _ _) ?_ ?_ ⟨_, rfl⟩
    · rw [show (k.binaryOps).flatMap Named.names = ["+", "-", "*", "/", "mod", "^"].map str from rfl]; decide
    · rw [show (k.unaryOps).flatMap Named.names = ["+", "-"].map str from rfl]; decide

/-- `2i * sum(i - 3, -4i)` -/
def sampleImaginary : Expr (Cplx Rat) :=
  .bin ['*'] (.atom (.num ⟨0, 2⟩)) (.call (str "sum") .parenthesis
    (.more (.bin ['-'] (.atom (.num ⟨0, 1⟩)) (.atom (.num ⟨3, 0⟩))) (.one (.signed ['-'] (.num ⟨0, 4⟩)))))

example : ∃ c, Demo.cx.newContext Demo.keys true = .ok c ∧ sampleImaginary.denote (c.view Demo.keys) = .ok ⟨6, -6⟩ ∧
    eval Demo.cxParse (split defaultRules) (c.view Demo.keys) (str "2i * sum(i - 3, -4i)") = sampleImaginary.denote (c.view Demo.keys) := by
  obtain ⟨c, hc, -⟩ := C31_complex Demo.keys true Demo.cx (Config.new.withComplexNumber true) 3 2 rfl rfl
  obtain ⟨h1, h2, h3⟩ := C23_complex_context Demo.keys true Demo.cx _ c hc Demo.cxParse
  have hs : split defaultRules (str "2i * sum(i - 3, -4i)") =
      [['2'], ['i'], ['*'], str "sum", ['('], ['i'], ['-'], ['3'], [','], ['-'], ['4'], ['i'], [')']] := by decide +kernel
  obtain ⟨pi, ee, hpi, hee, hv⟩ := complex_inv hc
  cases hpi
  cases hee
  refine ⟨c, hc, by rw [hv]; decide +kernel, ?_⟩
  refine (C23_complex_text Demo.cxParse defaultRules_skips _ h1 h2 h3 sampleImaginary ?_ ?_ _
    [str "2i", ['*'], str "sum", ['('], ['i'], ['-'], ['3'], [','], ['-'], str "4i", [')']] ?_ ?_).2
  · rw [hv]
    simp only [sampleImaginary, Expr.WF, Args.WF, Expr.leftSpine, Expr.rightSpine, List.not_mem_nil, false_implies, implies_true, and_true, true_and,
      true_or]
    exact ⟨⟨_, rfl⟩, ⟨_, rfl⟩, _, rfl, rfl⟩
  · simp [sampleImaginary, Expr.Plain, Args.Plain]
  · rw [hs]
    refine .join ['2'] (by decide +kernel) (by decide +kernel) ?_
    refine .keep _ (.inl (by decide +kernel)) (.keep _ (.inl (by decide +kernel)) (.keep _ (.inl (by decide +kernel))
      (.keep _ (.inr (by decide)) (.keep _ (.inl (by decide +kernel)) (.keep _ (.inr (by decide)) (.keep _ (.inl (by decide +kernel))
      (.keep _ (.inl (by decide +kernel)) ?_)))))))
    exact .join ['4'] (by decide +kernel) (by decide +kernel) (.keep _ (.inl (by decide +kernel)) .nil)
  · rw [hv]
    simp only [sampleImaginary, Expr.render, Args.render, Atom.token, List.cons_append, List.nil_append, Grouping.opn, Grouping.cls]
    have nv : ∀ w ∈ [['*'], ['-'], ['('], [')'], [','], str "sum"], Demo.cxParse w = none := by decide +kernel
    repeat' first | exact Pairwise2.nil | refine Pairwise2.cons ?_ ?_
    all_goals first
      | (show Demo.cxParse _ = some _; decide +kernel)
      | exact ⟨rfl, ⟨nv _ (by decide), rfl, rfl, rfl⟩, .inl (Option.isSome_iff_ne_none.mp rfl)⟩
      | exact ⟨rfl, ⟨nv _ (by decide), rfl, rfl, rfl⟩, Option.isSome_iff_ne_none.mp rfl⟩
      | exact ⟨rfl, nv _ (by decide), rfl, rfl, Option.isSome_iff_ne_none.mp rfl⟩
      | exact ⟨rfl, by decide, ⟨nv _ (by decide), rfl, rfl, rfl⟩, rfl, rfl⟩
      | exact ⟨rfl, ⟨nv _ (by decide), rfl, rfl, rfl⟩, rfl, rfl⟩

end Prexel
