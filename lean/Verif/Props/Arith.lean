import Verif.Props.Builtin
import Verif.Props.Context
import Verif.Props.Tokenizer
import Verif.Lemmas.Arith
import Verif.Examples.Numbers
/-!
# Arithmetic in the built-in contexts (C32, C56)
-/

set_option linter.unusedVariables false
set_option linter.unusedSimpArgs false

namespace Prexel
variable {N F : Type}

/-- What the operators of the checked context do, in terms of the number type. -/
def checkedArithmetic (f : F64 F) (num : Num N F) : Arithmetic N where
  op
    | .add => fun x y => Res.ofOption (num.checkedAdd x y) .overflow
    | .sub => fun x y => Res.ofOption (num.checkedSub x y) .overflow
    | .mul => fun x y => Res.ofOption (num.checkedMul x y) .overflow
    | .div => fun x y => if num.isZero y then .err .divisionByZero else Res.ofOption (num.checkedDiv x y) .overflow
    | .mod => fun x y => if num.isZero y then .err .divisionByZero else Res.ofOption (num.checkedRem x y) .overflow
    | .pow => (Ops.pow f num).fn.call
  neg x := Res.ofOption (num.checkedNeg x) .overflow
  fact := (Ops.factorial f num).fn.call

/-- What the operators of the unchecked context do. -/
def uncheckedArithmetic (f : F64 F) (num : Num N F) : Arithmetic N where
  op
    | .add => num.add
    | .sub => num.sub
    | .mul => num.mul
    | .div => fun x y => if num.isZero y then .err .divisionByZero else num.div x y
    | .mod => fun x y => if num.isZero y then .err .divisionByZero else num.rem x y
    | .pow => (Ops.pow f num).fn.call
  neg := num.neg
  fact := (Ops.factorial f num).fn.call

theorem checked_school (config : Config) (cs : List (Str × N)) (fs : List (Named (Fn N))) (f : F64 F) (num : Num N F) :
    School (tablesCtx config cs (Ops.checkedBinary f num) (Ops.checkedUnary f num) fs) (checkedArithmetic f num) where
  binary o := by cases o <;> rfl
  neg := rfl
  fact := rfl

theorem unchecked_school (config : Config) (cs : List (Str × N)) (fs : List (Named (Fn N))) (f : F64 F) (num : Num N F) :
    School (tablesCtx config cs (Ops.uncheckedBinary f num) (Ops.uncheckedUnary f num) fs) (uncheckedArithmetic f num) where
  binary o := by cases o <;> rfl
  neg := rfl
  fact := rfl

theorem Operators.runAll {K : Keys} {c : Context N} {A : Arithmetic N} (h : Operators (c.view K) A) (debug : Bool) (os : List (Op N)) :
    Operators ((c.runAll K debug os).view K) A where
  binary o := (C26_never_replaced K debug c os _).2.2 _ (h.binary o)
  neg := (C26_never_replaced K debug c os _).2.1 _ h.neg

theorem School.runAll {K : Keys} {c : Context N} {A : Arithmetic N} (h : School (c.view K) A) (debug : Bool) (os : List (Op N)) :
    School ((c.runAll K debug os).view K) A where
  binary o := (C26_never_replaced K debug c os _).2.2 _ (h.binary o)
  neg := (C26_never_replaced K debug c os _).2.1 _ h.neg
  fact := (C26_never_replaced K debug c os _).2.1 _ h.fact

/-- C32. In the checked context every arithmetic tree, written with the brackets that school rules require, evaluates to its value; also
after any further operations on the context. -/
theorem C32_checked (K : Keys) (debug docs : Bool) (f : F64 F) (num : Num N F) (config : Config) (c : Context N)
    (hc : Context.checked K debug docs f num config = .ok c) (os : List (Op N)) (e : Arith N) :
    evalTokens ((c.runAll K debug os).view K) e.tokens = e.value (checkedArithmetic f num) := by
  have hs : School (c.view K) (checkedArithmetic f num) := by
    cases hpi : num.fromF64 f.pi with
    | none => simp [Context.checked, hpi] at hc
    | some pi =>
      cases he : num.fromF64 f.e with
      | none => simp [Context.checked, hpi, he] at hc
      | some e =>
        obtain ⟨c', hc', hv⟩ := checked_build K debug docs f num config pi e hpi he
        rw [hc] at hc'
        cases hc'
        rw [hv]
        exact checked_school _ _ _ _ _
  have hs' := hs.runAll debug os
  rw [← e.toExpr_render, C01_eval_eq_denote _ _ (e.toExpr_wf hs'), e.toExpr_denote hs']

/-- C32 for the unchecked context. -/
theorem C32_unchecked (K : Keys) (debug : Bool) (f : F64 F) (num : Num N F) (config : Config) (c : Context N)
    (hc : Context.unchecked K debug f num config = .ok c) (os : List (Op N)) (e : Arith N) :
    evalTokens ((c.runAll K debug os).view K) e.tokens = e.value (uncheckedArithmetic f num) := by
  have hs : School (c.view K) (uncheckedArithmetic f num) := by
    cases hpi : num.fromF64 f.pi with
    | none => simp [Context.unchecked, hpi] at hc
    | some pi =>
      cases he : num.fromF64 f.e with
      | none => simp [Context.unchecked, hpi, he] at hc
      | some e =>
        obtain ⟨c', hc', hv⟩ := unchecked_build K debug f num config pi e hpi he
        rw [hc] at hc'
        cases hc'
        rw [hv]
        exact unchecked_school _ _ _ _ _
  have hs' := hs.runAll debug os
  rw [← e.toExpr_render, C01_eval_eq_denote _ _ (e.toExpr_wf hs'), e.toExpr_denote hs']

/-! ### From text -/

theorem asciiLower_eq {a x : Char} (h : asciiLower a = x) : a = x ∨ (65 ≤ a.toNat ∧ a.toNat ≤ 90 ∧ x.toNat = a.toNat + 32) := by
  unfold asciiLower at h
  split at h
  · rename_i h1
    right
    subst h
    exact ⟨h1.1, h1.2, toNat_ofNat_small (by omega)⟩
  · exact .inl h

/-- A one-character name that is not a letter has no other case variant. -/
theorem caseVariant_symbol {x : Char} {s : Str} (hx : asciiLower x = x) (hl : x.toNat < 97 ∨ 122 < x.toNat) (h : CaseVariant [x] s) :
    s = [x] := by
  unfold CaseVariant at h
  cases s with
  | nil => simp at h
  | cons a s =>
    cases s with
    | cons b s => simp at h
    | nil =>
      simp only [List.map_cons, List.map_nil, List.cons.injEq, and_true] at h
      rw [hx] at h
      rcases asciiLower_eq h.symm with rfl | ⟨h1, h2, h3⟩
      · rfl
      · omega

/-- The unary operator names of the built-in contexts. -/
theorem school_unary_names {s : Str} (h : ∃ n ∈ ["+", "-", "!"].map str, CaseVariant n s) : s = ['+'] ∨ s = ['-'] ∨ s = ['!'] := by
  obtain ⟨n, hn, hs⟩ := h
  simp only [List.map_cons, List.map_nil, List.mem_cons, List.not_mem_nil, or_false] at hn
  rcases hn with rfl | rfl | rfl
  · exact .inl (caseVariant_symbol (by decide) (by decide) hs)
  · exact .inr (.inl (caseVariant_symbol (by decide) (by decide) hs))
  · exact .inr (.inr (caseVariant_symbol (by decide) (by decide) hs))

theorem school_binary_names {s : Str} (h : ∃ n ∈ ["+", "-", "*", "/", "^", "mod"].map str, CaseVariant n s) :
    s = ['+'] ∨ s = ['-'] ∨ s = ['*'] ∨ s = ['/'] ∨ s = ['^'] ∨ ∃ a b c, s = [a, b, c] ∧ (a = 'm' ∨ a = 'M') := by
  obtain ⟨n, hn, hs⟩ := h
  simp only [List.map_cons, List.map_nil, List.mem_cons, List.not_mem_nil, or_false] at hn
  rcases hn with rfl | rfl | rfl | rfl | rfl | rfl
  · exact .inl (caseVariant_symbol (by decide) (by decide) hs)
  · exact .inr (.inl (caseVariant_symbol (by decide) (by decide) hs))
  · exact .inr (.inr (.inl (caseVariant_symbol (by decide) (by decide) hs)))
  · exact .inr (.inr (.inr (.inl (caseVariant_symbol (by decide) (by decide) hs))))
  · exact .inr (.inr (.inr (.inr (.inl (caseVariant_symbol (by decide) (by decide) hs)))))
  · refine .inr (.inr (.inr (.inr (.inr ?_))))
    have h1 : ['m', 'o', 'd'].map asciiLower = s.map asciiLower := hs
    have h0 : s.length = 3 := by simpa using (congrArg List.length h1).symm
    match s, h0 with
    | [a, b, c], _ =>
      refine ⟨a, b, c, rfl, ?_⟩
      simp only [List.map_cons, List.cons.injEq] at h1
      rcases asciiLower_eq h1.1.symm with h2 | ⟨h2, h3, h4⟩
      · left; exact h2.trans (by decide)
      · right
        have h5 : (asciiLower 'm').toNat = 109 := by decide
        have : a.toNat = 'M'.toNat := by
          have : 'M'.toNat = 77 := by decide
          omega
        exact Char.toNat_inj.mp this

/-- The operators of the built-in contexts can be told apart by the tokenizer. -/
theorem school_lexical {config : Config} {cs : List (Str × N)} {bs : List (Named (BinFn N))} {us : List (Named (UnFn N))}
    {fs : List (Named (Fn N))} {A : Arithmetic N} (hs : Operators (tablesCtx config cs bs us fs) A)
    (hb : ∀ n ∈ bs.flatMap Named.names, n ∈ ["+", "-", "*", "/", "^", "mod"].map str)
    (hu : ∀ n ∈ us.flatMap Named.names, n ∈ ["+", "-", "!"].map str)
    (hp : ∃ p, lookup hashSame us ['+'] = some ⟨.pre, p⟩) : Lexical (tablesCtx config cs bs us fs) := by
  have hu' : ∀ s, (tablesCtx config cs bs us fs).getUnary s ≠ none → s = ['+'] ∨ s = ['-'] ∨ s = ['!'] := by
    intro s h
    refine school_unary_names ?_
    have h1 : (lookup hashSame us s).isSome = true := Option.isSome_iff_ne_none.mpr h
    rw [lookup_isSome] at h1
    obtain ⟨n, hn, hk⟩ := h1
    exact ⟨n, hu n hn, by simpa [hashSame, hashInput, CaseVariant] using hk⟩
  have hb' : ∀ s, (tablesCtx config cs bs us fs).getBinary s ≠ none →
      s = ['+'] ∨ s = ['-'] ∨ s = ['*'] ∨ s = ['/'] ∨ s = ['^'] ∨ ∃ a b c, s = [a, b, c] ∧ (a = 'm' ∨ a = 'M') := by
    intro s h
    refine school_binary_names ?_
    have h1 : (lookup hashSame bs s).isSome = true := Option.isSome_iff_ne_none.mpr h
    rw [lookup_isSome] at h1
    obtain ⟨n, hn, hk⟩ := h1
    exact ⟨n, hb n hn, by simpa [hashSame, hashInput, CaseVariant] using hk⟩
  have un : ∀ c, c ≠ '+' → c ≠ '-' → c ≠ '!' → (tablesCtx config cs bs us fs).getUnary [c] = none := by
    intro c h1 h2 h3
    cases h : (tablesCtx config cs bs us fs).getUnary [c] with
    | none => rfl
    | some f =>
      have := hu' [c] (by rw [h]; simp)
      simp [h1, h2, h3] at this
  refine ⟨?_, ?_, ?_, ?_⟩
  · rintro s (h | h)
    · rcases hu' s h with rfl | rfl | rfl <;> exact ⟨_, _, rfl, by decide⟩
    · rcases hb' s h with rfl | rfl | rfl | rfl | rfl | ⟨a, b, c, rfl, rfl | rfl⟩ <;> exact ⟨_, _, rfl, by decide⟩
  · rintro c (h | h)
    · rcases hu' _ h with h | h | h <;> cases h <;> decide
    · rcases hb' _ h with h | h | h | h | h | ⟨a, b, d, h, -⟩ <;> cases h <;> decide
  · intro c t h
    rcases hb' _ h with h | h | h | h | h | ⟨a, b, d, h, rfl | rfl⟩ <;> cases h
    · right; rw [show ['+'] = ArOp.symbol .add from rfl, hs.binary .add]; simp
    · right; rw [show ['-'] = ArOp.symbol .sub from rfl, hs.binary .sub]; simp
    all_goals exact .inl (un _ (by decide) (by decide) (by decide))
  · intro c t f h hf
    rcases hu' (c :: t) (by rw [h]; simp) with h1 | h1 | h1
    · rw [h1] at h
      obtain ⟨p, hp⟩ := hp
      have : some f = some ⟨.pre, p⟩ := h.symm.trans hp
      cases this
      cases hf
    · rw [h1] at h
      have : some f = some _ := h.symm.trans hs.neg
      cases this
      cases hf
    · cases h1
      have hn : (tablesCtx config cs bs us fs).getBinary ['!'] = none := by
        cases h2 : (tablesCtx config cs bs us fs).getBinary ['!'] with
        | none => rfl
        | some g =>
          have := hb' ['!'] (by rw [h2]; simp)
          simp at this
      exact ⟨by rw [h]; simp, hn, hn⟩

/-- The words of an arithmetic tree; `lit n` is how the number is written. -/
def wordOf (lit : N → Str) : Token N → Str
  | .number n => lit n
  | .unary s => s
  | .binary s => s
  | .gopen c => [c]
  | .gclose c => [c]
  | _ => []

/-- The words that are not numbers in written arithmetic. -/
def arithWords : List Str := ["+", "-", "*", "/", "mod", "^", "!", "(", ")"].map str

/-- The tokens of written arithmetic. -/
inductive ArToken : Token N → Prop
  | number (n : N) : ArToken (.number n)
  | minus : ArToken (.unary ['-'])
  | bang : ArToken (.unary ['!'])
  | op (o : ArOp) : ArToken (.binary o.symbol)
  | opn : ArToken (.gopen '(')
  | cls : ArToken (.gclose ')')

theorem Arith.tokens_ar (e : Arith N) : ∀ t ∈ e.tokens, ArToken t := by
  have hb : ∀ ts : List (Token N), (∀ t ∈ ts, ArToken t) → ∀ t ∈ bracketed ts, ArToken t := by
    intro ts h t ht
    simp only [bracketed, List.mem_cons, List.mem_append, List.not_mem_nil, or_false] at ht
    rcases ht with rfl | ht | rfl
    · exact .opn
    · exact h t ht
    · exact .cls
  have ha : ∀ (a b : Nat) (ts : List (Token N)), (∀ t ∈ ts, ArToken t) → ∀ t ∈ atLevel a b ts, ArToken t := by
    intro a b ts h
    unfold atLevel
    split
    · exact h
    · exact hb ts h
  have hm : ∀ e : Arith N, (∀ t ∈ e.tokens, ArToken t) → ∀ t ∈ bracketed (.unary ['-'] :: bracketed e.tokens), ArToken t := by
    intro e ih
    refine hb _ ?_
    intro t ht
    rcases List.mem_cons.mp ht with rfl | ht
    · exact .minus
    · exact hb _ ih t ht
  induction e with
  | num n => intro t ht; simp only [tokens, List.mem_singleton] at ht; subst ht; exact .number n
  | neg e ih =>
    cases e with
    | num n =>
      intro t ht
      simp only [tokens, List.mem_cons, List.not_mem_nil, or_false] at ht
      rcases ht with rfl | rfl
      · exact .minus
      · exact .number n
    | neg e => exact hm _ ih
    | fact e => exact hm _ ih
    | bin o l r => exact hm _ ih
  | fact e ih =>
    intro t ht
    simp only [tokens, List.mem_append, List.mem_singleton] at ht
    rcases ht with ht | rfl
    · exact ha _ _ _ ih t ht
    · exact .bang
  | bin o l r ihl ihr =>
    intro t ht
    simp only [tokens, List.mem_append, List.mem_cons] at ht
    rcases ht with ht | rfl | ht
    · exact ha _ _ _ ihl t ht
    · exact .op o
    · exact ha _ _ _ ihr t ht

theorem pairwise2_map {α β : Type} {R : α → β → Prop} (g : β → α) {l : List β} (h : ∀ b ∈ l, R (g b) b) : Pairwise2 R (l.map g) l := by
  induction l with
  | nil => exact .nil
  | cons b l ih => exact .cons (h b (by simp)) (ih fun x hx => h x (by simp [hx]))

/-- The words of a written tree stand for its tokens. -/
theorem school_stands {config : Config} {cs : List (Str × N)} {bs : List (Named (BinFn N))} {us : List (Named (UnFn N))}
    {fs : List (Named (Fn N))} {A : Arithmetic N} (hs : Operators (tablesCtx config cs bs us fs) A)
    (hb : ∀ n ∈ bs.flatMap Named.names, n ∈ ["+", "-", "*", "/", "^", "mod"].map str)
    (hu : ∀ n ∈ us.flatMap Named.names, n ∈ ["+", "-", "!"].map str)
    (hnames : ∀ w ∈ arithWords, lookupConstant hashSame cs w = none ∧ lookup hashSame fs w = none)
    (parse : Str → Option N) (lit : N → Str) (hparse : ∀ w ∈ arithWords, parse w = none) :
    ∀ t : Token N, ArToken t → (t = .unary ['!'] → lookup hashSame us ['!'] ≠ none) →
      (∀ n, t = .number n → parse (lit n) = some n) → StandsFor parse (tablesCtx config cs bs us fs) (wordOf lit t) t ∧
      (t.isNumber = false → split defaultRules (wordOf lit t) = [wordOf lit t] ∧ wordOf lit t ∈ arithWords) := by
  have hun : ∀ w, (¬ ∃ n ∈ ["+", "-", "!"].map str, CaseVariant n w) → lookup hashSame us w = none := by
    intro w h
    cases h1 : lookup hashSame us w with
    | none => rfl
    | some f =>
      exfalso; apply h
      have h2 : (lookup hashSame us w).isSome = true := by rw [h1]; rfl
      rw [lookup_isSome] at h2
      obtain ⟨n, hn, hk⟩ := h2
      exact ⟨n, hu n hn, by simpa [hashSame, hashInput, CaseVariant] using hk⟩
  have hbn : ∀ w, (¬ ∃ n ∈ ["+", "-", "*", "/", "^", "mod"].map str, CaseVariant n w) → lookup hashSame bs w = none := by
    intro w h
    cases h1 : lookup hashSame bs w with
    | none => rfl
    | some f =>
      exfalso; apply h
      have h2 : (lookup hashSame bs w).isSome = true := by rw [h1]; rfl
      rw [lookup_isSome] at h2
      obtain ⟨n, hn, hk⟩ := h2
      exact ⟨n, hb n hn, by simpa [hashSame, hashInput, CaseVariant] using hk⟩
  have nv : ∀ w ∈ arithWords, NotValue parse (tablesCtx config cs bs us fs) w :=
    fun w hw => ⟨hparse w hw, rfl, (hnames w hw).1, (hnames w hw).2⟩
  intro t ht hbang hlit
  cases ht with
  | number n => exact ⟨hlit n rfl, by simp [Token.isNumber]⟩
  | minus => exact ⟨⟨rfl, nv ['-'] (by decide), by rw [wordOf, hs.neg]; simp⟩, fun _ => by rw [wordOf]; decide⟩
  | bang => exact ⟨⟨rfl, nv ['!'] (by decide), hbang rfl⟩, fun _ => by rw [wordOf]; decide⟩
  | op o =>
    refine ⟨⟨rfl, nv o.symbol (by cases o <;> decide), .inl (by rw [wordOf, hs.binary]; simp)⟩, fun _ => ?_⟩
    rw [wordOf]; cases o <;> decide
  | opn =>
    exact ⟨⟨rfl, by decide, nv ['('] (by decide), hun ['('] (by decide), hbn ['('] (by decide)⟩, fun _ => by rw [wordOf]; decide⟩
  | cls =>
    exact ⟨⟨rfl, by decide, nv [')'] (by decide), hun [')'] (by decide), hbn [')'] (by decide)⟩, fun _ => by rw [wordOf]; decide⟩

theorem school_text {config : Config} {cs : List (Str × N)} {bs : List (Named (BinFn N))} {us : List (Named (UnFn N))}
    {fs : List (Named (Fn N))} {A : Arithmetic N} (hs : School (tablesCtx config cs bs us fs) A)
    (hcx : config.complexNumber = false)
    (hb : bs.flatMap Named.names = ["+", "-", "*", "/", "^", "mod"].map str) (hu : us.flatMap Named.names = ["+", "-", "!"].map str)
    (hp : ∃ p, lookup hashSame us ['+'] = some ⟨.pre, p⟩)
    (hnames : ∀ w ∈ arithWords, lookupConstant hashSame cs w = none ∧ lookup hashSame fs w = none)
    (parse : Str → Option N) (lit : N → Str) (hparse : ∀ w ∈ arithWords, parse w = none) (e : Arith N)
    (hlit : ∀ n, .number n ∈ e.tokens → parse (lit n) = some n ∧ split defaultRules (lit n) = [lit n]) (s : Str) (hsp : Spaced (e.tokens.map (wordOf lit)) s) :
    eval parse (split defaultRules) (tablesCtx config cs bs us fs) s = e.value A := by
  have hlex := school_lexical hs.toOperators (by rw [hb]; exact fun _ h => h) (by rw [hu]; exact fun _ h => h) hp
  have hbang : lookup hashSame us ['!'] ≠ none := by
    have : lookup hashSame us ['!'] = some _ := hs.fact
    rw [this]; simp
  have hst := school_stands hs.toOperators (by rw [hb]; exact fun _ h => h) (by rw [hu]; exact fun _ h => h) hnames parse lit hparse
  have hst : ∀ t ∈ e.tokens, ArToken t → StandsFor parse (tablesCtx config cs bs us fs) (wordOf lit t) t ∧
      split defaultRules (wordOf lit t) = [wordOf lit t] := by
    intro t hm ht
    obtain ⟨h1, h2⟩ := hst t ht (fun _ => hbang) (fun n hn => (hlit n (by rw [← hn]; exact hm)).1)
    refine ⟨h1, ?_⟩
    cases t with
    | number n => exact (hlit n hm).2
    | _ => exact (h2 rfl).1
  have := C23_spaced_text parse defaultRules_good defaultRules_skips (tablesCtx config cs bs us fs) hcx hlex e.toExpr (e.toExpr_wf hs)
    e.toExpr_plain (e.tokens.map (wordOf lit)) s (by
      intro w hw
      obtain ⟨t, ht, rfl⟩ := List.mem_map.mp hw
      exact (hst t ht (e.tokens_ar t ht)).2) (by
      rw [e.toExpr_render]
      exact pairwise2_map _ fun t ht => (hst t ht (e.tokens_ar t ht)).1) hsp
  rw [this, e.toExpr_denote hs]

/-- C32, from text. In the checked context an arithmetic tree, written as text with white space between the words, evaluates to its value.
The number type must parse the literals `lit n` of the numbers that occur, and must not parse an operator or a bracket as a number. -/
theorem C32_checked_text (K : Keys) (debug docs : Bool) (f : F64 F) (num : Num N F) (config : Config)
    (hcx : config.complexNumber = false) (c : Context N) (hc : Context.checked K debug docs f num config = .ok c)
    (parse : Str → Option N) (lit : N → Str) (hparse : ∀ w ∈ arithWords, parse w = none) (e : Arith N)
    (hlit : ∀ n, .number n ∈ e.tokens → parse (lit n) = some n ∧ split defaultRules (lit n) = [lit n]) (s : Str) (hsp : Spaced (e.tokens.map (wordOf lit)) s) :
    eval parse (split defaultRules) (c.view K) s = e.value (checkedArithmetic f num) := by
  cases hpi : num.fromF64 f.pi with
  | none => simp [Context.checked, hpi] at hc
  | some pi =>
    cases he : num.fromF64 f.e with
    | none => simp [Context.checked, hpi, he] at hc
    | some ee =>
      obtain ⟨c', hc', hv⟩ := checked_build K debug docs f num config pi ee hpi he
      rw [hc] at hc'
      cases hc'
      rw [hv]
      refine school_text (checked_school _ _ _ f num) hcx rfl rfl ⟨_, rfl⟩ ?_ parse lit hparse e hlit s hsp
      intro w hw
      have hk : ∀ w ∈ arithWords, (((checkedFunctionNames docs).map str).any (fun n => hashSame n w) = false) ∧
          hashSame (str "PI") w = false ∧ hashSame (str "E") w = false := by
        cases docs <;> decide +kernel
      obtain ⟨h1, h2, h3⟩ := hk w hw
      constructor
      · simp [lookupConstant, List.find?_cons, h2, h3]
      · cases hl : lookup hashSame (Ops.checkedFunctions docs f num) w with
        | none => rfl
        | some g =>
          have h4 : (lookup hashSame (Ops.checkedFunctions docs f num) w).isSome = true := by rw [hl]; rfl
          rw [lookup_isSome, checkedFunctions_names, ← List.any_eq_true, h1] at h4
          cases h4

/-- C32 for the unchecked context, from text. -/
theorem C32_unchecked_text (K : Keys) (debug : Bool) (f : F64 F) (num : Num N F) (config : Config)
    (hcx : config.complexNumber = false) (c : Context N) (hc : Context.unchecked K debug f num config = .ok c)
    (parse : Str → Option N) (lit : N → Str) (hparse : ∀ w ∈ arithWords, parse w = none) (e : Arith N)
    (hlit : ∀ n, .number n ∈ e.tokens → parse (lit n) = some n ∧ split defaultRules (lit n) = [lit n]) (s : Str) (hsp : Spaced (e.tokens.map (wordOf lit)) s) :
    eval parse (split defaultRules) (c.view K) s = e.value (uncheckedArithmetic f num) := by
  cases hpi : num.fromF64 f.pi with
  | none => simp [Context.unchecked, hpi] at hc
  | some pi =>
    cases he : num.fromF64 f.e with
    | none => simp [Context.unchecked, hpi, he] at hc
    | some ee =>
      obtain ⟨c', hc', hv⟩ := unchecked_build K debug f num config pi ee hpi he
      rw [hc] at hc'
      cases hc'
      rw [hv]
      refine school_text (unchecked_school _ _ _ f num) hcx rfl rfl ⟨_, rfl⟩ ?_ parse lit hparse e hlit s hsp
      intro w hw
      have hk : ∀ w ∈ arithWords, ((uncheckedFunctionNames.map str).any (fun n => hashSame n w) = false) ∧
          hashSame (str "PI") w = false ∧ hashSame (str "E") w = false := by decide +kernel
      obtain ⟨h1, h2, h3⟩ := hk w hw
      constructor
      · simp [lookupConstant, List.find?_cons, h2, h3]
      · cases hl : lookup hashSame (Ops.uncheckedFunctions f num) w with
        | none => rfl
        | some g =>
          have h4 : (lookup hashSame (Ops.uncheckedFunctions f num) w).isSome = true := by rw [hl]; rfl
          rw [lookup_isSome, uncheckedFunctions_names, ← List.any_eq_true, h1] at h4
          cases h4

/-- `2 - 3 - (4 + 1) * 2 ^ 3 ^ -1!`, fully bracketed as `((2 - 3) - ((4 + 1) * (2 ^ (3 ^ ((-1)!)))))`; a sign below a factorial gets brackets. -/
def sampleArith : Arith (SInt i32) :=
  .bin .sub (.bin .sub (.num (Demo.i32 2)) (.num (Demo.i32 3)))
    (.bin .mul (.bin .add (.num (Demo.i32 4)) (.num (Demo.i32 1)))
      (.bin .pow (.num (Demo.i32 2)) (.bin .pow (.num (Demo.i32 3)) (.fact (.neg (.num (Demo.i32 1)))))))

example : sampleArith.tokens =
    [.number (Demo.i32 2), .binary ['-'], .number (Demo.i32 3), .binary ['-'], .gopen '(', .number (Demo.i32 4), .binary ['+'],
     .number (Demo.i32 1), .gclose ')', .binary ['*'], .number (Demo.i32 2), .binary ['^'], .number (Demo.i32 3), .binary ['^'],
     .gopen '(', .unary ['-'], .number (Demo.i32 1), .gclose ')', .unary ['!']] := by decide

example : ∃ c, Context.checked Demo.keys true true Demo.float (Demo.int i32 true) Config.new = .ok c ∧
    evalTokens (c.view Demo.keys) sampleArith.tokens = .err .negativeValue := by
  obtain ⟨c, hc, -⟩ := checked_build Demo.keys true true Demo.float (Demo.int i32 true) Config.new (Demo.i32 3) (Demo.i32 2)
    (by decide) (by decide)
  exact ⟨c, hc, (C32_checked Demo.keys true true Demo.float _ Config.new c hc [] sampleArith).trans (by decide)⟩

/-! ## C56: how far a sign in front of a bracket reaches -/

/-- C56, what the code does: a prefix operator in front of anything but a word takes everything to the end of the group as its operand,
whatever operators follow. -/
theorem C56_reaches_end (ctx : Ctx N) (u : Str) (f : UnFn N) (hu : ctx.getUnary u = some f) (hf : f.notation_ = .pre) (e : Expr N)
    (he : e.WF ctx) (hs : ¬ e.startsWithAtom) : evalTokens ctx (.unary u :: e.render) = (e.denote ctx).bind f.call := by
  refine (C01_eval_eq_denote ctx (.prefixed u e) ⟨⟨f, hu, hf⟩, hs, he⟩).trans ?_
  simp [Expr.denote, hu, Res.ofOption]

/-- C56, the part that holds: a sign in front of a bracket that reaches the end of the expression. Missing: anything behind the bracket, see
the counterexample. -/
theorem C56_sign_bracket_partial (K : Keys) (debug docs : Bool) (f : F64 F) (num : Num N F) (config : Config) (c : Context N)
    (hc : Context.checked K debug docs f num config = .ok c) (os : List (Op N)) (e : Arith N) :
    evalTokens ((c.runAll K debug os).view K) (.unary ['-'] :: bracketed e.tokens) =
      (e.value (checkedArithmetic f num)).bind fun x => Res.ofOption (num.checkedNeg x) .overflow := by
  have hs : School (c.view K) (checkedArithmetic f num) := by
    cases hpi : num.fromF64 f.pi with
    | none => simp [Context.checked, hpi] at hc
    | some pi =>
      cases he : num.fromF64 f.e with
      | none => simp [Context.checked, hpi, he] at hc
      | some e =>
        obtain ⟨c', hc', hv⟩ := checked_build K debug docs f num config pi e hpi he
        rw [hc] at hc'
        cases hc'
        rw [hv]
        exact checked_school _ _ _ _ _
  have hs' := hs.runAll debug os
  have := C56_reaches_end _ ['-'] _ hs'.neg rfl (.paren .parenthesis e.toExpr) (e.toExpr_wf hs') (by simp [Expr.startsWithAtom])
  simp only [Expr.render, e.toExpr_render, Expr.denote, e.toExpr_denote hs'] at this
  exact this

/-- C56 is false: `-(2 + 3) + 4` is -9 in the built-in context, not -1. -/
theorem C56_sign_bracket_counterexample (K : Keys) (debug docs : Bool) (config : Config) :
    ∃ c, Context.checked K debug docs Demo.float (Demo.int i32 debug) config = .ok c ∧
      evalTokens (c.view K) [.unary ['-'], .gopen '(', .number (Demo.i32 2), .binary ['+'], .number (Demo.i32 3), .gclose ')',
        .binary ['+'], .number (Demo.i32 4)] = .ok (Demo.i32 (-9)) := by
  obtain ⟨c, hc, hv⟩ := checked_build K debug docs Demo.float (Demo.int i32 debug) config (Demo.i32 3) (Demo.i32 2)
    (by cases debug <;> decide) (by cases debug <;> decide)
  refine ⟨c, hc, ?_⟩
  have hs : School (c.view K) (checkedArithmetic Demo.float (Demo.int i32 debug)) := by rw [hv]; exact checked_school _ _ _ _ _
  have hp : (c.view K).getBinary ['+'] = some _ := hs.binary .add
  have := C56_reaches_end (c.view K) ['-'] _ hs.neg rfl
    (.bin ['+'] (.paren .parenthesis (.bin ['+'] (.atom (.num (Demo.i32 2))) (.atom (.num (Demo.i32 3))))) (.atom (.num (Demo.i32 4))))
    ⟨⟨_, hp⟩, by simp [Expr.rightSpine], by simp [Expr.leftSpine],
      ⟨⟨_, hp⟩, by simp [Expr.rightSpine], by simp [Expr.leftSpine], trivial, trivial⟩, trivial⟩ (by simp [Expr.startsWithAtom])
  refine this.trans ?_
  simp only [Expr.denote, Atom.denote, hp, Res.ofOption, Res.bind_eq, Res.bind_ok]
  cases debug <;> decide

end Prexel
