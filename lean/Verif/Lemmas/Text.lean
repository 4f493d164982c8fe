import Verif.Lemmas.Tokenizer
/-!
# Lemmas: tokenizing the words of an expression
-/

set_option linter.unusedVariables false
set_option linter.unusedSimpArgs false

namespace Prexel
variable {N : Type}

/-- What came before, as far as operators are concerned. -/
inductive Kind
  | start
  | fn
  | done
  | post
  deriving DecidableEq

/-- The tokenizer does not take the operator for a postfix operator. -/
def NicePrefix (ctx : Ctx N) (u : Str) : Prop := ∀ c t, u = c :: t → (ctx.getUnary [c] = none ∨ ctx.getBinary [c] ≠ none)

open Classical in
/-- The kind after a token. -/
noncomputable def Kind.after (ctx : Ctx N) : Token N → Kind
  | .number _ => .done
  | .variable_ _ => .done
  | .constant _ => .done
  | .gclose _ => .done
  | .function _ => .fn
  | .unary u => if (ctx.getUnary u).any (fun f => f.notation_ = .post) then .post else if NicePrefix ctx u then .start else .fn
  | _ => .start

/-- The operator tokens stand where the tokenizer reads them that way. -/
def OKSeq (ctx : Ctx N) : Kind → List (Token N) → Prop
  | _, [] => True
  | k, t :: rest =>
    (match t with
      | .unary u => ∃ f, ctx.getUnary u = some f ∧ (f.notation_ = .pre → k = .start ∧ rest ≠ []) ∧ (f.notation_ = .post → k = .done)
      | .binary o => ctx.getBinary o ≠ none ∧ (k = .done ∨ k = .post) ∧ rest ≠ []
      | .unknown _ => False
      | .argCount _ => False
      | _ => True) ∧ OKSeq ctx (Kind.after ctx t) rest

/-- Which previous words are of which kind. -/
def PrevOK (parse : Str → Option N) (ctx : Ctx N) : Option Str → Kind → Prop
  | none, k => k = .start
  | some p, .start => (∀ c, p = [c] → c ∉ [')', ']', '}'] ∧ isAsciiPunctuation c = true) ∧ parse p = none ∧ ctx.getVariable p = none ∧
      ctx.getConstant p = none ∧ ∃ c t, p = c :: t ∧ c.toNat < 128 ∧ (ctx.getUnary [c] = none ∨ ctx.getBinary [c] ≠ none)
  | some p, .fn => True
  | some p, .done => (∃ c, p = [c] ∧ c ∈ [')', ']', '}']) ∨ parse p ≠ none ∨ ctx.getVariable p ≠ none ∨ ctx.getConstant p ≠ none
  | some p, .post => parse p = none ∧ ctx.getVariable p = none ∧ ctx.getConstant p = none ∧
      ∃ c t, p = c :: t ∧ c.toNat < 128 ∧ ctx.getUnary [c] ≠ none ∧ ctx.getBinary [c] = none

theorem ne_none_isSome {α : Type} {o : Option α} (h : o ≠ none) : o.isSome = true := by cases o <;> simp_all

theorem isGroupClose_iff (cfg : Config) (c : Char) : cfg.isGroupClose c = true ↔ c ∈ [')', ']', '}'] := by
  unfold Config.isGroupClose Grouping.new
  simp only [List.mem_cons, List.not_mem_nil, or_false]
  constructor
  · split
    · rename_i h; rcases h with rfl | rfl <;> simp [Grouping.cls]
    · split
      · rename_i h; rcases h with rfl | rfl <;> simp [Grouping.cls]
      · split
        · rename_i h; rcases h with rfl | rfl <;> simp [Grouping.cls]
        · simp
  · rintro (rfl | rfl | rfl) <;> decide

theorem singleChar_close (cfg : Config) (p : Str) :
    ((singleChar p).any (cfg.isGroupClose ·)) = true ↔ ∃ c, p = [c] ∧ c ∈ [')', ']', '}'] := by
  rcases p with _ | ⟨c, _ | ⟨d, t⟩⟩
  · simp [singleChar]
  · simp only [singleChar, Option.any_some, isGroupClose_iff]
    simp
  · simp [singleChar]

theorem isUnaryOp_pre_start {parse : Str → Option N} {ctx : Ctx N} {prev : Option Str} {w nx : Str} {f : UnFn N}
    (hf : ctx.getUnary w = some f) (hn : f.notation_ = .pre) (hp : PrevOK parse ctx prev .start) :
    isUnaryOp parse ctx prev w (some nx) = .ok true := by
  unfold isUnaryOp
  simp only [hf, hn, Option.isNone_some, Bool.false_eq_true, if_false]
  cases prev with
  | none => rfl
  | some p =>
    obtain ⟨h1, h2, h3, h4, c, t, rfl, h5, h6⟩ := hp
    have hsc : ((singleChar (c :: t)).any (ctx.config.isGroupClose ·)) = false := by
      rw [Bool.eq_false_iff, ne_eq, singleChar_close]
      rintro ⟨x, hx, hm⟩
      exact (h1 x hx).1 hm
    simp only [hsc, Bool.false_eq_true, if_false, h2, Ctx.isVariable, h3, Ctx.isConstant, h4, Option.isSome_none, Bool.or_self,
      firstByte, h5, if_true, Res.bind_ok, Ctx.isUnary, Ctx.isBinary]
    have : ((ctx.getUnary [c]).isSome && !(ctx.getBinary [c]).isSome) = false := by
      rcases h6 with h6 | h6
      · simp [h6]
      · simp [ne_none_isSome h6]
    simp only [this, Bool.false_eq_true, if_false]
    cases t with
    | nil => simp [(h1 c rfl).2]
    | cons d t => simp

theorem isUnaryOp_pre_not {parse : Str → Option N} {ctx : Ctx N} {p w nx : Str} {f : UnFn N} {k : Kind}
    (hf : ctx.getUnary w = some f) (hn : f.notation_ = .pre) (hk : k = .done ∨ k = .post) (hp : PrevOK parse ctx (some p) k) :
    isUnaryOp parse ctx (some p) w (some nx) = .ok false := by
  unfold isUnaryOp
  simp only [hf, hn, Option.isNone_some, Bool.false_eq_true, if_false]
  split
  · rfl
  · rename_i hsc
    rw [singleChar_close] at hsc
    split
    · rfl
    · rename_i hv
      rcases hk with rfl | rfl
      · exfalso
        rcases hp with hp | hp | hp | hp
        · exact hsc hp
        · simp [ne_none_isSome hp] at hv
        · simp [Ctx.isVariable, ne_none_isSome hp] at hv
        · simp [Ctx.isConstant, ne_none_isSome hp] at hv
      · obtain ⟨_, _, _, c, t, rfl, h1, h2, h3⟩ := hp
        simp [firstByte, h1, Ctx.isUnary, Ctx.isBinary, ne_none_isSome h2, h3]

theorem isUnaryOp_post_done {parse : Str → Option N} {ctx : Ctx N} {prev : Option Str} {w : Str} {nx : Option Str} {f : UnFn N}
    (hf : ctx.getUnary w = some f) (hn : f.notation_ = .post) (hp : PrevOK parse ctx prev .done) :
    isUnaryOp parse ctx prev w nx = .ok true := by
  unfold isUnaryOp
  simp only [hf, hn]
  cases prev with
  | none => cases hp
  | some p =>
    simp only
    split
    · rfl
    · rename_i hsc
      rw [singleChar_close] at hsc
      rcases hp with hp | hp | hp | hp
      · exact absurd hp hsc
      · simp [ne_none_isSome hp]
      · simp [Ctx.isVariable, ne_none_isSome hp]
      · simp [Ctx.isConstant, ne_none_isSome hp]

/-- The last branch of the tokenizer on brackets and commas. -/
theorem otherToken_of_standsFor {parse : Str → Option N} {ctx : Ctx N} {w : Str} {t : Token N} (h : StandsFor parse ctx w t)
    (ht : t = .comma ∨ (∃ c, t = .gopen c) ∨ ∃ c, t = .gclose c) : otherToken ctx w = some t := by
  rcases ht with rfl | ⟨c, rfl⟩ | ⟨c, rfl⟩
  · obtain ⟨rfl, _⟩ := h
    simp [otherToken]
  · obtain ⟨rfl, hc, _⟩ := h
    simp only [List.mem_cons, List.not_mem_nil, or_false] at hc
    rcases hc with rfl | rfl | rfl <;> simp [otherToken, Config.getGroupSymbol, Grouping.new, Grouping.symbols, Grouping.opn, Grouping.cls]
  · obtain ⟨rfl, hc, _⟩ := h
    simp only [List.mem_cons, List.not_mem_nil, or_false] at hc
    rcases hc with rfl | rfl | rfl <;> simp [otherToken, Config.getGroupSymbol, Grouping.new, Grouping.symbols, Grouping.opn, Grouping.cls]

theorem tokenizeLoop_okSeq {parse : Str → Option N} {ctx : Ctx N} (hc : ctx.config.complexNumber = false) (hl : Lexical ctx) {ws : List Str}
    {ts : List (Token N)} (h : Pairwise2 (StandsFor parse ctx) ws ts) {prev : Option Str} {k : Kind} (hp : PrevOK parse ctx prev k)
    (ho : OKSeq ctx k ts) : tokenizeLoop parse ctx prev ws = .ok ts := by
  induction h generalizing prev k with
  | nil => rfl
  | @cons w t ws ts hst hrest ih =>
    obtain ⟨h1, h2⟩ := ho
    have hemp : ws.isEmpty = ts.isEmpty := by cases hrest <;> rfl
    unfold tokenizeLoop
    cases t with
    | number n =>
      have hpw : parse w = some n := hst
      simp only [hpw]
      have := ih (prev := some w) (k := .done) (.inr (.inl (by rw [hpw]; simp))) h2
      cases ws with
      | nil => cases hrest; rfl
      | cons w' ws => simp only [hc, Bool.false_and, Bool.false_eq_true, if_false, this, Res.bind_ok]
    | variable_ s =>
      obtain ⟨rfl, a, b⟩ := hst
      simp only [a, Ctx.isVariable, ne_none_isSome b, if_true]
      rw [ih (prev := some s) (k := .done) (.inr (.inr (.inl b))) h2]; rfl
    | constant s =>
      obtain ⟨rfl, a, b, c⟩ := hst
      simp only [a, Ctx.isVariable, b, Option.isSome_none, Bool.false_eq_true, if_false, Ctx.isConstant, ne_none_isSome c, if_true]
      rw [ih (prev := some s) (k := .done) (.inr (.inr (.inr c))) h2]; rfl
    | function s =>
      obtain ⟨rfl, a, b, c, d⟩ := hst
      simp only [a, Ctx.isVariable, b, Option.isSome_none, Bool.false_eq_true, if_false, Ctx.isConstant, c, Ctx.isFunction,
        ne_none_isSome d, if_true]
      rw [ih (prev := some s) (k := .fn) trivial h2]; rfl
    | unary u =>
      obtain ⟨rfl, ⟨a, b, c, d⟩, e⟩ := hst
      obtain ⟨f, hf, hpre, hpost⟩ := h1
      simp only [a, Ctx.isVariable, b, Option.isSome_none, Bool.false_eq_true, if_false, Ctx.isConstant, c, Ctx.isFunction, d,
        Ctx.isUnary, hf, Option.isSome_some, Bool.or_true, if_true]
      have hop : operatorToken parse ctx prev u ws.isEmpty = .ok (.unary u) := by
        unfold operatorToken
        cases hn : f.notation_ with
        | pre =>
          obtain ⟨rfl, hne⟩ := hpre hn
          have : ws.isEmpty = false := by rw [hemp]; cases ts <;> simp_all
          simp only [this, Bool.false_eq_true, if_false]
          rw [isUnaryOp_pre_start hf hn hp]; rfl
        | post =>
          have hk := hpost hn
          subst hk
          simp only
          rw [isUnaryOp_post_done hf hn hp]; rfl
      rw [hop, Res.bind_ok]
      have hasc := hl.ascii u (.inl (by rw [hf]; simp))
      obtain ⟨x, t, rfl, hx⟩ := hasc
      have hnext : PrevOK parse ctx (some (x :: t)) (Kind.after ctx (.unary (x :: t) : Token N)) := by
        cases hn : f.notation_ with
        | pre =>
          simp only [Kind.after, hf, Option.any_some, hn, reduceCtorEq, decide_false, Bool.false_eq_true, if_false]
          split
          case isFalse => trivial
          case isTrue hnice =>
          refine ⟨?_, a, b, c, x, t, rfl, hx, hnice x t rfl⟩
          intro y hy
          cases hy
          have := hl.punct x (.inl (by rw [hf]; simp))
          exact ⟨this.2, this.1⟩
        | post =>
          simp only [Kind.after, hf, Option.any_some, hn, decide_true, if_true]
          have := hl.postfix_ x t f hf hn
          exact ⟨a, b, c, x, t, rfl, hx, this.1, this.2.1⟩
      rw [ih hnext h2]; rfl
    | binary o =>
      obtain ⟨rfl, ⟨a, b, c, d⟩, e⟩ := hst
      obtain ⟨hb, hk, hne⟩ := h1
      simp only [a, Ctx.isVariable, b, Option.isSome_none, Bool.false_eq_true, if_false, Ctx.isConstant, c, Ctx.isFunction, d,
        Ctx.isBinary, ne_none_isSome hb, Bool.true_or, if_true]
      have hasc := hl.ascii o (.inr hb)
      obtain ⟨x, t, rfl, hx⟩ := hasc
      have hop : operatorToken parse ctx prev (x :: t) ws.isEmpty = .ok (.binary (x :: t)) := by
        have hwe : ws.isEmpty = false := by rw [hemp]; cases ts <;> simp_all
        unfold operatorToken
        simp only [hwe, Bool.false_eq_true, if_false]
        cases prev with
        | none => cases hp; simp at hk
        | some p =>
          have : isUnaryOp parse ctx (some p) (x :: t) (some (x :: t)) = .ok false := by
            cases hf : ctx.getUnary (x :: t) with
            | none => simp [isUnaryOp, hf]
            | some f =>
              cases hn : f.notation_ with
              | pre => exact isUnaryOp_pre_not hf hn hk hp
              | post => exact absurd (hl.postfix_ x t f hf hn).2.2 hb
          rw [this]; rfl
      rw [hop, Res.bind_ok]
      have hnext : PrevOK parse ctx (some (x :: t)) .start := by
        refine ⟨?_, a, b, c, x, t, rfl, hx, hl.binary x t hb⟩
        intro y hy
        cases hy
        have := hl.punct x (.inr hb)
        exact ⟨this.2, this.1⟩
      rw [ih hnext h2]; rfl
    | comma =>
      have hot := otherToken_of_standsFor hst (.inl rfl)
      obtain ⟨rfl, ⟨⟨a, b, c, d⟩, e, f⟩⟩ := hst
      simp only [a, Ctx.isVariable, b, Option.isSome_none, Bool.false_eq_true, if_false, Ctx.isConstant, c, Ctx.isFunction, d,
        Ctx.isBinary, Ctx.isUnary, e, f, Bool.or_self, hot]
      have hnext : PrevOK parse ctx (some [',']) .start := by
        refine ⟨?_, a, b, c, ',', [], rfl, by decide, .inl e⟩
        intro y hy
        cases hy
        exact ⟨by decide, by decide⟩
      rw [ih hnext h2]; rfl
    | gopen g =>
      have hot := otherToken_of_standsFor hst (.inr (.inl ⟨g, rfl⟩))
      obtain ⟨rfl, hg, ⟨⟨a, b, c, d⟩, e, f⟩⟩ := hst
      simp only [a, Ctx.isVariable, b, Option.isSome_none, Bool.false_eq_true, if_false, Ctx.isConstant, c, Ctx.isFunction, d,
        Ctx.isBinary, Ctx.isUnary, e, f, Bool.or_self, hot]
      have hnext : PrevOK parse ctx (some [g]) .start := by
        have hg' : g.toNat < 128 ∧ g ∉ [')', ']', '}'] ∧ isAsciiPunctuation g = true := by
          simp only [List.mem_cons, List.not_mem_nil, or_false] at hg
          rcases hg with rfl | rfl | rfl <;> decide
        refine ⟨?_, a, b, c, g, [], rfl, hg'.1, .inl e⟩
        intro y hy
        cases hy
        exact hg'.2
      rw [ih hnext h2]; rfl
    | gclose g =>
      have hot := otherToken_of_standsFor hst (.inr (.inr ⟨g, rfl⟩))
      obtain ⟨rfl, hg, ⟨⟨a, b, c, d⟩, e, f⟩⟩ := hst
      simp only [a, Ctx.isVariable, b, Option.isSome_none, Bool.false_eq_true, if_false, Ctx.isConstant, c, Ctx.isFunction, d,
        Ctx.isBinary, Ctx.isUnary, e, f, Bool.or_self, hot]
      rw [ih (prev := some [g]) (k := .done) (.inl ⟨g, rfl, hg⟩) h2]; rfl
    | unknown s => exact absurd h1 id
    | argCount n => exact absurd h1 id

/-! ## The tokens of an expression -/

/-- The kind after an expression. -/
def Expr.endKind : Expr N → Kind
  | .prefixed _ e => e.endKind
  | .postfixed _ _ => .post
  | .bin _ _ r => r.endKind
  | .imp _ r => r.endKind
  | _ => .done

def Args.endKind : Args N → Kind
  | .one e => e.endKind
  | .more _ rest => rest.endKind

theorem Expr.endKind_cases (e : Expr N) : e.endKind = .done ∨ e.endKind = .post := by
  refine Expr.rec (motive_1 := fun e => e.endKind = .done ∨ e.endKind = .post) (motive_2 := fun _ => True)
    ?_ ?_ ?_ ?_ ?_ ?_ ?_ ?_ ?_ ?_ e <;> simp_all [Expr.endKind]

theorem Expr.impRight_noSign (e : Expr N) (p : Prop) (h : e.impRight p) : e.noSign := by
  suffices ∀ e : Expr N, e.impRight p → e.noSign from this e h
  intro e
  refine Expr.rec (motive_1 := fun e => e.impRight p → e.noSign) (motive_2 := fun _ => True)
    ?_ ?_ ?_ ?_ ?_ ?_ ?_ ?_ ?_ ?_ e <;> simp_all [Expr.impRight, Expr.noSign]

theorem Expr.render_ne_nil (e : Expr N) : e.render ≠ [] := by
  refine Expr.rec (motive_1 := fun e => e.render ≠ []) (motive_2 := fun _ => True)
    ?_ ?_ ?_ ?_ ?_ ?_ ?_ ?_ ?_ ?_ e <;> simp_all [Expr.render]

theorem Expr.append_ne_nil (e : Expr N) (l : List (Token N)) : e.render ++ l ≠ [] := by
  simp [e.render_ne_nil]

theorem okSeq_atom {ctx : Ctx N} {k : Kind} {a : Atom N} {rest : List (Token N)} (h : OKSeq ctx .done rest) :
    OKSeq ctx k (a.token :: rest) := by
  cases a <;> exact ⟨trivial, h⟩

theorem okSeq_post {ctx : Ctx N} {rest : List (Token N)} (h : OKSeq ctx .post rest) : OKSeq ctx .done rest := by
  cases rest with
  | nil => trivial
  | cons t rest =>
    obtain ⟨h1, h2⟩ := h
    refine ⟨?_, h2⟩
    cases t <;> try trivial
    · obtain ⟨a, b, c⟩ := h1; exact ⟨a, .inl rfl, c⟩
    · obtain ⟨f, a, b, c⟩ := h1
      refine ⟨f, a, ?_, fun _ => rfl⟩
      intro hf
      have := (b hf).1
      cases this

mutual
theorem okSeq_expr (ctx : Ctx N) : (e : Expr N) → e.WF ctx → e.Plain ctx → ∀ (k : Kind) (rest : List (Token N)),
    (k = .start ∨ e.noSign) → OKSeq ctx e.endKind rest → OKSeq ctx k (e.render ++ rest)
  | .atom a, _, _ => fun k rest _ hr => okSeq_atom hr
  | .signed u a, hw, _ => fun k rest hk hr => by
    obtain ⟨f, hf, hn⟩ := hw
    rcases hk with rfl | hk
    · refine ⟨⟨f, hf, fun _ => ⟨rfl, by simp⟩, fun h => by rw [hn] at h; cases h⟩, ?_⟩
      exact okSeq_atom hr
    · exact absurd hk (by simp [Expr.noSign])
  | .prefixed u e, hw, hp => fun k rest hk hr => by
    obtain ⟨⟨f, hf, hn⟩, hs, hw⟩ := hw
    rcases hk with rfl | hk
    · refine ⟨⟨f, hf, fun _ => ⟨rfl, e.append_ne_nil rest⟩, fun h => by rw [hn] at h; cases h⟩, ?_⟩
      simp only [Expr.Plain] at hp
      refine okSeq_expr ctx e hw hp.2 _ rest ?_ hr
      rcases hp.1 with hns | hnice
      · exact .inr hns
      · have hnice : NicePrefix ctx u := hnice
        exact .inl (by simp [Kind.after, hf, hn, hnice])
    · exact absurd hk (by simp [Expr.noSign])
  | .postfixed p e, hw, hp => fun k rest hk hr => by
    obtain ⟨⟨f, hf, hn⟩, hpr, hw⟩ := hw
    simp only [Expr.Plain] at hp
    rw [Expr.render, List.append_assoc]
    refine okSeq_expr ctx e hw hp.2 k _ hk ?_
    have hek : e.endKind = .done := by
      cases e with
      | postfixed p' e' => exact absurd rfl (hp.1 p' e')
      | atom => rfl
      | signed => rfl
      | paren => rfl
      | call => rfl
      | prefixed => exact absurd hpr (by simp [Expr.primary])
      | bin => exact absurd hpr (by simp [Expr.primary])
      | imp => exact absurd hpr (by simp [Expr.primary])
    rw [hek]
    refine ⟨⟨f, hf, (fun h => by rw [hn] at h; cases h), fun _ => rfl⟩, ?_⟩
    have : Kind.after ctx (.unary p : Token N) = .post := by simp [Kind.after, hf, hn]
    rw [this]
    exact hr
  | .paren g e, hw, hp => fun k rest hk hr => by
    rw [Expr.render, List.cons_append, List.append_assoc]
    refine ⟨trivial, ?_⟩
    refine okSeq_expr ctx e (by simpa [Expr.WF] using hw) (by simpa [Expr.Plain] using hp) .start _ (.inl rfl) ?_
    have : OKSeq ctx e.endKind (.gclose g.cls :: rest) := ⟨trivial, hr⟩
    simpa using this
  | .call f g args, hw, hp => fun k rest hk hr => by
    rw [Expr.render, List.cons_append, List.cons_append, List.append_assoc]
    refine ⟨trivial, trivial, ?_⟩
    refine okSeq_args ctx args hw.2 (by simpa [Expr.Plain] using hp) _ ?_
    have : OKSeq ctx args.endKind (.gclose g.cls :: rest) := ⟨trivial, hr⟩
    simpa using this
  | .bin o l r, hw, hp => fun k rest hk hr => by
    obtain ⟨⟨f, hf⟩, _, _, hl, hr'⟩ := hw
    simp only [Expr.Plain] at hp
    rw [Expr.render, List.append_assoc, List.cons_append]
    refine okSeq_expr ctx l hl hp.1 k _ (by simpa [Expr.noSign] using hk) ?_
    refine ⟨⟨by rw [hf]; simp, l.endKind_cases, r.append_ne_nil rest⟩, ?_⟩
    exact okSeq_expr ctx r hr' hp.2 .start rest (.inl rfl) hr
  | .imp l r, hw, hp => fun k rest hk hr => by
    obtain ⟨_, hil, hir, _, hl, hr'⟩ := hw
    simp only [Expr.Plain] at hp
    rw [Expr.render, List.append_assoc]
    refine okSeq_expr ctx l hl hp.1 k _ (by simpa [Expr.noSign] using hk) ?_
    exact okSeq_expr ctx r hr' hp.2 _ rest (.inr (r.impRight_noSign _ hir)) hr
theorem okSeq_args (ctx : Ctx N) : (a : Args N) → a.WF ctx → a.Plain ctx → ∀ (rest : List (Token N)), OKSeq ctx a.endKind rest →
    OKSeq ctx .start (a.render ++ rest)
  | .one e, hw, hp => fun rest hr => okSeq_expr ctx e (by simpa [Args.WF] using hw) (by simpa [Args.Plain] using hp) .start rest (.inl rfl) hr
  | .more e more, hw, hp => fun rest hr => by
    simp only [Args.WF] at hw
    simp only [Args.Plain] at hp
    rw [Args.render, List.append_assoc, List.cons_append]
    refine okSeq_expr ctx e hw.1 hp.1 .start _ (.inl rfl) ?_
    exact ⟨trivial, okSeq_args ctx more hw.2 hp.2 rest hr⟩
end

theorem tokenizeLoop_render {parse : Str → Option N} {ctx : Ctx N} (hc : ctx.config.complexNumber = false) (hl : Lexical ctx)
    (e : Expr N) (hw : e.WF ctx) (hp : e.Plain ctx) {ws : List Str} (h : Pairwise2 (StandsFor parse ctx) ws e.render) :
    tokenizeLoop parse ctx none ws = .ok e.render := by
  refine tokenizeLoop_okSeq hc hl h (k := .start) rfl ?_
  have := okSeq_expr ctx e hw hp .start [] (.inl rfl) trivial
  simpa using this

end Prexel
