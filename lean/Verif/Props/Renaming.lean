import Verif.Lemmas.Renaming
import Verif.Props.Context
/-!
# C117: all names of a thing are equally good
-/

set_option linter.unusedSimpArgs false

namespace Prexel
variable {N : Type}

/-- C117. Two lists of tokens that differ only in which names are used for the same functions, operators, variables and constants evaluate
alike: the same value, the same error, or both panic. -/
theorem C117_tokens (ctx : Ctx N) (ts us : List (Token N)) (h : Pairwise2 (Renamed ctx) ts us) : evalTokens ctx ts = evalTokens ctx us :=
  evalTokens_ren h

theorem CommonWord.ne_i {parse : Str → Option N} {ctx : Ctx N} {w : Str} (h : CommonWord parse ctx w) : w ≠ ['i'] := by
  rintro rfl
  rcases h.long with h | ⟨c, h, h', -⟩
  · simp at h
  · cases h; revert h'; decide

theorem CommonWord.close {parse : Str → Option N} {ctx : Ctx N} {w : Str} (h : CommonWord parse ctx w) :
    (singleChar w).any (ctx.config.isGroupClose ·) = false := by
  rcases h.long with h | ⟨c, rfl, -, h⟩
  · match w, h with
    | _ :: _ :: _, _ => rfl
  · simp [singleChar, h]

theorem CommonWord.before {parse : Str → Option N} {ctx : Ctx N} {w : Str} (h : CommonWord parse ctx w) (f : Str → Res Bool)
    (hf : ∀ b, f b = if ctx.isUnary b && !ctx.isBinary b then .ok false else match (generalizing := false) w with
              | [c] => .ok (isAsciiPunctuation c)
              | _ => .ok true) : (firstByte w).bind f = .ok true := by
  obtain ⟨c, r, rfl, hc, hu⟩ := h.first
  have : (ctx.isUnary [c] && !ctx.isBinary [c]) = false := by
    rcases hu with hu | hu
    · simp [Ctx.isUnary, hu]
    · cases hb : ctx.getBinary [c] with
      | none => exact absurd hb hu
      | some _ => simp [Ctx.isBinary, hb]
  simp only [firstByte, hc, if_true, Res.bind_ok, hf, this, Bool.false_eq_true, if_false]
  rcases h.long with h | ⟨c', h, hp, -⟩
  · cases r with
    | nil => simp at h
    | cons _ _ => rfl
  · cases h
    simp only [hp]

/-- After either of the words, the same is read. -/
theorem sameWord_before {parse : Str → Option N} {ctx : Ctx N} {p p' : Str} (h : SameWord parse ctx p p') (w : Str) (next : Option Str) :
    isUnaryOp parse ctx (some p) w next = isUnaryOp parse ctx (some p') w next := by
  have plain : ∀ {p p' : Str}, CommonWord parse ctx p → CommonWord parse ctx p' → ctx.getVariable p = none → ctx.getVariable p' = none →
      ctx.getConstant p = none → ctx.getConstant p' = none → isUnaryOp parse ctx (some p) w next = isUnaryOp parse ctx (some p') w next := by
    intro p p' h h' v v' c c'
    unfold isUnaryOp
    simp only [h.close, h'.close, h.number, h'.number, Ctx.isVariable, Ctx.isConstant, v, v', c, c', Option.isSome_none, Bool.or_self, Bool.false_eq_true,
      if_false]
    have e := h.before _ fun _ => rfl
    have e' := h'.before _ fun _ => rfl
    split
    · rfl
    · split
      · rfl
      · split
        · rfl
        · exact e.trans e'.symm
  cases h with
  | refl => rfl
  | variable_ n n' v h h' i =>
    unfold isUnaryOp
    simp only [n, n', h, h', Ctx.isVariable, Ctx.isConstant, Option.isSome_some, Bool.or_true, Bool.true_or, if_true, Option.isSome_none, Bool.false_or,
      ite_self]
  | constant n n' v v' x h h' i =>
    unfold isUnaryOp
    simp only [n, n', v, v', h, h', Ctx.isVariable, Ctx.isConstant, Option.isSome_some, Bool.or_true, Bool.true_or, if_true, Option.isSome_none,
      Bool.false_or, ite_self]
  | function p p' v v' c c' => exact plain p p' v v' c c'
  | operator p p' v v' c c' => exact plain p p' v v' c c'

theorem Renamed.refl_ (ctx : Ctx N) (t : Token N) : Renamed ctx t t := by
  cases t <;> constructor <;> rfl

theorem operator_same {parse : Str → Option N} {ctx : Ctx N} {p p' : Option Str} (h : Both (SameWord parse ctx) p p') {w w' : Str}
    (hb : ctx.getBinary w = ctx.getBinary w') (hu : ctx.getUnary w = ctx.getUnary w') (last : Bool) :
    LiftEq (Renamed ctx) (operatorToken parse ctx p w last) (operatorToken parse ctx p' w' last) := by
  have e : ∀ last : Bool, isUnaryOp parse ctx p w (if last then none else some w) = isUnaryOp parse ctx p' w' (if last then none else some w') := by
    intro last
    have e1 : ∀ q, isUnaryOp parse ctx q w (if last then none else some w) = isUnaryOp parse ctx q w' (if last then none else some w') := by
      intro q
      unfold isUnaryOp
      rw [hu]
      cases last <;> rfl
    rw [e1]
    cases h with
    | none => rfl
    | some h => exact sameWord_before h _ _
  unfold operatorToken
  simp only [e last]
  cases isUnaryOp parse ctx p' w' (if last then none else some w') with
  | err k => exact .err k
  | panic => exact .panic
  | ok b =>
    simp only [Res.bind_ok]
    cases b
    · have : p.isNone = p'.isNone := by cases h <;> rfl
      have h2 : (if last then none else some w).isNone = (if last then none else some w').isNone := by cases last <;> rfl
      rw [this, h2]
      simp only [Bool.false_eq_true, if_false]
      by_cases hc : (p'.isNone || (if last = true then none else some w').isNone) = true
      · rw [if_pos hc, if_pos hc]; exact .err _
      · rw [if_neg hc, if_neg hc]; exact .ok (.binary hb)
    · exact .ok (.unary hu)

theorem tokenize_same {parse : Str → Option N} {ctx : Ctx N} {ws ws' : List Str} (h : Pairwise2 (SameWord parse ctx) ws ws') {p p' : Option Str}
    (hp : Both (SameWord parse ctx) p p') :
    LiftEq (Pairwise2 (Renamed ctx)) (tokenizeLoop parse ctx p ws) (tokenizeLoop parse ctx p' ws') := by
  have cons : ∀ {x y : Res (List (Token N))} {t u : Token N}, Renamed ctx t u → LiftEq (Pairwise2 (Renamed ctx)) x y →
      LiftEq (Pairwise2 (Renamed ctx)) (x.bind fun ts => .ok (t :: ts)) (y.bind fun ts => .ok (u :: ts)) :=
    fun ht h => h.bind fun _ _ h => .ok (.cons ht h)
  generalize hn : ws.length = n
  induction n using Nat.strongRecOn generalizing ws ws' p p' with
  | _ n ih =>
    subst hn
    cases h with
    | nil => unfold tokenizeLoop; exact .ok .nil
    | @cons w w' rest rest' hw hr =>
      have next : ∀ v v', SameWord parse ctx v v' → LiftEq (Pairwise2 (Renamed ctx)) (tokenizeLoop parse ctx (some v) rest) (tokenizeLoop parse ctx (some v') rest') :=
        fun v v' hv => ih rest.length (by simp) hr (.some hv) rfl
      cases hw with
      | refl =>
        unfold tokenizeLoop
        cases hpw : parse w with
        | some x =>
          simp only
          cases hr with
          | nil => exact .ok (.cons (.number x) .nil)
          | @cons v v' rest rest' hv hr =>
            have hi : (ctx.config.complexNumber && v == ['i']) = (ctx.config.complexNumber && v' == ['i']) ∧
                ((ctx.config.complexNumber && v == ['i']) = true → v = v') := by
              have ne : ∀ {a b : Str}, a ≠ ['i'] ∧ b ≠ ['i'] → ∀ {P : Prop}, (true && a == ['i']) = (true && b == ['i']) ∧ ((true && a == ['i']) = true → P) := by
                rintro a b ⟨h1, h2⟩ P
                rw [beq_false_of_ne h1, beq_false_of_ne h2]
                exact ⟨rfl, fun h => by cases h⟩
              cases hc : ctx.config.complexNumber with
              | false => exact ⟨rfl, fun h => by cases h⟩
              | true =>
                cases hv with
                | refl => exact ⟨rfl, fun _ => rfl⟩
                | variable_ _ _ _ _ _ i => exact ne (i hc)
                | constant _ _ _ _ _ _ _ i => exact ne (i hc)
                | function a b => exact ne ⟨a.ne_i, b.ne_i⟩
                | operator a b => exact ne ⟨a.ne_i, b.ne_i⟩
            simp only
            rw [← hi.1]
            split
            · rename_i h
              obtain rfl := hi.2 h
              split
              · exact .err _
              · exact cons (.number _) (ih rest.length (by simp; omega) hr (.some (.refl _)) rfl)
            · exact cons (.number _) (next w w (.refl _))
        | none =>
          simp only
          have hl : rest.isEmpty = rest'.isEmpty := by cases hr <;> rfl
          split
          · exact cons (.variable_ rfl) (next w w (.refl _))
          · split
            · exact cons (.constant rfl) (next w w (.refl _))
            · split
              · exact cons (.function rfl) (next w w (.refl _))
              · split
                · rw [hl]
                  exact (operator_same hp rfl rfl _).bind fun _ _ ht => cons ht (next w w (.refl _))
                · split
                  · exact cons (Renamed.refl_ _ _) (next w w (.refl _))
                  · exact next w w (.refl _)
      | variable_ n n' v h h' i =>
        have e := next w w' (.variable_ n n' v h h' i)
        unfold tokenizeLoop
        simp only [n, n', Ctx.isVariable, h, h', Option.isSome_some, if_true]
        exact cons (.variable_ (h.trans h'.symm)) e
      | constant n n' v v' x h h' i =>
        have e := next w w' (.constant n n' v v' x h h' i)
        unfold tokenizeLoop
        simp only [n, n', Ctx.isVariable, Ctx.isConstant, v, v', h, h', Option.isSome_some, Option.isSome_none, Bool.false_eq_true, if_false, if_true]
        exact cons (.constant (h.trans h'.symm)) e
      | function p p' v v' c c' f h h' =>
        have e := next w w' (.function p p' v v' c c' f h h')
        unfold tokenizeLoop
        simp only [p.number, p'.number, Ctx.isVariable, Ctx.isConstant, Ctx.isFunction, v, v', c, c', h, h', Option.isSome_some, Option.isSome_none,
          Bool.false_eq_true, if_false, if_true]
        exact cons (.function (h.trans h'.symm)) e
      | operator p p' v v' c c' f f' hb hu some_ =>
        have e := next w w' (.operator p p' v v' c c' f f' hb hu some_)
        have hl : rest.isEmpty = rest'.isEmpty := by cases hr <;> rfl
        have hs : ((ctx.getBinary w').isSome || (ctx.getUnary w').isSome) = true := by
          rw [← hb, ← hu]
          rcases some_ with h | h
          · rw [Option.isSome_iff_ne_none.2 h]; rfl
          · rw [Option.isSome_iff_ne_none.2 h]; simp
        unfold tokenizeLoop
        simp only [p.number, p'.number, Ctx.isVariable, Ctx.isConstant, Ctx.isFunction, Ctx.isBinary, Ctx.isUnary, v, v', c, c', f, f', hb, hu, hs,
          Option.isSome_none, Bool.false_eq_true, if_false, if_true, hl]
        exact (operator_same hp hb hu _).bind fun _ _ ht => cons ht e

/-- C117. Two texts whose words are, one by one, the same or names of the same thing (functions and operators under names of common form) evaluate
alike. -/
theorem C117_texts_partial (parse : Str → Option N) (splitter : Str → List Str) (ctx : Ctx N) (s s' : Str)
    (h : Pairwise2 (SameWord parse ctx) (splitter s) (splitter s')) (he : s.all isWhitespace = s'.all isWhitespace) :
    eval parse splitter ctx s = eval parse splitter ctx s' := by
  unfold eval tokenize
  rw [← he]
  split
  · rfl
  · have h := tokenize_same h (p := none) (p' := none) .none
    cases ha : tokenizeLoop parse ctx none (splitter s) <;> cases hb : tokenizeLoop parse ctx none (splitter s') <;> rw [ha, hb] at h <;> cases h <;>
      first | rfl | skip
    all_goals first | (rename_i h; simp only [Res.bind_ok, evalTokens_ren h]) | (rename_i h; exact absurd h (by decide)) |
      (rename_i h _; exact absurd h (by decide))

/-- C117. A successful registration makes the name and all aliases, in any case, names of the function, for good. -/
theorem C117_names (K : Keys) (debug : Bool) (c : Context N) (os : List (Op N)) (name : Str) (k k' : Str) :
    (∀ f : Named (Fn N), (c.run K debug (.addFunctionAs f name)).1 = .ok none → (∃ a ∈ name :: f.aliases, K.same a k = true) →
      (∃ a ∈ name :: f.aliases, K.same a k' = true) →
      let v := ((c.run K debug (.addFunctionAs f name)).2.runAll K debug os).view K
      v.getFunction k = some f.fn ∧ v.getFunction k' = some f.fn) ∧
    (∀ f : Named (UnFn N), (c.run K debug (.addUnaryFunctionAs f name)).1 = .ok none → (∃ a ∈ name :: f.aliases, K.same a k = true) →
      (∃ a ∈ name :: f.aliases, K.same a k' = true) →
      let v := ((c.run K debug (.addUnaryFunctionAs f name)).2.runAll K debug os).view K
      v.getUnary k = some f.fn ∧ v.getUnary k' = some f.fn) ∧
    (∀ f : Named (BinFn N), (c.run K debug (.addBinaryFunctionAs f name)).1 = .ok none → (∃ a ∈ name :: f.aliases, K.same a k = true) →
      (∃ a ∈ name :: f.aliases, K.same a k' = true) →
      let v := ((c.run K debug (.addBinaryFunctionAs f name)).2.runAll K debug os).view K
      v.getBinary k = some f.fn ∧ v.getBinary k' = some f.fn) := by
  have isok : ∀ (r : Res Unit), (r.map fun _ => (none : Option N)) = .ok none → r = .ok () := by
    intro r hr
    cases r with
    | ok u => rfl
    | err k => cases hr
    | panic => cases hr
  have any : ∀ {l : List Str} {k : Str}, (∃ a ∈ l, K.same a k = true) → l.any (K.same · k) = true := by
    rintro l k ⟨a, ha, h⟩
    exact List.any_eq_true.2 ⟨a, ha, h⟩
  refine ⟨fun f h hk hk' => ⟨?_, ?_⟩, fun f h hk hk' => ⟨?_, ?_⟩, fun f h hk hk' => ⟨?_, ?_⟩⟩
  · exact (C26_never_replaced K debug _ os k).1 _ ((addAs_ok K.equiv debug c.functions f name (isok _ h) k).trans (if_pos (any hk)))
  · exact (C26_never_replaced K debug _ os k').1 _ ((addAs_ok K.equiv debug c.functions f name (isok _ h) k').trans (if_pos (any hk')))
  · exact (C26_never_replaced K debug _ os k).2.1 _ ((addAs_ok K.equiv debug c.unary f name (isok _ h) k).trans (if_pos (any hk)))
  · exact (C26_never_replaced K debug _ os k').2.1 _ ((addAs_ok K.equiv debug c.unary f name (isok _ h) k').trans (if_pos (any hk')))
  · exact (C26_never_replaced K debug _ os k).2.2 _ ((addAs_ok K.equiv debug c.binary f name (isok _ h) k).trans (if_pos (any hk)))
  · exact (C26_never_replaced K debug _ os k').2.2 _ ((addAs_ok K.equiv debug c.binary f name (isok _ h) k').trans (if_pos (any hk')))

/-- Multiplication as `times`, `by` and `x`, and the sign. -/
def Demo.timesOps : List (Op Int) :=
  [.addBinaryFunction ⟨str "times", [str "by", str "x"], Demo.mul⟩, .addUnaryFunction ⟨str "-", [], Demo.neg⟩,
    .addBinaryFunction ⟨str "-", [], Demo.sub⟩]

/-- The context with these operators. -/
def Demo.times : Ctx Int := ((Context.withConfig Config.new).runAll (Keys.byEq demoLowercase) true Demo.timesOps).view (Keys.byEq demoLowercase)

/-- C117 fails for a name that is a single letter: `2 by -3` is -6, but `2 x -3` is refused, because the `-` is not taken for a sign after it. -/
theorem C117_letter_counterexample :
    eval Demo.parse (split defaultRules) Demo.times (str "2 by -3") = .ok (-6) ∧
    eval Demo.parse (split defaultRules) Demo.times (str "2 TIMES -3") = .ok (-6) ∧
    eval Demo.parse (split defaultRules) Demo.times (str "2 x -3") = .err .invalidExpression ∧
    eval Demo.parse (split defaultRules) Demo.times (str "2 x 3") = .ok 6 := by
  decide +kernel

theorem Demo.common {w : Str} (h : w = str "by" ∨ w = str "times") : CommonWord Demo.parse Demo.times w := by
  rcases h with rfl | rfl
  · exact ⟨rfl, ⟨'b', ['y'], rfl, by decide, .inl rfl⟩, .inl (by decide)⟩
  · exact ⟨rfl, ⟨'t', str "imes", rfl, by decide, .inl rfl⟩, .inl (by decide)⟩

/-- `C117_texts_partial` applies to `2 by -3` and `2 times -3`. -/
example : Pairwise2 (SameWord Demo.parse Demo.times) (split defaultRules (str "2 by -3")) (split defaultRules (str "2 times -3")) := by
  have e1 : split defaultRules (str "2 by -3") = [str "2", str "by", str "-", str "3"] := by decide +kernel
  have e2 : split defaultRules (str "2 times -3") = [str "2", str "times", str "-", str "3"] := by decide +kernel
  rw [e1, e2]
  exact .cons (.refl _) (.cons (.operator (Demo.common (.inl rfl)) (Demo.common (.inr rfl)) rfl rfl rfl rfl rfl rfl rfl rfl (.inl (fun h => by cases h)))
    (.cons (.refl _) (.cons (.refl _) .nil)))

end Prexel
