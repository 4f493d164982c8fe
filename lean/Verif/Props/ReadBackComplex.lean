import Verif.Props.ReadBack
import Verif.Props.Complex
import Verif.Examples.Apps

/-!
# Printed complex numbers read back (C108)
-/
namespace Prexel
variable {N D F T : Type}

theorem numericLoop_stop (b : Bool) (s : Str) (h : ∀ c ∈ s, isDigit c = true) {d : Char} (hd : isDigit d = false) (hp : d ≠ '.') (rest : Str) :
    numericLoop b (s ++ d :: rest) = (s, s.length) := by
  induction s with
  | nil => simp [numericLoop, hd, hp]
  | cons c s ih => simp [numericLoop, h c (by simp), ih (fun x hx => h x (by simp [hx]))]

theorem numericLoop_pointed_stop (a b : Str) (ha : ∀ c ∈ a, isDigit c = true) (hb : ∀ c ∈ b, isDigit c = true) {d : Char} (hd : isDigit d = false)
    (hp : d ≠ '.') (rest : Str) :
    numericLoop false ((a ++ '.' :: b) ++ d :: rest) = (a ++ '.' :: b, (a ++ '.' :: b).length) := by
  induction a with
  | nil => simp [numericLoop, isDigit, numericLoop_stop true b hb hd hp]
  | cons c a ih =>
    have := ih (fun x hx => ha x (by simp [hx]))
    simp only [List.cons_append, numericLoop, ha c (by simp), if_true, this, List.length_cons]

/-- A numeral is split from what follows it, if that is neither a digit nor a point. -/
theorem split_numeral {rules : List Rule} (hr : PlainRules rules) {s : Str} (h : Numeral s) {d : Char} (hd : isDigit d = false) (hp : d ≠ '.') (rest : Str) :
    split rules (s ++ d :: rest) = s :: split rules (d :: rest) := by
  cases h with
  | whole h =>
    obtain ⟨hne, hs⟩ := h
    cases s with
    | nil => exact absurd rfl hne
    | cons c r =>
      rw [List.cons_append, split_cons, hr.digit c _ (isDigit_iff.2 (hs c (by simp))),
        numericLoop_stop false r (fun x hx => isDigit_iff.2 (hs x (by simp [hx]))) hd hp rest]
      simp
  | @pointed a b ha hb =>
    obtain ⟨hne, hs⟩ := ha
    cases a with
    | nil => exact absurd rfl hne
    | cons c r =>
      rw [List.cons_append, List.cons_append, split_cons, hr.digit c _ (isDigit_iff.2 (hs c (by simp))),
        numericLoop_pointed_stop r b (fun x hx => isDigit_iff.2 (hs x (by simp [hx]))) (fun x hx => isDigit_iff.2 (hb.2 x hx)) hd hp rest]
      simp

theorem Numeral.head {s : Str} (h : Numeral s) : ∃ c r, s = c :: r ∧ isDigit c = true := by
  cases h with
  | whole h =>
    cases s with
    | nil => exact absurd rfl h.1
    | cons c r => exact ⟨c, r, rfl, isDigit_iff.2 (h.2 c (by simp))⟩
  | @pointed a b ha hb =>
    cases a with
    | nil => exact absurd rfl ha.1
    | cons c r => exact ⟨c, r ++ '.' :: b, rfl, isDigit_iff.2 (ha.2 c (by simp))⟩

/-- A plus or a minus sign before a digit is a word. -/
theorem default_sign {g : Char} (hg : g = '+' ∨ g = '-') {c : Char} (hc : isDigit c = true) (rest : Str) :
    runRules defaultRules g (c :: rest) = (.data [g], c :: rest) := by
  have hc := (digit_not_letter hc).2.1
  have h5 : (c :: rest).takeWhile (fun c => operatorChars.contains c) = [] := by rw [List.takeWhile_cons, hc]; rfl
  have : splitWithOperators operatorChars g (c :: rest) = (.data [g], 0) := by
    unfold splitWithOperators spanRule
    rw [h5, if_pos (by rcases hg with rfl | rfl <;> decide)]
    rfl
  have h1 : isDigit g = false := by rcases hg with rfl | rfl <;> decide
  have h2 : isLetter g = false := by rcases hg with rfl | rfl <;> decide
  have h3 : g ≠ '_' := by rcases hg with rfl | rfl <;> decide
  simp [defaultRules, splitterNew, runRules, splitNumeric, splitIdentifier, splitOperator, this, spanRule, h1, h2, h3]

theorem split_sign {g : Char} (hg : g = '+' ∨ g = '-') {s : Str} (h : Numeral s) (rest : Str) :
    split defaultRules (g :: (s ++ rest)) = [g] :: split defaultRules (s ++ rest) := by
  obtain ⟨c, r, rfl, hc⟩ := h.head
  rw [List.cons_append, split_cons, default_sign hg hc]

theorem split_rectangular {g : Char} (hg : g = '+' ∨ g = '-') {s t : Str} (hs : Numeral s) (ht : Numeral t) :
    split defaultRules (s ++ g :: (t ++ ['i'])) = [s, [g], t, ['i']] := by
  rw [split_numeral defaultRules_plain hs (by rcases hg with rfl | rfl <;> decide) (by rcases hg with rfl | rfl <;> decide), split_sign hg ht,
    split_numeral defaultRules_plain ht (by decide) (by decide), split_numberWord defaultRules_plain (.letters (by decide) (by decide))]

/-- Nothing but the operators is named `+` or `-`. -/
def SignFree (ctx : Ctx N) (g : Char) : Prop := ctx.getVariable [g] = none ∧ ctx.getConstant [g] = none ∧ ctx.getFunction [g] = none

theorem tokenize_rectangular (parse : Str → Option N) (ctx : Ctx N) (hcfg : ctx.config.complexNumber = true) {g : Char} (hg : g = '+' ∨ g = '-')
    {s t : Str} {x y' y : N} (hs : parse s = some x) (ht : parse t = some y') (hti : parse (t ++ ['i']) = some y) (hd : parse [g] = none)
    (hf : SignFree ctx g) {f : BinFn N} (hb : ctx.getBinary [g] = some f) {u : UnFn N} (hu : ctx.getUnary [g] = some u) (hp : u.notation_ = .pre)
    (prev : Option Str) :
    tokenizeLoop parse ctx prev [s, [g], t, ['i']] = .ok [.number x, .binary [g], .number y] := by
  have hgi : (([g] : Str) == ['i']) = false := by rcases hg with rfl | rfl <;> decide
  have h1 : isUnaryOp parse ctx (some s) [g] (some [g]) = .ok false := by
    unfold isUnaryOp
    rw [hu]
    simp only [hp, Option.isNone_some, Bool.false_eq_true, if_false, hs, Option.isSome_some, Bool.true_or, if_true]
    split <;> rfl
  have h2 : operatorToken parse ctx (some s) [g] false = .ok (.binary [g]) := by
    simp [operatorToken, h1]
  simp [tokenizeLoop, hs, hgi, hd, Ctx.isVariable, hf.1, Ctx.isConstant, hf.2.1, Ctx.isFunction, hf.2.2, Ctx.isBinary, hb, h2, ht, hcfg, hti]

theorem digit_not_blank {c : Char} (hc : isDigit c = true) : isWhitespace c = false := by
  rw [Bool.eq_false_iff]
  intro hw
  rw [ws_not_digit hw] at hc
  exact absurd hc (by simp)

/-- `s + t i` and `s - t i`, typed without spaces: the operator applied to the two numbers. -/
theorem eval_rectangular (parse : Str → Option N) (ctx : Ctx N) (hcfg : ctx.config.complexNumber = true) {g : Char} (hg : g = '+' ∨ g = '-')
    {s t : Str} (ns : Numeral s) (nt : Numeral t) {x y' y : N} (hs : parse s = some x) (ht : parse t = some y') (hti : parse (t ++ ['i']) = some y)
    (hd : parse [g] = none) (hf : SignFree ctx g) {f : BinFn N} (hb : ctx.getBinary [g] = some f) {u : UnFn N} (hu : ctx.getUnary [g] = some u)
    (hp : u.notation_ = .pre) : eval parse (split defaultRules) ctx (s ++ g :: (t ++ ['i'])) = f.call x y := by
  have hw : (s ++ g :: (t ++ ['i'])).all isWhitespace = false := by
    obtain ⟨c, r, rfl, hc⟩ := ns.head
    exact notBlank_of (digit_not_blank hc)
  simp only [eval, tokenize, hw, Bool.false_eq_true, if_false, split_rectangular hg ns nt,
    tokenize_rectangular parse ctx hcfg hg hs ht hti hd hf hb hu hp none, Res.bind_ok]
  exact eval_infix ctx hb x y

/-- `-s + t i` and `-s - t i`: the minus sign applies to `s`. -/
theorem eval_dash_rectangular (parse : Str → Option N) (ctx : Ctx N) (hcfg : ctx.config.complexNumber = true) {g : Char} (hg : g = '+' ∨ g = '-')
    {s t : Str} (ns : Numeral s) (nt : Numeral t) {x y' y : N} (hs : parse s = some x) (ht : parse t = some y') (hti : parse (t ++ ['i']) = some y)
    (hd : parse [g] = none) (hd' : parse ['-'] = none) (hf : SignFree ctx g) (hf' : SignFree ctx '-') {f : BinFn N} (hb : ctx.getBinary [g] = some f)
    {u : UnFn N} (hu : ctx.getUnary [g] = some u) (hp : u.notation_ = .pre) {v : UnFn N} (hv : ctx.getUnary ['-'] = some v)
    (hpv : v.notation_ = .pre) :
    eval parse (split defaultRules) ctx ('-' :: (s ++ g :: (t ++ ['i']))) = (v.call x).bind fun x' => f.call x' y := by
  have hw : ('-' :: (s ++ g :: (t ++ ['i']))).all isWhitespace = false := notBlank_of (by decide)
  have hop : operatorToken parse ctx none ['-'] false = .ok (.unary ['-']) := by simp [operatorToken, isUnaryOp, hv, hpv]
  have hl : tokenizeLoop parse ctx none [['-'], s, [g], t, ['i']] = .ok [.unary ['-'], .number x, .binary [g], .number y] := by
    rw [tokenizeLoop]
    simp only [hd', Ctx.isVariable, hf'.1, Ctx.isConstant, hf'.2.1, Ctx.isFunction, hf'.2.2, Option.isSome_none, Ctx.isUnary, hv, Option.isSome_some,
      Bool.or_true, if_true, List.isEmpty_cons, hop, Res.bind_ok, Bool.false_eq_true, if_false,
      tokenize_rectangular parse ctx hcfg hg hs ht hti hd hf hb hu hp]
  simp only [eval, tokenize, hw, Bool.false_eq_true, if_false, split_sign (.inr rfl) ns, split_rectangular hg ns nt, hl, Res.bind_ok]
  have := C01_eval_eq_denote ctx (.bin [g] (.signed ['-'] (.num x)) (.atom (.num y)))
    ⟨⟨f, hb⟩, by simp [Expr.rightSpine], by simp [Expr.leftSpine], ⟨v, hv, hpv⟩, trivial⟩
  refine this.trans ?_
  simp [Expr.denote, Atom.denote, hb, hv, Res.ofOption]

/-- How `num-complex` prints and reads: the text of a complex number is a numeral, perhaps with a minus sign before it, a plus or a minus sign, a
numeral and `i`. The first numeral is read as a number `x`, the second with its `i` as a number `y`, and the sum (difference) of `x`, with its
sign, and `y` is printed as the same text again. -/
def Cx.Reads (k : Cx T) (read : Str → Option (Cplx T)) (shown : Cplx T → Str) (text : Str) : Prop :=
  ∃ (g : Char) (s t : Str) (x y' y : Cplx T), (g = '+' ∨ g = '-') ∧ Numeral s ∧ Numeral t ∧ read s = some x ∧ read t = some y' ∧
    read (t ++ ['i']) = some y ∧
    ((text = s ++ g :: (t ++ ['i']) ∧ shown (if g = '+' then k.cAdd x y else k.cSub x y) = text) ∨
      (text = '-' :: (s ++ g :: (t ++ ['i'])) ∧ shown (if g = '+' then k.cAdd (k.cNeg x) y else k.cSub (k.cNeg x) y) = text))

/-- C108 at the server for complex numbers: the text of a result, sent as the expression of the same request, is answered with itself, as far
as `num-complex` reads what it prints. No variable may be named `+` or `-`. -/
theorem C108_complex_partial (W : World D F T) (r : Request F) (hty : r.type = some .complex) (hn : r.Distinct) {t : Str}
    (hres : W.evalExpression r = .result t) (hsign : W.readComplex ['+'] = none ∧ W.readComplex ['-'] = none)
    (hread : W.cx.Reads W.readComplex W.showComplex t) (hv : ∀ e ∈ r.variables.getD [], e.1 ≠ ['+'] ∧ e.1 ≠ ['-']) :
    W.evalExpression { r with expression := t } = .result t := by
  have hn' : ((W.texts r).map (·.1)).Nodup := by simpa [World.texts, Request.Distinct, Function.comp_def] using hn
  have hv' : ∀ e ∈ W.texts r, e.1 ≠ ['+'] ∧ e.1 ≠ ['-'] := by
    intro e he
    simp only [World.texts, List.mem_map] at he
    obtain ⟨e', he', rfl⟩ := he
    exact hv e' he'
  unfold World.evalExpression at hres ⊢
  simp only [hty, Option.getD_some] at hres ⊢
  have htx : W.texts { r with expression := t } = W.texts r := rfl
  rw [hty] at *
  change W.complexBackend.serve W.K W.debug serverConfig (W.texts r) t = _
  rw [serve_result _ _ _ _ _ hn'] at hres ⊢
  obtain ⟨c, hc, hset, -⟩ := hres
  refine ⟨c, hc, hset, ?_⟩
  obtain ⟨pi, e, -, -, hview⟩ := complex_inv (show W.cx.context W.K W.debug (serverConfig.withComplexNumber true) = .ok c from hc)
  have hb : ∀ g : Char, g = '+' ∨ g = '-' → SignFree ((c.view W.K).withVariables W.complexBackend.readVariable (W.texts r)) g := by
    intro g hg
    have hb : boundTo W.complexBackend.readVariable (W.texts r) [g] = none := by
      have : (W.texts r).find? (fun e => e.1 == [g]) = none := List.find?_eq_none.2 fun e he => by
        rcases hg with rfl | rfl
        · simpa using (hv' e he).1
        · simpa using (hv' e he).2
      rw [boundTo, this]
      rfl
    rw [hview]
    refine ⟨by simp [Ctx.withVariables, hb, tablesCtx], ?_, ?_⟩ <;> rcases hg with rfl | rfl <;> rfl
  have hcfg : ((c.view W.K).withVariables W.complexBackend.readVariable (W.texts r)).config.complexNumber = true := by rw [hview]; rfl
  obtain ⟨g, s, t', x, y', y, hg, ns, nt, hs, ht, hti, hh⟩ := hread
  have hd : W.readComplex [g] = none := by exact hg.elim (fun h => h ▸ hsign.1) (fun h => h ▸ hsign.2)
  have hun : ∀ g : Char, g = '+' ∨ g = '-' →
      ∃ u, ((c.view W.K).withVariables W.complexBackend.readVariable (W.texts r)).getUnary [g] = some u ∧ u.notation_ = .pre := by
    intro g hg
    rw [hview]
    rcases hg with rfl | rfl <;> exact ⟨_, rfl, rfl⟩
  have hneg : ∃ v, ((c.view W.K).withVariables W.complexBackend.readVariable (W.texts r)).getUnary ['-'] = some v ∧ v.notation_ = .pre ∧
      ∀ x, v.call x = .ok (W.cx.cNeg x) := by
    rw [hview]; exact ⟨_, rfl, rfl, fun x => rfl⟩
  have hbin : ∃ f, ((c.view W.K).withVariables W.complexBackend.readVariable (W.texts r)).getBinary [g] = some f ∧
      ∀ x y, f.call x y = .ok (if g = '+' then W.cx.cAdd x y else W.cx.cSub x y) := by
    rw [hview]
    rcases hg with rfl | rfl <;> exact ⟨_, rfl, fun x y => rfl⟩
  obtain ⟨u, hu, hpu⟩ := hun g hg
  obtain ⟨v, hvu, hpv, hvc⟩ := hneg
  obtain ⟨f, hfb, hfc⟩ := hbin
  rcases hh with ⟨rfl, hsh⟩ | ⟨rfl, hsh⟩
  · refine ⟨_, (eval_rectangular W.readComplex _ hcfg hg ns nt hs ht hti hd (hb g hg) hfb hu hpu).trans (hfc x y), hsh⟩
  · refine ⟨_, (eval_dash_rectangular W.readComplex _ hcfg hg ns nt hs ht hti hd hsign.2 (hb g hg) (hb '-' (.inr rfl)) hfb hu hpu hvu hpv).trans ?_, hsh⟩
    rw [hvc, Res.bind_ok, hfc]

/-- The demo world, printing complex numbers as `num-complex` does. -/
noncomputable def Demo.rectangular : World Demo.Decimal Int Rat :=
  { Demo.world true with
    showComplex := fun z => (toString z.re.num).toList ++ (if z.im.num < 0 then '-' :: (toString (-z.im.num)).toList else '+' :: (toString z.im.num).toList) ++ ['i'] }

/-- A request whose answer is `-3-4i`: it meets the conditions. -/
example : Demo.rectangular.evalExpression (Demo.request .complex "-(z + 3)" [("z", "4i")]) = .result (str "-3-4i") ∧
    (Demo.request .complex "-(z + 3)" [("z", "4i")]).Distinct ∧
    (Demo.rectangular.readComplex ['+'] = none ∧ Demo.rectangular.readComplex ['-'] = none) ∧
    Demo.rectangular.cx.Reads Demo.rectangular.readComplex Demo.rectangular.showComplex (str "-3-4i") := by
  refine ⟨by decide +kernel, by unfold Request.Distinct; decide +kernel, by constructor <;> decide +kernel, '-', ['3'], ['4'], ⟨3, 0⟩, ⟨4, 0⟩, ⟨0, 4⟩,
    .inr rfl, .whole ⟨by decide, by decide⟩, .whole ⟨by decide, by decide⟩, by decide +kernel, by decide +kernel, by decide +kernel, .inr ⟨by decide, by decide +kernel⟩⟩

end Prexel
