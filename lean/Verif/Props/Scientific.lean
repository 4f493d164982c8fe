import Verif.Props.NumberNames
import Verif.Props.IntegerTexts
/-!
# Numbers in scientific notation (C138)
-/

set_option linter.unusedVariables false

namespace Prexel
open B64

/-- Scientific notation: a numeral, `e` or `E`, and a whole number with a sign or without. `1.5e3` stands for `1.5 * 10 ^ 3`. -/
inductive Scientific : Str → ℚ → Prop
  | mk {a x : Str} {q : ℚ} {e : Char} {n : ℤ} (ha : Stands a q) (he : e = 'e' ∨ e = 'E') (hx : IntegerText x n) : Scientific (a ++ e :: x) (q * 10 ^ n)

namespace B64

theorem exponent_text {x : Str} {e : Char} {n : ℤ} (he : e = 'e' ∨ e = 'E') (hx : IntegerText x n) : exponentOf (e :: x) = some n := by
  have hs : ∀ {d : Str}, Digits d → someDigits d = some (digitsValue d) := by
    intro d hd
    unfold someDigits
    rw [if_pos ⟨hd.1, List.all_eq_true.2 (digits_all hd)⟩]
    rfl
  simp only [exponentOf, if_pos he]
  cases hx with
  | plus h => simp [hs h]
  | minus h => simp [hs h]
  | plain h =>
    have hm := hs h
    obtain ⟨hne, hd⟩ := h
    cases x with
    | nil => exact absurd rfl hne
    | cons c r =>
      have hc := hd c (by simp)
      split
      · rename_i heq; injection heq with h1 _; subst h1; exact absurd hc (by decide)
      · rename_i heq; injection heq with h1 _; subst h1; exact absurd hc (by decide)
      · rw [hm]; rfl

theorem stop_letter {e : Char} (he : e = 'e' ∨ e = 'E') : isDigit e = false ∧ e ≠ '.' := by
  rcases he with rfl | rfl <;> decide

theorem take_stop {a : Str} (ha : ∀ c ∈ a, isDigit c = true) {e : Char} (he : isDigit e = false) (b : Str) :
    (a ++ e :: b).takeWhile isDigit = a ∧ (a ++ e :: b).dropWhile isDigit = e :: b := by
  constructor
  · rw [List.takeWhile_append_of_pos ha, List.takeWhile_cons, he]; simp
  · rw [List.dropWhile_append_of_pos ha, List.dropWhile_cons, he]; simp

theorem numberOf_scientific {s : Str} {q : ℚ} (h : Scientific s q) : numberOf s = some q := by
  cases h with
  | @mk a x q e n ha he hx =>
    have hexp := exponent_text he hx
    obtain ⟨hed, hep⟩ := stop_letter he
    cases ha with
    | whole ha =>
      obtain ⟨h1, h2⟩ := take_stop (digits_all ha) hed x
      have hf : fractionOf (e :: x) = ([], e :: x) := by
        unfold fractionOf
        split
        · rename_i heq; injection heq with h _; exact absurd h hep
        · rfl
      unfold numberOf
      rw [h1, h2, hf]
      simp [ha.1, hexp, natOf_eq]
    | @pointed a b ha hb =>
      have e1 : a ++ '.' :: b ++ e :: x = a ++ '.' :: (b ++ e :: x) := by simp
      obtain ⟨h1, h2⟩ := takeWhile_pointed (digits_all ha) (b ++ e :: x)
      obtain ⟨h3, h4⟩ := take_stop (digits_all hb) hed x
      unfold numberOf
      rw [e1, h1, h2]
      simp only [fractionOf, h3, h4, hexp]
      rw [if_neg fun h => ha.1 h.1]
      simp only [Option.map_some, Option.some.injEq, natOf_eq]
      rw [zpow_sub₀ (by norm_num), zpow_natCast]
      ring

theorem Scientific.head {s : Str} {q : ℚ} (h : Scientific s q) : ∃ c r, s = c :: r ∧ isDigit c = true := by
  cases h with
  | @mk a x q e n ha he hx =>
    obtain ⟨c, r, rfl, hc⟩ := Stands.head ha
    exact ⟨c, r ++ e :: x, rfl, hc⟩

theorem unsigned_scientific (neg : Bool) {s : Str} {q : ℚ} (h : Scientific s q) : unsigned neg s = some (of neg (if neg then -q else q)) := by
  obtain ⟨c, r, hs, hc⟩ := Scientific.head h
  obtain ⟨h1, h2, h3, h4, h5⟩ := digit_lower hc
  have hw : s.map Char.toLower = c :: r.map Char.toLower := by rw [hs, List.map_cons, h1]
  have e1 : (c :: r.map Char.toLower) ≠ str "nan" := fun e => h4 (by simpa [str] using congrArg (fun l => l.head?) e)
  have e2 : (c :: r.map Char.toLower) ≠ str "inf" := fun e => h5 (by simpa [str] using congrArg (fun l => l.head?) e)
  have e3 : (c :: r.map Char.toLower) ≠ str "infinity" := fun e => h5 (by simpa [str] using congrArg (fun l => l.head?) e)
  unfold unsigned
  simp only [hw, e1, e2, e3, or_self, if_false, numberOf_scientific h, Option.map_some]

end B64

/-- C138, the part that holds: as the value of a variable, a number in scientific notation, with a sign or without, is read as the number that it
stands for, rounded as IEEE 754 requires. Missing: expressions, see `C138_expression` and `C138_counterexample`. -/
theorem C138_value_partial {s : Str} {q : ℚ} (h : Scientific s q) :
    (∃ x, fromStr s = some x ∧ RoundedTo q x) ∧ (∃ x, fromStr ('+' :: s) = some x ∧ RoundedTo q x) ∧ ∃ x, fromStr ('-' :: s) = some x ∧ RoundedTo (-q) x := by
  have h0 := unsigned_scientific false h
  have h1 := unsigned_scientific true h
  simp only [if_true, Bool.false_eq_true, if_false] at h0 h1
  refine ⟨⟨_, ?_, rounded_of false q⟩, ⟨_, by simpa [fromStr] using h0, rounded_of false q⟩, ⟨_, by simpa [fromStr] using h1, rounded_of true (-q)⟩⟩
  obtain ⟨c, r, hs, hc⟩ := B64.Scientific.head h
  obtain ⟨-, h2, h3, -, -⟩ := digit_lower hc
  rw [← h0]
  subst hs
  unfold fromStr
  split
  · rename_i heq; injection heq with h _; exact absurd h h2
  · rename_i heq; injection heq with h _; exact absurd h h3
  · rfl

/-! ## Expressions -/

theorem numericLoop_halt (b : Bool) (s : Str) (h : ∀ c ∈ s, isDigit c = true) {e : Char} (he : isDigit e = false) (hp : e ≠ '.') (r : Str) :
    numericLoop b (s ++ e :: r) = (s, s.length) := by
  induction s with
  | nil => simp [numericLoop, he, hp]
  | cons c s ih => simp [numericLoop, h c (by simp), ih (fun x hx => h x (by simp [hx]))]

theorem numericLoop_pointed_halt (a b : Str) (ha : ∀ c ∈ a, isDigit c = true) (hb : ∀ c ∈ b, isDigit c = true) {e : Char} (he : isDigit e = false)
    (hp : e ≠ '.') (r : Str) : numericLoop false (a ++ '.' :: (b ++ e :: r)) = (a ++ '.' :: b, (a ++ '.' :: b).length) := by
  induction a with
  | nil => simp [numericLoop, isDigit, numericLoop_halt true b hb he hp]
  | cons c a ih => simp [numericLoop, ha c (by simp), ih (fun x hx => ha x (by simp [hx]))]

/-- A numeral ends where a letter begins. -/
theorem split_stop {rules : List Rule} (hr : PlainRules rules) {a : Str} (h : Numeral a) {e : Char} (he : isLetter e = true) (r : Str) :
    split rules (a ++ e :: r) = a :: split rules (e :: r) := by
  have hd := (letter_not_digit he).1
  have hp : e ≠ '.' := by rintro rfl; revert he; decide
  cases h with
  | whole h =>
    obtain ⟨hne, hall⟩ := h
    cases a with
    | nil => exact absurd rfl hne
    | cons c a =>
      rw [List.cons_append, split_cons, hr.digit c _ (isDigit_iff.2 (hall c (by simp))),
        numericLoop_halt false a (fun x hx => isDigit_iff.2 (hall x (by simp [hx]))) hd hp r]
      simp
  | @pointed a b ha hb =>
    obtain ⟨hne, hall⟩ := ha
    cases a with
    | nil => exact absurd rfl hne
    | cons c a =>
      have e1 : c :: a ++ '.' :: b ++ e :: r = c :: (a ++ '.' :: (b ++ e :: r)) := by simp
      rw [e1, split_cons, hr.digit c _ (isDigit_iff.2 (hall c (by simp))),
        numericLoop_pointed_halt a b (fun x hx => isDigit_iff.2 (hall x (by simp [hx]))) (fun x hx => isDigit_iff.2 (hb.2 x hx)) hd hp r]
      simp

theorem plain_good {rules : List Rule} (hr : rules = defaultRules ∨ rules = replRules false) : AllGood rules ∧ SkipsWs rules := by
  rcases hr with rfl | rfl
  · exact ⟨defaultRules_good, defaultRules_skips⟩
  · exact ⟨replRules_good false, replRules_skips false⟩

theorem head_not_blank {c : Char} (h : isDigit c = true) (r : Str) : (c :: r).all isWhitespace = false := by
  apply notBlank_of
  rw [Bool.eq_false_iff]
  intro hw
  rw [ws_not_digit hw] at h
  cases h

theorem numeral_head {a : Str} (h : Numeral a) : ∃ c r, a = c :: r ∧ isDigit c = true := by
  cases h with
  | whole h =>
    cases a with
    | nil => exact absurd rfl h.1
    | cons c r => exact ⟨c, r, rfl, isDigit_iff.2 (h.2 c (by simp))⟩
  | @pointed a b ha hb =>
    cases a with
    | nil => exact absurd rfl ha.1
    | cons c r => exact ⟨c, _, rfl, isDigit_iff.2 (ha.2 c (by simp))⟩

/-- C138 for expressions: a numeral followed by a letter is evaluated as if there was a space between them, for every number type and context and
whatever follows. So `2e3` is `2 e3`, and `2e-3` is `2 e-3`. -/
theorem C138_expression {N : Type} (parse : Str → Option N) {rules : List Rule} (hr : rules = defaultRules ∨ rules = replRules false) (ctx : Ctx N)
    {a : Str} (h : Numeral a) {e : Char} (he : ('a' ≤ e ∧ e ≤ 'z') ∨ ('A' ≤ e ∧ e ≤ 'Z')) (r : Str) :
    eval parse (split rules) ctx (a ++ e :: r) = eval parse (split rules) ctx (a ++ ' ' :: e :: r) := by
  obtain ⟨hg, hs⟩ := plain_good hr
  have h1 := split_stop (plain_of hr) h (isLetter_iff.2 he) r
  have h2 : split rules (a ++ ' ' :: e :: r) = a :: split rules (e :: r) := by
    have := split_spaced hg hs (Spaced.cons [] a ' ' (e :: r) [] (e :: r) (by intro c hc; cases hc) (by decide)
      (by simpa using Spaced.last [] (e :: r) [] (by intro c hc; cases hc) (by intro c hc; cases hc)))
    simpa [split_numberWord (plain_of hr) (.numeral h)] using this
  obtain ⟨c, t, hat, hc⟩ := numeral_head h
  have hb : ∀ s, (a ++ s).all isWhitespace = false := fun s => by rw [hat]; exact head_not_blank hc _
  simp only [eval, tokenize, h1, h2, hb]

/-- The names that are looked up. -/
def Nameless {N : Type} (ctx : Ctx N) (s : Str) : Prop :=
  ctx.getVariable s = none ∧ ctx.getConstant s = none ∧ ctx.getFunction s = none ∧ ctx.getBinary s = none ∧ ctx.getUnary s = none

theorem nameless_unknown {N : Type} {ctx : Ctx N} {e : Char} (he : isLetter e = true) (r : Str) : otherToken ctx (e :: r) = some (.unknown (e :: r)) := by
  rw [isLetter_iff] at he
  have n1 : e ≠ ',' := by rintro rfl; revert he; decide
  have n2 : e ≠ ' ' := by rintro rfl; revert he; decide
  have n3 : Grouping.new e = none := by
    unfold Grouping.new
    rw [if_neg, if_neg, if_neg]
    all_goals rintro (rfl | rfl) <;> revert he <;> decide
  cases r with
  | nil => simp [otherToken, n1, n2, Config.getGroupSymbol, n3]
  | cons d r => simp [otherToken]

theorem unknown_no_value {N : Type} (ctx : Ctx N) {ts : List (Token N)} {w : Str} (h : .unknown w ∈ ts) (v : N) : evalTokens ctx ts ≠ .ok v := by
  intro he
  obtain ⟨st, h1, _⟩ := evalTokens_ok he
  obtain ⟨i, hi⟩ := mem_getElem? h
  obtain ⟨s1, s2, hstep⟩ := syLoop_steps (by simp) h1 i (by omega) _ hi
  simp [syStep, dispatch] at hstep

/-- C138, what becomes of a number in scientific notation in an expression: if nothing is registered under `e` and the digits behind it, it is refused
as invalid input; if the exponent has a sign and nothing is registered under `e`, it has no value. -/
theorem C138_refused {rules : List Rule} (hr : rules = defaultRules ∨ rules = replRules false) (ctx : Ctx B64) {a d : Str} {q : ℚ} (h : Stands a q)
    {e : Char} (he : e = 'e' ∨ e = 'E') (hd : Digits d) :
    (Nameless ctx (e :: d) → eval fromStr (split rules) ctx (a ++ e :: d) = .err .invalidInput) ∧
    (Nameless ctx [e] → ∀ sign ∈ ['+', '-'], ∀ x, eval fromStr (split rules) ctx (a ++ e :: sign :: d) ≠ .ok x) := by
  have hl : isLetter e = true := by rcases he with rfl | rfl <;> decide
  have hle := isLetter_iff.1 hl
  obtain ⟨c, t, hat, hc⟩ := numeral_head h.numeral
  have hb : ∀ s, (a ++ s).all isWhitespace = false := fun s => by rw [hat]; exact head_not_blank hc _
  have hi : ∀ s, (e :: s == ['i']) = false := by
    intro s
    rcases he with rfl | rfl <;> simp
  have hnone : ∀ {s}, (∀ x ∈ s, '0' ≤ x ∧ x ≤ '9') → fromStr (e :: s) = none := by
    intro s hs
    refine (fromStr_identifier ⟨e, s, rfl, hle, fun x hx => .inr (.inl (hs x hx))⟩).2 ?_
    have hlow : e.toLower = 'e' := by rcases he with rfl | rfl <;> decide
    simp [numberNames, str, hlow]
  have ha := fromStr_stands h
  constructor
  · rintro ⟨h1, h2, h3, h4, h5⟩
    have hsplit : split rules (a ++ e :: d) = [a, e :: d] := by
      rw [split_stop (plain_of hr) h.numeral hl, split_identifier (plain_of hr) ⟨e, d, rfl, hle, fun x hx => .inr (.inl (hd.2 x hx))⟩]
    simp only [eval, tokenize, hb, Bool.false_eq_true, if_false, hsplit, tokenizeLoop, ha, hi, Bool.and_false, hnone hd.2, Ctx.isVariable, Ctx.isConstant,
      Ctx.isFunction, Ctx.isBinary, Ctx.isUnary, h1, h2, h3, h4, h5, Option.isSome_none, Bool.or_self, nameless_unknown hl, Res.bind_ok]
    simp [evalTokens, infixToRpn, syLoop, syStep, dispatch, implicitMulBlock, implicitMulHere]
  · rintro ⟨h1, h2, h3, h4, h5⟩ sign hsign x hx
    have hsplit : split rules (a ++ e :: sign :: d) = a :: [e] :: split rules (sign :: d) := by
      have : (sign :: d).takeWhile (fun x => isLetter x || isDigit x || x == '_') = [] := by
        rw [List.takeWhile_cons, if_neg]
        have key : ∀ y ∈ ['+', '-'], ¬ (isLetter y || isDigit y || y == '_') = true := by decide
        exact key sign hsign
      rw [split_stop (plain_of hr) h.numeral hl, split_cons, (plain_of hr).letter e _ hl, this]
      simp
    simp only [eval, tokenize, hb, Bool.false_eq_true, if_false, hsplit, tokenizeLoop, ha, hi, Bool.and_false, hnone (s := []) (by simp), Ctx.isVariable,
      Ctx.isConstant, Ctx.isFunction, Ctx.isBinary, Ctx.isUnary, h1, h2, h3, h4, h5, Option.isSome_none, Bool.or_self, nameless_unknown hl] at hx
    cases htl : tokenizeLoop fromStr ctx (some [e]) (split rules (sign :: d)) with
    | err k => rw [htl] at hx; cases hx
    | panic => rw [htl] at hx; cases hx
    | ok ts =>
      rw [htl] at hx
      exact unknown_no_value ctx (ts := .number (of false q) :: .unknown [e] :: ts) (w := [e]) (by simp) x hx

/-- C138 fails for expressions: with implicit multiplication, `2e-3` is accepted in the checked context and is 2 times the constant `E`, minus 3. -/
theorem C138_counterexample (K : Keys) (debug docs : Bool) (lib : Libm) (draw : B64) : ∃ c x,
    Context.checked K debug docs (f64 lib draw) ((f64 lib draw).num B64.num) ((Config.new).withImplicitMul true) = .ok c ∧
    Scientific (str "2e-3") (2 * 10 ^ (-3 : ℤ)) ∧ eval fromStr (split defaultRules) (c.view K) (str "2e-3") = .ok x ∧ 2 < x.val := by
  obtain ⟨c, hc, hv⟩ := checked_build K debug docs (f64 lib draw) ((f64 lib draw).num B64.num) ((Config.new).withImplicitMul true) _ _ rfl rfl
  refine ⟨c, B64.sub (B64.mul (lit 2) B64.e) (lit 3), hc, ?_, ?_, by decide +kernel⟩
  · have h := Scientific.mk (a := str "2") (x := str "-3") (e := 'e') (.whole ⟨by decide, by decide⟩) (.inl rfl) (.minus (d := str "3") ⟨by decide, by decide⟩)
    have e1 : digitsValue (str "2") = 2 := by decide
    have e2 : digitsValue (str "3") = 3 := by decide
    rw [e1, e2] at h
    exact_mod_cast h
  · rw [hv]
    have hs : split defaultRules (str "2e-3") = [str "2", str "e", str "-", str "3"] := by decide +kernel
    have h2 : fromStr (str "2") = some (lit 2) := by decide +kernel
    have h3 : fromStr (str "3") = some (lit 3) := by decide +kernel
    have h4 : fromStr (str "e") = none := by decide +kernel
    have h5 : fromStr (str "-") = none := by decide +kernel
    have hb : (str "2e-3").all isWhitespace = false := by decide
    have hf : lookup hashSame (Ops.checkedFunctions docs (f64 lib draw) ((f64 lib draw).num B64.num)) (str "-") = none := by cases docs <;> rfl
    have hbm : lookup hashSame (Ops.checkedBinary (f64 lib draw) ((f64 lib draw).num B64.num)) (str "-") = some (Ops.checkedSub ((f64 lib draw).num B64.num)).fn := rfl
    have hbt : lookup hashSame (Ops.checkedBinary (f64 lib draw) ((f64 lib draw).num B64.num)) (str "*") = some (Ops.checkedMul ((f64 lib draw).num B64.num)).fn := rfl
    have hum : lookup hashSame (Ops.checkedUnary (f64 lib draw) ((f64 lib draw).num B64.num)) (str "-") = some (Ops.checkedNeg ((f64 lib draw).num B64.num)).fn := rfl
    have hce : lookupConstant hashSame [(str "PI", (f64 lib draw).pi), (str "E", (f64 lib draw).e)] (str "e") = some B64.e := rfl
    have hcm : lookupConstant hashSame [(str "PI", (f64 lib draw).pi), (str "E", (f64 lib draw).e)] (str "-") = none := rfl
    have hcx : ((Config.new).withImplicitMul true).complexNumber = false := rfl
    have him : ((Config.new).withImplicitMul true).implicitMul = true := rfl
    generalize (Config.new).withImplicitMul true = config at hcx him
    generalize hctx : tablesCtx config [(str "PI", (f64 lib draw).pi), (str "E", (f64 lib draw).e)]
        (Ops.checkedBinary (f64 lib draw) ((f64 lib draw).num B64.num)) (Ops.checkedUnary (f64 lib draw) ((f64 lib draw).num B64.num))
        (Ops.checkedFunctions docs (f64 lib draw) ((f64 lib draw).num B64.num)) = ctx
    have hvar : ∀ s, ctx.getVariable s = none := fun s => by rw [← hctx]; rfl
    replace hcx : ctx.config.complexNumber = false := by rw [← hctx]; exact hcx
    replace him : ctx.config.implicitMul = true := by rw [← hctx]; exact him
    replace hf : ctx.getFunction (str "-") = none := by rw [← hctx]; exact hf
    replace hbm : ctx.getBinary (str "-") = some (Ops.checkedSub ((f64 lib draw).num B64.num)).fn := by rw [← hctx]; exact hbm
    replace hbt : ctx.getBinary (str "*") = some (Ops.checkedMul ((f64 lib draw).num B64.num)).fn := by rw [← hctx]; exact hbt
    replace hum : ctx.getUnary (str "-") = some (Ops.checkedNeg ((f64 lib draw).num B64.num)).fn := by rw [← hctx]; exact hum
    replace hce : ctx.getConstant (str "e") = some B64.e := by rw [← hctx]; exact hce
    replace hcm : ctx.getConstant (str "-") = none := by rw [← hctx]; exact hcm
    have hnot : (Ops.checkedNeg ((f64 lib draw).num B64.num)).fn.notation_ = .pre := rfl
    have htok : tokenize fromStr (split defaultRules) ctx (str "2e-3") = .ok [.number (lit 2), .constant (str "e"), .binary (str "-"), .number (lit 3)] := by
      rw [tokenize, hb, hs]
      simp [tokenizeLoop, h2, h3, h4, h5, Ctx.isVariable, Ctx.isConstant, Ctx.isFunction, Ctx.isBinary, Ctx.isUnary, hvar, hcx, hce, hcm, hf, hbm, hum,
        operatorToken, isUnaryOp, hnot]
    have := C01_eval_eq_denote ctx (.bin (str "-") (.imp (.atom (.num (lit 2))) (.atom (.const (str "e")))) (.atom (.num (lit 3)))) ?_
    · rw [eval, htok]
      refine Eq.trans (by simpa [Expr.render, Atom.token] using this) ?_
      simp [Expr.denote, Atom.denote, hce, hbm, Res.ofOption, show ['*'] = str "*" from rfl, hbt]
      rfl
    · simp [Expr.WF, Expr.rightSpine, Expr.leftSpine, him, Expr.impLeft, Expr.impRight, GroupsLeft, hbm, show ['*'] = str "*" from rfl, hbt]
      exact .inl (show Ops.low < Ops.medium by decide)

/-- `1.25E+2` is 125 in scientific notation, and nothing is named `E2`, `e2` or `e` in a context without names. -/
example : Scientific (str "1.25E+2") 125 ∧ Nameless (Demo.ctx false false) (str "e2") ∧ Nameless (Demo.ctx false false) (str "e") := by
  refine ⟨?_, ⟨rfl, rfl, rfl, rfl, rfl⟩, ⟨rfl, rfl, rfl, rfl, rfl⟩⟩
  have h := Scientific.mk (a := str "1.25") (x := str "+2") (e := 'E') (.pointed (a := str "1") (b := str "25") ⟨by decide, by decide⟩ ⟨by decide, by decide⟩)
    (.inr rfl) (.plus (d := str "2") ⟨by decide, by decide⟩)
  have e1 : digitsValue (str "1" ++ str "25") = 125 := by decide
  have e2 : digitsValue (str "2") = 2 := by decide
  have e3 : (str "25").length = 2 := by decide
  rw [e1, e2, e3] at h
  norm_num at h
  exact h

end Prexel
