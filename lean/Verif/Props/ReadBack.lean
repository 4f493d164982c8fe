import Verif.Lemmas.Numerals
import Verif.Props.Apps
import Verif.Props.Integer
import Verif.Props.Decimal

/-!
# Printed results read back (C108)
-/
namespace Prexel
open Demo (ctx)
variable {N D F T : Type}

/-! ## Integers, in the library -/

/-- The texts that integers are printed as: digits, with a minus sign if the integer is negative. -/
theorem int_text {w : Width} (x : SInt w) :
    ∃ s, Digits s ∧ ((0 ≤ x.1 ∧ (toString x.1).toList = s ∧ (digitsValue s : Int) = x.1) ∨
      (x.1 < 0 ∧ (toString x.1).toList = '-' :: s ∧ (digitsValue s : Int) = - x.1)) := by
  rw [toString_int]
  by_cases h : 0 ≤ x.1
  · refine ⟨_, toDigits_digits x.1.toNat, .inl ⟨h, by rw [if_pos h], ?_⟩⟩
    rw [toDigits_value]; omega
  · refine ⟨_, toDigits_digits (-x.1).toNat, .inr ⟨by omega, by rw [if_neg h], ?_⟩⟩
    rw [toDigits_value]; omega

theorem of?_val {w : Width} (x : SInt w) : SInt.of? x.1 = some x := by
  unfold SInt.of?
  rw [dif_pos x.2]
  rfl

theorem neg_fits {w : Width} (x : SInt w) (h : x.1 ≠ w.lo) : w.Fits (- x.1) := by
  have := x.2
  simp only [Width.Fits, Width.lo, Width.hi] at this h ⊢
  omega

/-- An integer evaluated from its own printed text, in any context with a minus sign that negates. -/
theorem int_read_back {w : Width} {rules : List Rule} (hr : PlainRules rules) (c : Ctx (SInt w)) {f : UnFn (SInt w)}
    (hu : c.getUnary ['-'] = some f) (hp : f.notation_ = .pre) (hneg : ∀ x y : SInt w, y.1 = - x.1 → f.call x = .ok y) (x : SInt w)
    (hx : x.1 ≠ w.lo) (hd : x.1 < 0 → DashFree c) : eval (SInt.parse w) (split rules) c (toString x.1).toList = .ok x := by
  obtain ⟨s, hs, ⟨h1, h2, h3⟩ | ⟨h1, h2, h3⟩⟩ := int_text x
  · rw [h2]
    exact eval_word _ hr c (.numeral (.whole hs)) (by rw [parse_digits w hs, h3]; exact of?_val x)
  · rw [h2]
    have := neg_fits x hx
    rw [eval_dash _ hr c (.numeral (.whole hs)) (n := ⟨-x.1, this⟩) (by rw [parse_digits w hs, h3]; exact of?_val ⟨-x.1, this⟩) (by rfl) (hd h1) hu hp]
    exact hneg _ _ (by simp)

theorem plain_of {rules : List Rule} (h : rules = defaultRules ∨ rules = replRules false) : PlainRules rules := by
  rcases h with rfl | rfl
  · exact defaultRules_plain
  · exact replRules_plain

theorem same_val {w : Width} {x y : SInt w} (h : x.1 = y.1) : x = y := Subtype.ext h

/-- C108 for integers, the part that holds. In the checked context, after anything that was registered since, the text that an integer is printed
as evaluates to that integer, whether it is split as by the library or as at the prompt. A negative one needs that nothing but the operator is
named `-`. Missing: the smallest integer, see the counterexample. -/
theorem C108_checked_partial {w : Width} {K : Keys} {debug docs : Bool} {f : F64 F} {toF64 : SInt w → F} {fromF64 : F → Option (SInt w)}
    {config : Config} {c : Context (SInt w)} (hc : Context.checked K debug docs f (SInt.num w debug toF64 fromF64) config = .ok c)
    (os : List (Op (SInt w))) {rules : List Rule} (hr : rules = defaultRules ∨ rules = replRules false) (x : SInt w) (hx : x.1 ≠ w.lo)
    (hd : x.1 < 0 → DashFree ((c.runAll K debug os).view K)) :
    eval (SInt.parse w) (split rules) ((c.runAll K debug os).view K) (toString x.1).toList = .ok x := by
  obtain ⟨pi, e, hv⟩ := checked_inv hc
  have hu : (c.view K).getUnary ['-'] = some (Ops.checkedNeg (SInt.num w debug toF64 fromF64)).fn := by rw [hv]; rfl
  refine int_read_back (plain_of hr) _ ((C26_never_replaced K debug c os _).2.1 _ hu) rfl ?_ x hx hd
  intro x y h
  show Ops.orOverflow (SInt.of? (-x.1)) = _
  rw [← h, of?_val]
  rfl

/-- C108 for integers in the unchecked context, the part that holds. Missing: the smallest integer. -/
theorem C108_unchecked_partial {w : Width} {K : Keys} {debug : Bool} {f : F64 F} {toF64 : SInt w → F} {fromF64 : F → Option (SInt w)}
    {config : Config} {c : Context (SInt w)} (hc : Context.unchecked K debug f (SInt.num w debug toF64 fromF64) config = .ok c)
    (os : List (Op (SInt w))) {rules : List Rule} (hr : rules = defaultRules ∨ rules = replRules false) (x : SInt w) (hx : x.1 ≠ w.lo)
    (hd : x.1 < 0 → DashFree ((c.runAll K debug os).view K)) :
    eval (SInt.parse w) (split rules) ((c.runAll K debug os).view K) (toString x.1).toList = .ok x := by
  obtain ⟨pi, e, hv⟩ := unchecked_inv hc
  have hu : (c.view K).getUnary ['-'] = some (Ops.uncheckedNeg (SInt.num w debug toF64 fromF64)).fn := by rw [hv]; rfl
  refine int_read_back (plain_of hr) _ ((C26_never_replaced K debug c os _).2.1 _ hu) rfl ?_ x hx hd
  intro x y h
  show SInt.arith debug (-x.1) = _
  rw [SInt.arith, ← h, of?_val]

/-! ## The server -/

/-- A text that is printed for a number of the type can be read: it is a numeral (or a word such as `inf`) that is read as a number printed
the same, or a minus sign and such a numeral that is read as a number whose negative is printed as the whole text. -/
def Backend.Reads (b : Backend N) (neg : N → Res N) (t : Str) : Prop :=
  ∃ s m, NumberWord s ∧ b.read s = some m ∧ ((t = s ∧ b.shown m = t) ∨ (t = '-' :: s ∧ ∃ m', neg m = .ok m' ∧ b.shown m' = t))

theorem serve_again (b : Backend N) (K : Keys) (debug : Bool) (config : Config) (vs : List (Str × Str)) (hn : (vs.map (·.1)).Nodup)
    (hr : PlainRules b.rules) (hdash : b.read ['-'] = none) {f : UnFn N} (hp : f.notation_ = .pre)
    (hctx : ∀ c, b.context config = .ok c → (c.view K).getUnary ['-'] = some f ∧ DashFree (c.view K)) {expression t : Str}
    (hres : b.serve K debug config vs expression = .result t) (hread : b.Reads f.call t) (hv : ∀ s, t = '-' :: s → ∀ e ∈ vs, e.1 ≠ ['-']) :
    b.serve K debug config vs t = .result t := by
  rw [serve_result b K debug config vs hn] at hres ⊢
  obtain ⟨c, hc, hset, -⟩ := hres
  obtain ⟨hu, hfree⟩ := hctx c hc
  refine ⟨c, hc, hset, ?_⟩
  obtain ⟨s, m, hs, hm, ⟨rfl, h⟩ | ⟨rfl, m', hm', h⟩⟩ := hread
  · exact ⟨m, eval_word _ hr _ hs hm, h⟩
  · refine ⟨m', ?_, h⟩
    have hb : boundTo b.readVariable vs ['-'] = none := by
      have : vs.find? (fun e => e.1 == ['-']) = none := List.find?_eq_none.2 fun e he => by simpa using hv s rfl e he
      rw [boundTo, this]
      rfl
    have hf : DashFree ((c.view K).withVariables b.readVariable vs) := ⟨by simp [Ctx.withVariables, hb, hfree.1], hfree.2.1, hfree.2.2⟩
    exact (eval_dash _ hr _ hs hm hdash hf hu hp).trans hm'

/-- The texts that can be entered again: integers other than the smallest; decimals and floats as far as `rust_decimal` and the standard library read
what they print (`Backend.Reads`), which is their contract. -/
def World.reads (W : World D F T) (n : NumberType) (t : Str) : Prop :=
  match n with
  | .decimal => W.readDecimal ['-'] = none ∧ W.decimalBackend.Reads (fun x => .ok (W.dec.neg x)) t
  | .float => W.readFloat ['-'] = none ∧ W.floatBackend.Reads (fun x => .ok (W.floatNum.neg x)) t
  | .integer => t ≠ str "-170141183460469231731687303715884105728"
  | _ => False

/-- C108 at the server, the part that holds. The text of a result, sent as the expression of the same request, is answered with itself. With a
negative result no variable may be named `-`. Missing: the smallest integer and binary numbers, see the counterexamples. Complex numbers are in
`C108_complex_partial`. -/
theorem C108_server_partial (W : World D F T) (r : Request F) (hn : r.Distinct) {t : Str} (hres : W.evalExpression r = .result t)
    (hread : W.reads r.numberType t) (hv : ∀ s, t = '-' :: s → ∀ e ∈ r.variables.getD [], e.1 ≠ ['-']) :
    W.evalExpression { r with expression := t } = .result t := by
  have hn' : ((W.texts r).map (·.1)).Nodup := by simpa [World.texts, Request.Distinct, Function.comp_def] using hn
  have hv' : ∀ s, t = '-' :: s → ∀ e ∈ W.texts r, e.1 ≠ ['-'] := by
    intro s hs e he
    simp only [World.texts, List.mem_map] at he
    obtain ⟨e', he', rfl⟩ := he
    exact hv s hs e' he'
  have htype : r.numberType = r.type.getD .decimal := by unfold Request.numberType; cases r.type <;> rfl
  unfold World.evalExpression at hres ⊢
  rw [htype] at hread
  simp only at hres ⊢
  cases ht : r.type.getD .decimal with
  | decimal =>
    rw [ht] at hres hread
    refine serve_again _ W.K W.debug serverConfig _ hn' defaultRules_plain hread.1 (f := (Dec.negOp W.dec).fn) rfl ?_ hres hread.2 hv'
    intro c hc
    rw [decimal_inv hc]
    exact ⟨rfl, rfl, rfl, rfl⟩
  | float =>
    rw [ht] at hres hread
    refine serve_again _ W.K W.debug serverConfig _ hn' defaultRules_plain hread.1 (f := (Ops.checkedNeg (W.f.num W.floatNum)).fn) rfl ?_ hres hread.2 hv'
    intro c hc
    obtain ⟨pi, e, h⟩ := checked_inv (show Context.checked W.K W.debug true W.f (W.f.num W.floatNum) serverConfig = .ok c from hc)
    rw [h]
    exact ⟨rfl, rfl, rfl, rfl⟩
  | integer =>
    rw [ht] at hres hread
    have hx : ∃ x, t = showInt x := by
      obtain ⟨c, hc, -, n, -, h⟩ := (serve_result _ _ _ _ _ hn' _ _).1 hres
      exact ⟨n, h.symm⟩
    obtain ⟨x, rfl⟩ := hx
    refine serve_again _ W.K W.debug serverConfig _ hn' defaultRules_plain rfl (f := (Ops.checkedNeg W.intNum).fn) rfl ?_ hres ?_ hv'
    · intro c hc
      obtain ⟨pi, e, h⟩ := checked_inv (show Context.checked W.K W.debug true W.f W.intNum serverConfig = .ok c from hc)
      rw [h]
      exact ⟨rfl, rfl, rfl, rfl⟩
    · have hlo : x.1 ≠ i128.lo := by
        intro h
        apply hread
        show showInt x = _
        unfold showInt
        rw [h]
        decide +kernel
      obtain ⟨s, hs, ⟨h1, h2, h3⟩ | ⟨h1, h2, h3⟩⟩ := int_text x
      · exact ⟨s, x, .numeral (.whole hs), by show SInt.parse i128 s = _; rw [parse_digits _ hs, h3]; exact of?_val x, .inl ⟨h2, rfl⟩⟩
      · have hf := neg_fits x hlo
        refine ⟨s, ⟨-x.1, hf⟩, .numeral (.whole hs), by show SInt.parse i128 s = _; rw [parse_digits _ hs, h3]; exact of?_val ⟨-x.1, hf⟩, .inr ⟨h2, x, ?_, rfl⟩⟩
        show Ops.orOverflow (SInt.of? (- -x.1)) = _
        rw [Int.neg_neg, of?_val]
        rfl
  | binary => rw [ht] at hread; exact hread.elim
  | complex => rw [ht] at hread; exact hread.elim

/-- C108 for the values of variables: the text of any integer, the smallest one included, is read as that integer. -/
theorem C108_variable (W : World D F T) (x : SInt i128) : W.integerBackend.readVariable (W.integerBackend.shown x) = some x := by
  show SInt.parse i128 (toString x.1).toList = some x
  obtain ⟨s, hs, ⟨h1, h2, h3⟩ | ⟨h1, h2, h3⟩⟩ := int_text x
  · rw [h2, parse_digits _ hs, h3]; exact of?_val x
  · rw [h2]
    show SInt.signed i128 10 true s = _
    unfold SInt.signed
    rw [if_neg hs.1, digits_value 0 s fun c hc => isDigit_iff.2 (hs.2 c hc)]
    show SInt.of? (-(digitsValue s : Int)) = _
    rw [h3, Int.neg_neg]
    exact of?_val x

/-- A request whose answer is `-5`: sent again, it is answered with `-5`. -/
example : (Demo.world true).evalExpression (Demo.request .integer "2x + y" [("x", "-20"), ("y", "35")]) = .result (str "-5") ∧
    (Demo.request .integer "2x + y" [("x", "-20"), ("y", "35")]).Distinct ∧
    (Demo.world true).reads (Demo.request .integer "2x + y" [("x", "-20"), ("y", "35")]).numberType (str "-5") := by
  refine ⟨by decide +kernel, by unfold Request.Distinct; decide +kernel, ?_⟩
  show str "-5" ≠ _
  decide

/-- The same with decimals, whose texts the demo world reads. -/
example : (Demo.world true).reads .decimal (str "-5") := by
  refine ⟨rfl, str "5", Demo.decimal 5, .numeral (.whole ⟨by decide, by decide⟩), by decide +kernel, .inr ⟨rfl, _, rfl, by decide +kernel⟩⟩

/-- C108 fails for the smallest integer: the answer is refused as an expression. -/
theorem C108_min_counterexample :
    (Demo.world true).evalExpression (Demo.request .integer "0 - x - 1" [("x", "170141183460469231731687303715884105727")]) =
      .result (str "-170141183460469231731687303715884105728") ∧
    (Demo.world true).evalExpression (Demo.request .integer "-170141183460469231731687303715884105728"
      [("x", "170141183460469231731687303715884105727")]) = .error (.library .invalidInput) := by
  constructor <;> decide +kernel

/-- C108 fails for binary numbers: they are printed without the `b` that binary literals need, and digits without it are read as a decimal number. -/
theorem C108_binary_counterexample :
    (Demo.world true).evalExpression (Demo.request .binary "b10 or b1" []) = .result (str "11") ∧
    (Demo.world true).evalExpression (Demo.request .binary "11" []) = .result (str "1011") := by
  constructor <;> decide +kernel

end Prexel
