import Verif.Model.ComplexText
import Verif.Props.ReadBackComplex
import Verif.Props.Literals
/-!
# Complex numbers over doubles: texts that read back (C108)
-/

set_option linter.unusedVariables false

namespace Prexel
open B64
variable {N D F T : Type}

/-! ## Signs between words -/

theorem default_sign_word {g : Char} (hg : g = '+' ∨ g = '-') {c : Char} (hc : isDigit c = true ∨ isLetter c = true) (rest : Str) :
    runRules defaultRules g (c :: rest) = (.data [g], c :: rest) := by
  have hc : operatorChars.contains c = false := hc.elim (fun h => (digit_not_letter h).2.1) (fun h => (letter_not_digit h).2.1)
  have h5 : (c :: rest).takeWhile (fun c => operatorChars.contains c) = [] := by rw [List.takeWhile_cons, hc]; rfl
  have : splitWithOperators operatorChars g (c :: rest) = (.data [g], 0) := by
    unfold splitWithOperators spanRule
    rw [h5, if_pos (by rcases hg with rfl | rfl <;> decide)]
    rfl
  have h1 : isDigit g = false := by rcases hg with rfl | rfl <;> decide
  have h2 : isLetter g = false := by rcases hg with rfl | rfl <;> decide
  have h3 : g ≠ '_' := by rcases hg with rfl | rfl <;> decide
  simp [defaultRules, splitterNew, runRules, splitNumeric, splitIdentifier, splitOperator, this, spanRule, h1, h2, h3]

theorem split_sign_word {g : Char} (hg : g = '+' ∨ g = '-') {s : Str} (h : NumberWord s) (rest : Str) :
    split defaultRules (g :: (s ++ rest)) = [g] :: split defaultRules (s ++ rest) := by
  obtain ⟨c, r, rfl, hc⟩ := h.head
  rw [List.cons_append, split_cons, default_sign_word hg hc]

theorem takeWhile_until (r : Str) (p : Char → Bool) (h : ∀ x ∈ r, p x = true) {d : Char} (hd : p d = false) (rest : Str) :
    (r ++ d :: rest).takeWhile p = r := by
  induction r with
  | nil => simp [hd]
  | cons c r ih => simp [h c (by simp), ih fun x hx => h x (by simp [hx])]

/-- A number is split from a sign behind it. -/
theorem split_word_sign {s : Str} (h : NumberWord s) {g : Char} (hg : g = '+' ∨ g = '-') (rest : Str) :
    split defaultRules (s ++ g :: rest) = s :: split defaultRules (g :: rest) := by
  have h1 : isDigit g = false := by rcases hg with rfl | rfl <;> decide
  cases h with
  | numeral h => exact split_numeral defaultRules_plain h h1 (by rcases hg with rfl | rfl <;> decide) rest
  | letters hne hl =>
    cases s with
    | nil => exact absurd rfl hne
    | cons c r =>
      have : ((r ++ g :: rest).takeWhile fun x => isLetter x || isDigit x || x == '_') = r :=
        takeWhile_until r _ (fun x hx => by simp [isLetter_iff.2 (hl x (by simp [hx]))]) (by rcases hg with rfl | rfl <;> decide) rest
      rw [List.cons_append, split_cons, defaultRules_plain.letter c _ (isLetter_iff.2 (hl c (by simp))), this]
      simp

/-- The text behind the sign: a numeral and `i`, or a word of letters; its words, and the number read from it. -/
inductive Imaginary (parse : Str → Option N) : Str → N → Prop
  | numeral {t : Str} {y' y : N} : Numeral t → parse t = some y' → parse (t ++ ['i']) = some y → Imaginary parse (t ++ ['i']) y
  | letters {w : Str} {y : N} : w ≠ [] → (∀ c ∈ w, ('a' ≤ c ∧ c ≤ 'z') ∨ ('A' ≤ c ∧ c ≤ 'Z')) → w ≠ ['i'] → parse w = some y → Imaginary parse w y

theorem Imaginary.words {parse : Str → Option N} {w : Str} {y : N} (h : Imaginary parse w y) {g : Char} (hg : g = '+' ∨ g = '-') :
    ∃ ws, split defaultRules (g :: w) = [g] :: ws ∧ ws ≠ [] ∧
      ∀ (ctx : Ctx N), ctx.config.complexNumber = true → tokenizeLoop parse ctx (some [g]) ws = .ok [.number y] := by
  have hgi : (([g] : Str) == ['i']) = false := by rcases hg with rfl | rfl <;> decide
  cases h with
  | @numeral t y' y hn ht hti =>
    refine ⟨[t, ['i']], ?_, by simp, fun ctx hcfg => by simp [tokenizeLoop, ht, hcfg, hti]⟩
    rw [split_sign hg hn, split_numeral defaultRules_plain hn (by decide) (by decide), split_numberWord defaultRules_plain (.letters (by decide) (by decide))]
  | letters hne hl hi hp =>
    refine ⟨[w], ?_, by simp, fun ctx hcfg => by simp [tokenizeLoop, hp]⟩
    have := split_sign_word hg (.letters hne hl) []
    rw [List.append_nil] at this
    rw [this, split_numberWord defaultRules_plain (.letters hne hl)]

theorem tokenize_sides (parse : Str → Option N) (ctx : Ctx N) {g : Char} (hg : g = '+' ∨ g = '-') {s : Str} {x y : N} (hs : parse s = some x)
    {ws : List Str} (hne : ws ≠ []) (hws : tokenizeLoop parse ctx (some [g]) ws = .ok [.number y]) (hd : parse [g] = none)
    (hf : SignFree ctx g) {f : BinFn N} (hb : ctx.getBinary [g] = some f) {u : UnFn N} (hu : ctx.getUnary [g] = some u) (hp : u.notation_ = .pre)
    (prev : Option Str) :
    tokenizeLoop parse ctx prev (s :: [g] :: ws) = .ok [.number x, .binary [g], .number y] := by
  have hgi : (([g] : Str) == ['i']) = false := by rcases hg with rfl | rfl <;> decide
  have h1 : isUnaryOp parse ctx (some s) [g] (some [g]) = .ok false := by
    unfold isUnaryOp
    rw [hu]
    simp only [hp, Option.isNone_some, Bool.false_eq_true, if_false, hs, Option.isSome_some, Bool.true_or, if_true]
    split <;> rfl
  have hem : ws.isEmpty = false := by cases ws with | nil => exact absurd rfl hne | cons => rfl
  have h2 : operatorToken parse ctx (some s) [g] false = .ok (.binary [g]) := by
    simp [operatorToken, h1]
  simp [tokenizeLoop, hs, hgi, hd, Ctx.isVariable, hf.1, Ctx.isConstant, hf.2.1, Ctx.isFunction, hf.2.2, Ctx.isBinary, hb, h2, hws, hem]

theorem word_not_blank {s : Str} (h : NumberWord s) (rest : Str) : (s ++ rest).all isWhitespace = false := by
  obtain ⟨c, r, rfl, hc⟩ := h.head
  refine notBlank_of ?_
  rw [Bool.eq_false_iff]
  intro hw
  rcases hc with hc | hc
  · rw [ws_not_digit hw] at hc; exact absurd hc (by simp)
  · rw [ws_not_letter hw] at hc; exact absurd hc (by simp)

/-- The operator applied to the two numbers. -/
theorem eval_sides (parse : Str → Option N) (ctx : Ctx N) (hcfg : ctx.config.complexNumber = true) {g : Char} (hg : g = '+' ∨ g = '-')
    {s w : Str} (ns : NumberWord s) {x y : N} (hw : Imaginary parse w y) (hs : parse s = some x)
    (hd : parse [g] = none) (hf : SignFree ctx g) {f : BinFn N} (hb : ctx.getBinary [g] = some f) {u : UnFn N} (hu : ctx.getUnary [g] = some u)
    (hp : u.notation_ = .pre) : eval parse (split defaultRules) ctx (s ++ g :: w) = f.call x y := by
  obtain ⟨ws, h1, h2, h3⟩ := hw.words hg
  simp only [eval, tokenize, word_not_blank ns, Bool.false_eq_true, if_false, split_word_sign ns hg, h1,
    tokenize_sides parse ctx hg hs h2 (h3 ctx hcfg) hd hf hb hu hp none, Res.bind_ok]
  exact eval_infix ctx hb x y

/-- With a minus sign before the first number: the sign applies to it. -/
theorem eval_dash_sides (parse : Str → Option N) (ctx : Ctx N) (hcfg : ctx.config.complexNumber = true) {g : Char} (hg : g = '+' ∨ g = '-')
    {s w : Str} (ns : NumberWord s) {x y : N} (hw : Imaginary parse w y) (hs : parse s = some x)
    (hd : parse [g] = none) (hd' : parse ['-'] = none) (hf : SignFree ctx g) (hf' : SignFree ctx '-') {f : BinFn N} (hb : ctx.getBinary [g] = some f)
    {u : UnFn N} (hu : ctx.getUnary [g] = some u) (hp : u.notation_ = .pre) {v : UnFn N} (hv : ctx.getUnary ['-'] = some v)
    (hpv : v.notation_ = .pre) :
    eval parse (split defaultRules) ctx ('-' :: (s ++ g :: w)) = (v.call x).bind fun x' => f.call x' y := by
  obtain ⟨ws, h1, h2, h3⟩ := hw.words hg
  have hb' : ('-' :: (s ++ g :: w)).all isWhitespace = false := notBlank_of (by decide)
  have hop : operatorToken parse ctx none ['-'] false = .ok (.unary ['-']) := by simp [operatorToken, isUnaryOp, hv, hpv]
  have hl : tokenizeLoop parse ctx none (['-'] :: s :: [g] :: ws) = .ok [.unary ['-'], .number x, .binary [g], .number y] := by
    rw [tokenizeLoop]
    simp only [hd', Ctx.isVariable, hf'.1, Ctx.isConstant, hf'.2.1, Ctx.isFunction, hf'.2.2, Option.isSome_none, Ctx.isUnary, hv, Option.isSome_some,
      Bool.or_true, if_true, List.isEmpty_cons, hop, Res.bind_ok, Bool.false_eq_true, if_false,
      tokenize_sides parse ctx hg hs h2 (h3 ctx hcfg) hd hf hb hu hp]
  simp only [eval, tokenize, hb', Bool.false_eq_true, if_false, split_sign_word (.inr rfl) ns, split_word_sign ns hg, h1, hl, Res.bind_ok]
  have := C01_eval_eq_denote ctx (.bin [g] (.signed ['-'] (.num x)) (.atom (.num y)))
    ⟨⟨f, hb⟩, by simp [Expr.rightSpine], by simp [Expr.leftSpine], ⟨v, hv, hpv⟩, trivial⟩
  refine this.trans ?_
  simp [Expr.denote, Atom.denote, hb, hv, Res.ofOption]

end Prexel

namespace Prexel.B64

theorem zero_isFin (a : Bool) : (zero a).isFin := ⟨rfl, rfl⟩
theorem zero_val (a : Bool) : (zero a).val = 0 := by unfold zero val; simp

theorem fin_zero {a : Bool} {k : ℕ} {h : Fits k} (hv : (B64.fin a k h).val = 0) : B64.fin a k h = zero a :=
  eq_of_val ⟨rfl, rfl⟩ (zero_isFin a) (by rw [hv, zero_val]) rfl

theorem add_zero' {x : B64} {b : Bool} (h : b = false → x ≠ zero true) : add x (zero b) = x := by
  cases x with
  | nan => rfl
  | inf a => rfl
  | fin a k hk =>
    have hf : (B64.fin a k hk).isFin := ⟨rfl, rfl⟩
    rw [add_fin hf (zero_isFin b), zero_val, add_zero]
    obtain ⟨h1, h2⟩ := of_double ((B64.fin a k hk).sign && (zero b).sign) (isDouble_val hf)
    refine eq_of_val h1 hf h2 ?_
    obtain ⟨s1, s2, s3⟩ := of_sign ((B64.fin a k hk).sign && (zero b).sign) (B64.fin a k hk).val
    rcases lt_trichotomy (B64.fin a k hk).val 0 with hv | hv | hv
    · rw [s1 hv, sign_fin_neg hf hv]
    · rw [s3 hv]
      have := fin_zero hv
      show (a && b) = a
      cases a <;> cases b <;> try rfl
      exact absurd this (h rfl)
    · rw [s2 hv, sign_fin_pos hf hv]

theorem zero_add' {x : B64} {b : Bool} (h : b = false → x ≠ zero true) : add (zero b) x = x := by
  have : add (zero b) x = add x (zero b) := by
    cases x with
    | nan => rfl
    | inf a => rfl
    | fin a k hk => rw [add_fin (zero_isFin b) ⟨rfl, rfl⟩, add_fin ⟨rfl, rfl⟩ (zero_isFin b), add_comm, Bool.and_comm]
  rw [this, add_zero' h]

theorem sub_zero' (x : B64) : sub x (zero false) = x := by
  show add x (zero true) = x
  exact add_zero' (by simp)

theorem neg_neg' (x : B64) : neg (neg x) = x := by
  cases x <;> simp [neg]

theorem lt_zero_cases (x : B64) (hx : x ≠ zero true) :
    (x.lt (zero false) = false ∧ (x = .nan ∨ x = .inf false ∨ ∃ k h, x = .fin false k h)) ∨
    (x.lt (zero false) = true ∧ sub (zero false) x = neg x ∧ neg x ≠ zero false ∧ (neg x = .inf false ∨ ∃ k h, neg x = .fin false k h)) := by
  cases x with
  | nan => exact .inl ⟨rfl, .inl rfl⟩
  | inf a => cases a with
    | false => exact .inl ⟨rfl, .inr (.inl rfl)⟩
    | true => exact .inr ⟨rfl, rfl, by simp [neg, zero], .inl rfl⟩
  | fin a k hk =>
    have hf : (B64.fin a k hk).isFin := ⟨rfl, rfl⟩
    cases a with
    | false =>
      refine .inl ⟨?_, .inr (.inr ⟨k, hk, rfl⟩)⟩
      rw [Bool.eq_false_iff, ne_eq, lt_fin hf (zero_isFin _), zero_val, not_lt]
      unfold val
      simp only [Bool.false_eq_true, if_false]
      exact div_nonneg (Nat.cast_nonneg _) perOne_pos.le
    | true =>
      have hv : (B64.fin true k hk).val ≠ 0 := fun h => hx (fin_zero h)
      have hlt : (B64.fin true k hk).val < 0 := by
        refine lt_of_le_of_ne ?_ hv
        unfold val
        simp only [if_true]
        exact div_nonpos_of_nonpos_of_nonneg (by simp) perOne_pos.le
      have hn : neg (.fin true k hk) = .fin false k hk := rfl
      refine .inr ⟨(lt_fin hf (zero_isFin _)).2 (by rw [zero_val]; exact hlt), ?_, ?_, .inr ⟨k, hk, hn⟩⟩
      · show add (zero false) (neg _) = _
        rw [hn]
        exact zero_add' fun _ h => by cases h
      · rw [hn]
        intro h
        apply hv
        have : (B64.fin false k hk).val = 0 := by rw [h, zero_val]
        rw [val_zero_iff] at this ⊢
        exact this

end Prexel.B64

namespace Prexel.C64
open B64

theorem cutAt_none {s : Str} (h : '+' ∉ s ∧ '-' ∉ s) : cutAt s = none := by
  induction s with
  | nil => rfl
  | cons p s ih =>
    cases s with
    | nil => rfl
    | cons c r =>
      have := ih ⟨fun hm => h.1 (by simp [hm]), fun hm => h.2 (by simp [hm])⟩
      have hc : ¬(c = '+' ∨ c = '-') := by
        rintro (rfl | rfl)
        · exact h.1 (by simp)
        · exact h.2 (by simp)
      simp [cutAt, hc, this]

theorem zero_read : fromStr ['0'] = some (zero false) := by decide +kernel
theorem one_read : fromStr ['1'] = some (lit 1) := by decide +kernel

/-- How a text without signs is read. -/
theorem read_plain {s : Str} (h : '+' ∉ s ∧ '-' ∉ s) :
    read s = if s.getLast? = some (if 'j' ∈ s then 'j' else 'i') then (fromStr (factor s.dropLast)).map (⟨zero false, ·⟩)
      else if 'j' ∈ s then none else (fromStr s).map (⟨·, zero false⟩) := by
  unfold read halves
  rw [cutAt_none h]
  by_cases hj : 'j' ∈ s
  · simp only [hj, if_true]
    by_cases hl : s.getLast? = some 'j'
    · simp only [hl, if_true, parts, zero_read]
      cases fromStr (factor s.dropLast) <;> rfl
    · simp [hl]
  · simp only [hj, if_false]
    by_cases hl : s.getLast? = some 'i'
    · simp only [hl, if_true, parts, zero_read]
      cases fromStr (factor s.dropLast) <;> rfl
    · have : fromStr (factor ['0']) = some (zero false) := by decide +kernel
      simp only [hl, if_false, parts]
      cases fromStr s <;> simp [minus, this]

theorem numeral_chars {s : Str} (h : Numeral s) : ∀ c ∈ s, isDigit c = true ∨ c = '.' := by
  intro c hc
  cases h with
  | whole h => exact .inl (isDigit_iff.2 (h.2 c hc))
  | pointed ha hb =>
    simp only [List.mem_append, List.mem_cons] at hc
    rcases hc with hc | hc | hc
    · exact .inl (isDigit_iff.2 (ha.2 c hc))
    · exact .inr hc
    · exact .inl (isDigit_iff.2 (hb.2 c hc))

theorem numeral_free {s : Str} (h : Numeral s) {c : Char} (h1 : isDigit c = false) (h2 : c ≠ '.') : c ∉ s := by
  intro hc
  rcases numeral_chars h c hc with h | h
  · rw [h1] at h; cases h
  · exact h2 h

theorem numeral_ne {s : Str} (h : Numeral s) : s ≠ [] := by
  obtain ⟨c, r, rfl, -⟩ := h.head
  simp

theorem read_numeral {s : Str} (h : Numeral s) : read s = (fromStr s).map (⟨·, zero false⟩) := by
  rw [read_plain ⟨numeral_free h (by decide) (by decide), numeral_free h (by decide) (by decide)⟩]
  have hj : 'j' ∉ s := numeral_free h (by decide) (by decide)
  have hi : s.getLast? ≠ some 'i' := fun hl => numeral_free h (by decide) (by decide) (List.mem_of_getLast? hl)
  simp [hj, hi]

theorem read_numeral_i {s : Str} (h : Numeral s) : read (s ++ ['i']) = (fromStr s).map (⟨zero false, ·⟩) := by
  have h1 : '+' ∉ s := numeral_free h (by decide) (by decide)
  have h2 : '-' ∉ s := numeral_free h (by decide) (by decide)
  have hj : 'j' ∉ s := numeral_free h (by decide) (by decide)
  rw [read_plain ⟨by simp [h1], by simp [h2]⟩]
  have hne := numeral_ne h
  have hf : factor s = s := by
    have e1 : s ≠ ['+'] := by rintro rfl; exact h1 (by simp)
    have e2 : s ≠ ['-'] := by rintro rfl; exact h2 (by simp)
    simp [factor, hne, e1, e2]
  simp [hj, hf]

theorem stand_word {k : ℕ} (h : Fits k) : Numeral (toStr (.fin false k h)) := by
  obtain ⟨q, h1, -⟩ := digitsOf_stands h
  rw [toStr_pos]
  exact h1.numeral

/-- A number without a sign, as a real part and as an imaginary part. -/
theorem size_reads {m : B64} (hm : m = .nan ∨ m = .inf false ∨ ∃ k h, m = .fin false k h) :
    NumberWord (toStr m) ∧ read (toStr m) = some ⟨m, zero false⟩ ∧ Imaginary read (toStr m ++ ['i']) ⟨zero false, m⟩ := by
  have hr := toStr_reads m
  rcases hm with rfl | rfl | ⟨k, h, rfl⟩
  · exact ⟨.letters (by decide) (by decide), by decide +kernel, .letters (by decide) (by decide) (by decide) (by decide +kernel)⟩
  · exact ⟨.letters (by decide) (by decide), by decide +kernel, .letters (by decide) (by decide) (by decide) (by decide +kernel)⟩
  · have hn := stand_word h
    exact ⟨.numeral hn, by rw [read_numeral hn, hr]; rfl, .numeral hn (by rw [read_numeral hn, hr]; rfl) (by rw [read_numeral_i hn, hr]; rfl)⟩

/-- The text of a number, and how it is put together from its words. -/
theorem shown_cases (z : Cplx B64) (hre : z.re ≠ zero true) (him : z.im ≠ zero true) :
    ∃ (g : Char) (s w : Str) (m n : B64), (g = '+' ∨ g = '-') ∧ NumberWord s ∧ read s = some ⟨m, zero false⟩ ∧ Imaginary read w ⟨zero false, n⟩ ∧
      ((shown z = s ++ g :: w ∧ ∀ lib, (if g = '+' then (cx lib).cAdd ⟨m, zero false⟩ ⟨zero false, n⟩ else (cx lib).cSub ⟨m, zero false⟩ ⟨zero false, n⟩) = z) ∨
       (shown z = '-' :: (s ++ g :: w) ∧ ∀ lib, (if g = '+' then (cx lib).cAdd ((cx lib).cNeg ⟨m, zero false⟩) ⟨zero false, n⟩
          else (cx lib).cSub ((cx lib).cNeg ⟨m, zero false⟩) ⟨zero false, n⟩) = z)) := by
  obtain ⟨x, y⟩ := z
  simp only at hre him
  have hy : neg (zero false) = zero true := rfl
  rcases lt_zero_cases x hre with ⟨l1, c1⟩ | ⟨l1, e1, n1, c1⟩ <;> rcases lt_zero_cases y him with ⟨l2, c2⟩ | ⟨l2, e2, n2, c2⟩
  · obtain ⟨w1, r1, -⟩ := size_reads c1
    obtain ⟨-, -, i2⟩ := size_reads c2
    refine ⟨'+', _, _, x, y, .inl rfl, w1, r1, i2, .inl ⟨by simp [shown, l1, l2], fun lib => ?_⟩⟩
    simp only [if_true]
    show (⟨add x (zero false), add (zero false) y⟩ : Cplx B64) = _
    rw [add_zero' fun _ => hre, zero_add' fun _ => him]
  · obtain ⟨w1, r1, -⟩ := size_reads c1
    obtain ⟨-, -, i2⟩ := size_reads (.inr c2)
    refine ⟨'-', _, _, x, neg y, .inr rfl, w1, r1, i2, .inl ⟨by simp [shown, l1, l2, e2], fun lib => ?_⟩⟩
    rw [if_neg (by decide)]
    show (⟨sub x (zero false), add (zero false) (neg (neg y))⟩ : Cplx B64) = _
    rw [sub_zero', neg_neg', zero_add' fun _ => him]
  · obtain ⟨w1, r1, -⟩ := size_reads (.inr c1)
    obtain ⟨-, -, i2⟩ := size_reads c2
    refine ⟨'+', _, _, neg x, y, .inl rfl, w1, r1, i2, .inr ⟨by simp [shown, l1, l2, e1], fun lib => ?_⟩⟩
    simp only [if_true]
    show (⟨add (neg (neg x)) (zero false), add (zero true) y⟩ : Cplx B64) = _
    rw [neg_neg', add_zero' fun _ => hre, zero_add' fun h => by simp at h]
  · obtain ⟨w1, r1, -⟩ := size_reads (.inr c1)
    obtain ⟨-, -, i2⟩ := size_reads (.inr c2)
    refine ⟨'-', _, _, neg x, neg y, .inr rfl, w1, r1, i2, .inr ⟨by simp [shown, l1, l2, e1, e2], fun lib => ?_⟩⟩
    rw [if_neg (by decide)]
    show (⟨sub (neg (neg x)) (zero false), add (zero true) (neg (neg y))⟩ : Cplx B64) = _
    rw [neg_neg', neg_neg', sub_zero', zero_add' fun h => by simp at h]

end Prexel.C64

namespace Prexel
open B64
variable {D F : Type}

/-- What the evaluation of a printed number needs of a context: the configuration, and the operators `+` and `-` of the complex context. -/
theorem eval_shown (lib : C64.Lib) (ctx : Ctx (Cplx B64)) (hcfg : ctx.config.complexNumber = true) (hf : SignFree ctx '+') (hf' : SignFree ctx '-')
    (hadd : ∃ f, ctx.getBinary ['+'] = some f ∧ ∀ z w, f.call z w = .ok ((C64.cx lib).cAdd z w))
    (hsub : ∃ f, ctx.getBinary ['-'] = some f ∧ ∀ z w, f.call z w = .ok ((C64.cx lib).cSub z w))
    (hplus : ∃ u, ctx.getUnary ['+'] = some u ∧ u.notation_ = .pre)
    (hneg : ∃ u, ctx.getUnary ['-'] = some u ∧ u.notation_ = .pre ∧ ∀ z, u.call z = .ok ((C64.cx lib).cNeg z))
    (z : Cplx B64) (hre : z.re ≠ zero true) (him : z.im ≠ zero true) :
    eval C64.read (split defaultRules) ctx (C64.shown z) = .ok z := by
  obtain ⟨g, s, w, m, n, hg, ns, hs, hw, hh⟩ := C64.shown_cases z hre him
  have hplus' : C64.read ['+'] = none := by decide +kernel
  have hdash : C64.read ['-'] = none := by decide +kernel
  have hd : C64.read [g] = none := by rcases hg with rfl | rfl <;> assumption
  have hfg : SignFree ctx g := by rcases hg with rfl | rfl <;> assumption
  have hu : ∃ u, ctx.getUnary [g] = some u ∧ u.notation_ = .pre := by
    rcases hg with rfl | rfl
    · exact hplus
    · obtain ⟨u, h1, h2, -⟩ := hneg; exact ⟨u, h1, h2⟩
  have hb : ∃ f, ctx.getBinary [g] = some f ∧ ∀ z w, f.call z w = .ok (if g = '+' then (C64.cx lib).cAdd z w else (C64.cx lib).cSub z w) := by
    rcases hg with rfl | rfl
    · exact hadd
    · exact hsub
  obtain ⟨u, hu, hpu⟩ := hu
  obtain ⟨f, hb, hfc⟩ := hb
  obtain ⟨v, hv, hpv, hvc⟩ := hneg
  rcases hh with ⟨h1, h2⟩ | ⟨h1, h2⟩ <;> rw [h1]
  · rw [eval_sides _ ctx hcfg hg ns hw hs hd hfg hb hu hpu, hfc, h2]
  · rw [eval_dash_sides _ ctx hcfg hg ns hw hs hd hdash hfg hf' hb hu hpu hv hpv, hvc, Res.bind_ok, hfc, h2]

theorem runAll_config {N : Type} (K : Keys) (debug : Bool) (c : Context N) (os : List (Op N)) : (c.runAll K debug os).config = c.config := by
  induction os generalizing c with
  | nil => rfl
  | cons o os ih =>
    show ((c.run K debug o).2.runAll K debug os).config = _
    rw [ih]
    cases o with
    | addFunctionAs f name => rfl
    | addUnaryFunctionAs f name => rfl
    | addBinaryFunctionAs f name => rfl
    | addConstant name v =>
      simp only [Context.run]
      repeat' split
      all_goals rfl
    | setVariable name v =>
      simp only [Context.run]
      repeat' split
      all_goals rfl

/-- C108 for complex numbers in the library, without any assumption about reading and printing: in the complex context, with whatever else is
registered, the text of a number neither part of which is minus zero evaluates to the number. Nothing may be named `+` or `-`. -/
theorem C108_complex_double (K : Keys) (debug : Bool) (lib : C64.Lib) (config : Config) (c : Context (Cplx B64))
    (hc : (C64.cx lib).context K debug config = .ok c) (os : List (Op (Cplx B64)))
    (hf : SignFree ((c.runAll K debug os).view K) '+') (hf' : SignFree ((c.runAll K debug os).view K) '-')
    (z : Cplx B64) (hre : z.re ≠ zero true) (him : z.im ≠ zero true) :
    eval C64.read (split defaultRules) ((c.runAll K debug os).view K) (C64.shown z) = .ok z := by
  obtain ⟨pi, e, -, -, hview⟩ := complex_inv hc
  have hn := C26_never_replaced K debug c os
  refine eval_shown lib _ ?_ hf hf' ⟨_, (hn _).2.2 _ (by rw [hview]; rfl), fun _ _ => rfl⟩ ⟨_, (hn _).2.2 _ (by rw [hview]; rfl), fun _ _ => rfl⟩
    ⟨_, (hn _).2.1 _ (by rw [hview]; rfl), rfl⟩ ⟨_, (hn _).2.1 _ (by rw [hview]; rfl), rfl, fun _ => rfl⟩ z hre him
  have : ((c.runAll K debug os).view K).config = (c.view K).config := runAll_config K debug c os
  rw [this, hview]; rfl

/-- C108 at the server for complex numbers: every answer in which no part is minus zero, sent as the expression of the same request, is answered
with itself. -/
theorem C108_server_complex (W : World D F B64) (lib : C64.Lib) (hcx : W.cx = C64.cx lib) (hread : W.readComplex = C64.read)
    (hshow : W.showComplex = C64.shown) (r : Request F) (hty : r.type = some .complex) (hn : r.Distinct)
    (z : Cplx B64) (hre : z.re ≠ zero true) (him : z.im ≠ zero true) (hres : W.evalExpression r = .result (C64.shown z))
    (hv : ∀ e ∈ r.variables.getD [], e.1 ≠ ['+'] ∧ e.1 ≠ ['-']) :
    W.evalExpression { r with expression := C64.shown z } = .result (C64.shown z) := by
  have hn' : ((W.texts r).map (·.1)).Nodup := by simpa [World.texts, Request.Distinct, Function.comp_def] using hn
  have hv' : ∀ e ∈ W.texts r, e.1 ≠ ['+'] ∧ e.1 ≠ ['-'] := by
    intro e he
    simp only [World.texts, List.mem_map] at he
    obtain ⟨e', he', rfl⟩ := he
    exact hv e' he'
  unfold World.evalExpression at hres ⊢
  simp only [hty, Option.getD_some] at hres ⊢
  rw [hty] at *
  change W.complexBackend.serve W.K W.debug serverConfig (W.texts r) (C64.shown z) = _
  rw [serve_result _ _ _ _ _ hn'] at hres ⊢
  obtain ⟨c, hc, hset, -⟩ := hres
  refine ⟨c, hc, hset, z, ?_, by show W.showComplex z = _; rw [hshow]⟩
  obtain ⟨pi, e, -, -, hview⟩ := complex_inv (show W.cx.context W.K W.debug (serverConfig.withComplexNumber true) = .ok c from hc)
  have hb : ∀ g : Char, g = '+' ∨ g = '-' → SignFree ((c.view W.K).withVariables W.complexBackend.readVariable (W.texts r)) g := by
    intro g hg
    have hb : boundTo W.complexBackend.readVariable (W.texts r) [g] = none := by
      have : (W.texts r).find? (fun e => e.1 == [g]) = none := List.find?_eq_none.2 fun e he => by
        rcases hg with rfl | rfl
        · simpa using (hv' e he).1
        · simpa using (hv' e he).2
      rw [boundTo, this]
      rfl
    rw [hview]
    refine ⟨by simp [Ctx.withVariables, hb, tablesCtx], ?_, ?_⟩ <;> rcases hg with rfl | rfl <;> rfl
  show eval W.readComplex (split defaultRules) _ _ = _
  rw [hread]
  rw [hcx] at hview
  refine eval_shown lib _ (by rw [hview]; rfl) (hb '+' (.inl rfl)) (hb '-' (.inr rfl)) ?_ ?_ ?_ ?_ z hre him
  all_goals rw [hview]
  · exact ⟨_, rfl, fun _ _ => rfl⟩
  · exact ⟨_, rfl, fun _ _ => rfl⟩
  · exact ⟨_, rfl, rfl⟩
  · exact ⟨_, rfl, rfl, fun _ => rfl⟩

/-- Functions for the examples. -/
def Demo.complexLib : C64.Lib :=
  ⟨fun z _ => z, fun z _ => z, id, id, id, id, id, id, id, id, id, id, id, id, id, id, id, B64.zero false, B64.zero false⟩

/-- The demo world with complex numbers over doubles. -/
noncomputable def Demo.complexWorld : World Demo.Decimal Int B64 :=
  { K := (Demo.world true).K, debug := true, f := (Demo.world true).f, floatNum := (Demo.world true).floatNum, dec := (Demo.world true).dec,
    cx := C64.cx Demo.complexLib, toF64 := (Demo.world true).toF64, fromF64 := (Demo.world true).fromF64,
    readDecimal := (Demo.world true).readDecimal, readFloat := (Demo.world true).readFloat, readComplex := C64.read,
    showDecimal := (Demo.world true).showDecimal, showFloat := (Demo.world true).showFloat, showComplex := C64.shown }

/-- An answer that meets the conditions. -/
example : Demo.complexWorld.evalExpression (Demo.request .complex "2*z" [("z", "3-4i")]) = .result (str "6-8i") ∧
    C64.shown ⟨lit 6, lit (-8)⟩ = str "6-8i" := by
  constructor <;> decide +kernel

/-- C108 fails for complex numbers with a part that is minus zero, as the negative of every real number has it: the answer to `-3` is `-3+-0i`,
which is refused. -/
theorem C108_complex_counterexample :
    Demo.complexWorld.evalExpression (Demo.request .complex "-3" []) = .result (str "-3+-0i") ∧
    Demo.complexWorld.evalExpression (Demo.request .complex "-3+-0i" []) = .error (.library .invalidInput) := by
  constructor <;> decide +kernel

end Prexel
