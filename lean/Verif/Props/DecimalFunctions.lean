import Verif.Props.Decimal
import Verif.Props.Evaluator
import Verif.Lemmas.DecimalSafe
/-!
# The functions of the decimal context (C50, C64 to C69)
-/

set_option linter.unusedVariables false
set_option linter.unusedSimpArgs false

namespace Prexel
variable {D F : Type} {d : Dec D F}

/-! ## C64: arithmetic on decimals is exact -/

/-- C64. For every arithmetic tree of sums, differences, products, quotients and signs in which every intermediate result is representable: the
exact value, or an overflow error if a divisor is zero. -/
theorem C64_decimal_exact (K : Keys) (debug : Bool) (L : d.Laws) (f : F64 F) (config : Config) (c : Context D)
    (hc : d.context K debug f config = .ok c) (os : List (Op D)) (e : Arith D) (hr : e.Rational) (ha : e.AllRepresentable L.val) :
    (∀ q, e.ratValue L.val = some q → ∃ z, evalTokens ((c.runAll K debug os).view K) e.tokens = .ok z ∧ L.val z = q) ∧
    (e.ratValue L.val = none → evalTokens ((c.runAll K debug os).view K) e.tokens = .err .overflow) := by
  rw [C32_decimal K debug d f config c hc os e]
  induction e with
  | num n => exact ⟨fun q h => ⟨n, rfl, by simpa [Arith.ratValue] using h⟩, fun h => by simp [Arith.ratValue] at h⟩
  | neg e ih =>
    obtain ⟨h1, h2⟩ := ih hr ha
    constructor
    · intro q h
      simp only [Arith.ratValue, Option.map_eq_some_iff] at h
      obtain ⟨p, hp, rfl⟩ := h
      obtain ⟨z, hz, hv⟩ := h1 p hp
      exact ⟨d.neg z, by simp only [Arith.value, hz, Res.bind_ok]; rfl, by rw [L.neg, hv]⟩
    · intro h
      simp only [Arith.ratValue, Option.map_eq_none_iff] at h
      simp [Arith.value, h2 h]
  | fact e ih => exact hr.elim
  | bin o l r ihl ihr =>
    obtain ⟨ho, hrl, hrr⟩ := hr
    obtain ⟨hal, har, hrep⟩ := ha
    obtain ⟨hl1, hl2⟩ := ihl hrl hal
    obtain ⟨hr1, hr2⟩ := ihr hrr har
    cases hlv : l.ratValue L.val with
    | none => exact ⟨fun q h => by simp [Arith.ratValue, hlv] at h, fun _ => by simp [Arith.value, hl2 hlv]⟩
    | some p =>
      obtain ⟨x, hx, hxv⟩ := hl1 p hlv
      cases hrv : r.ratValue L.val with
      | none => exact ⟨fun q h => by simp [Arith.ratValue, hlv, hrv] at h, fun _ => by simp [Arith.value, hx, hr2 hrv]⟩
      | some p' =>
        obtain ⟨y, hy, hyv⟩ := hr1 p' hrv
        simp only [Arith.ratValue, hlv, hrv, Option.bind_some] at hrep ⊢
        simp only [Arith.value, hx, hy, Res.bind_ok]
        subst hxv hyv
        rcases ho with rfl | rfl | rfl | rfl
        · exact ⟨fun q h => by cases h; exact L.cadd (hrep _ rfl), fun h => by simp at h⟩
        · exact ⟨fun q h => by cases h; exact L.csub (hrep _ rfl), fun h => by simp at h⟩
        · exact ⟨fun q h => by cases h; exact L.cmul (hrep _ rfl), fun h => by simp at h⟩
        · by_cases h0 : L.val y = 0
          · simp only [h0, if_true]
            exact ⟨fun q h => by simp at h, fun _ => L.cdiv_zero h0⟩
          · simp only [h0, if_false] at hrep ⊢
            exact ⟨fun q h => by cases h; exact L.cdiv h0 (hrep _ rfl), fun h => by simp at h⟩

/-- `0.1 + 0.2` is `0.3`, and `1 / (0.3 - 0.3)` is an error. -/
example : ∃ c z, Demo.dec.context Demo.keys true Demo.float Config.new = .ok c ∧
    evalTokens (c.view Demo.keys) [.number (Demo.decimal 1 1), .binary ['+'], .number (Demo.decimal 2 1)] = .ok z ∧ z.1 = 3 / 10 := by
  obtain ⟨c, hc, -⟩ := decimal_build Demo.keys true Demo.dec Demo.float Config.new
  obtain ⟨z, hz, hv⟩ := (C64_decimal_exact Demo.keys true Demo.decLaws Demo.float Config.new c hc []
    (.bin .add (.num (Demo.decimal 1 1)) (.num (Demo.decimal 2 1))) ⟨.inl rfl, trivial, trivial⟩
    ⟨trivial, trivial, fun q h => by cases h; decide +kernel⟩).1 _ rfl
  exact ⟨c, z, hc, hz, by rw [show z.1 = _ from hv]; decide +kernel⟩

/-! ## C65: which decimal expressions cannot panic -/

/-- If none of the operations that occur can panic, the evaluation does not. -/
theorem eval_ne_panic_of_tokens {N : Type} (c : Ctx N) (ts : List (Token N))
    (hf : ∀ s, .function s ∈ ts → ∀ g, c.getFunction s = some g → ∀ xs, g xs ≠ .panic)
    (hu : ∀ s, .unary s ∈ ts → ∀ g, c.getUnary s = some g → ∀ x, g.call x ≠ .panic)
    (hb : ∀ s, (.binary s ∈ ts ∨ (c.config.implicitMul = true ∧ s = ['*'])) → ∀ g, c.getBinary s = some g → ∀ x y, g.call x y ≠ .panic) :
    evalTokens c ts ≠ .panic := by
  classical
  let c' : Ctx N :=
    { c with
      getFunction := fun s => if Token.function s ∈ ts then c.getFunction s else none
      getUnary := fun s => if Token.unary s ∈ ts then c.getUnary s else none
      getBinary := fun s => if Token.binary s ∈ ts ∨ (c.config.implicitMul = true ∧ s = ['*']) then c.getBinary s else none }
  have h := C09_frame c c' rfl (fun hm => by simp [c', hm]) ts (fun t ht => by
    cases t <;> simp only [AgreeOn, c'] <;> simp [ht])
  rw [h.2]
  refine C04_eval_never_panics c' ⟨?_, ?_, ?_⟩ ts
  · intro s g hg
    simp only [c'] at hg
    split at hg
    · exact hf s ‹_› g hg
    · cases hg
  · intro s g hg
    simp only [c'] at hg
    split at hg
    · exact hu s ‹_› g hg
    · cases hg
  · intro s g hg
    simp only [c'] at hg
    split at hg
    · exact hb s ‹_› g hg
    · cases hg

/-- The functions of decimals that cannot panic. -/
def decimalSafeNames : List String :=
  ["max", "min", "ceil", "floor", "truncate", "round", "random", "cbrt", "exp", "ln", "log", "to_radians", "sin", "cos", "tan", "csc", "sec", "cot",
   "acot"]

/-- The token does not use one of the operations that can panic; names of functions ignore case. -/
def DecimalSafe : Token D → Prop
  | .function s => ∃ n ∈ decimalSafeNames, hashSame (str n) s = true
  | .unary s => s = ['+'] ∨ s = ['-']
  | .binary s => ∃ n ∈ ["+", "-", "*", "/", "mod"], hashSame (str n) s = true
  | _ => True

theorem fn1_ne_panic {name : Str} {method : D → Res D} (h : ∀ x, method x ≠ .panic) (xs : List D) : (Dec.fn1 name method).fn xs ≠ .panic := by
  match xs with
  | [] => simp [Dec.fn1]
  | [x] => exact h x
  | _ :: _ :: _ => simp [Dec.fn1]

theorem ofOption_ne_panic {α : Type} (x : Option α) (k : ErrorKind) : Res.ofOption x k ≠ .panic := by
  cases x <;> simp [Res.ofOption]

theorem extremum_ne_panic (better : D → D → Bool) (xs : List D) : Ops.extremum better xs ≠ .panic := by
  unfold Ops.extremum
  split
  · simp
  · exact ofOption_ne_panic _ _

theorem decimal_safe_function (L : d.Laws) (hfuel : 100 ≤ d.fuel) (f : F64 F) : ∀ n ∈ decimalSafeNames, ∃ g ∈ d.functions f, g.names = [str n] ∧
    ∀ xs, g.fn xs ≠ .panic := by
  have rad : ∀ (m : D → Res D), (∀ x, m x ≠ .panic) → ∀ x, (d.toRadians x).bind m ≠ .panic := by
    intro m hm x
    obtain ⟨y, hy⟩ := L.toRadians_ok x
    rw [hy]; exact hm y
  have hsin : ∀ x, d.sin x ≠ .panic := fun x => by obtain ⟨z, hz, -⟩ := L.sin_ok x; rw [hz]; simp
  have hcos : ∀ x, d.cos x ≠ .panic := fun x => by obtain ⟨z, hz, -⟩ := L.cos_ok x; rw [hz]; simp
  have hatan : ∀ x, d.atan x ≠ .panic := fun x => by obtain ⟨z, hz⟩ := L.atan_ok x; rw [hz]; simp
  have hrad : ∀ x, d.toRadians x ≠ .panic := fun x => by obtain ⟨z, hz⟩ := L.toRadians_ok x; rw [hz]; simp
  intro n hn
  simp only [decimalSafeNames, List.mem_cons, List.not_mem_nil, or_false] at hn
  rcases hn with rfl | rfl | rfl | rfl | rfl | rfl | rfl | rfl | rfl | rfl | rfl | rfl | rfl | rfl | rfl | rfl | rfl | rfl | rfl
  · exact ⟨Ops.max d.num, by simp [Dec.functions], rfl, extremum_ne_panic _⟩
  · exact ⟨Ops.min d.num, by simp [Dec.functions], rfl, extremum_ne_panic _⟩
  · exact ⟨Dec.fn1 (str "ceil") (fun x => .ok (d.ceil x)), by simp [Dec.functions], rfl, fn1_ne_panic fun _ => by simp⟩
  · exact ⟨Dec.fn1 (str "floor") (fun x => .ok (d.floor x)), by simp [Dec.functions], rfl, fn1_ne_panic fun _ => by simp⟩
  · exact ⟨Dec.fn1 (str "truncate") (fun x => .ok (d.trunc x)), by simp [Dec.functions], rfl, fn1_ne_panic fun _ => by simp⟩
  · exact ⟨Dec.fn1 (str "round") (fun x => .ok (d.round x)), by simp [Dec.functions], rfl, fn1_ne_panic fun _ => by simp⟩
  · refine ⟨Ops.random f d.num, by simp [Dec.functions], rfl, ?_⟩
    have ht : ∀ x, Ops.tryToFloat f d.num x ≠ .panic := by
      intro x
      unfold Ops.tryToFloat
      split
      · split <;> simp
      · simp
    intro xs
    match xs with
    | [] => exact ofOption_ne_panic _ _
    | [m] =>
      refine Res.bind_ne_panic (ht m) fun v _ => ?_
      show (if _ then _ else _) ≠ _
      split
      · simp
      · exact ofOption_ne_panic _ _
    | [lo, hi] =>
      refine Res.bind_ne_panic (ht lo) fun v _ => Res.bind_ne_panic (ht hi) fun w _ => ?_
      show (if _ then _ else _) ≠ _
      split
      · simp
      · exact ofOption_ne_panic _ _
    | _ :: _ :: _ :: _ => simp [Ops.random]
  · exact ⟨Dec.fn1 (str "cbrt") d.cbrt, by simp [Dec.functions], rfl, fn1_ne_panic d.cbrt_ne_panic⟩
  · exact ⟨Dec.fn1 (str "exp") d.exp, by simp [Dec.functions], rfl, fn1_ne_panic L.exp_ne_panic⟩
  · exact ⟨Dec.fn1 (str "ln") d.ln, by simp [Dec.functions], rfl, fn1_ne_panic (L.ln_ne_panic hfuel)⟩
  · refine ⟨d.logFn, by simp [Dec.functions], rfl, fun xs => ?_⟩
    match xs with
    | [] => simp [Dec.logFn]
    | [x] => exact L.log_ne_panic hfuel _ _
    | [x, b] => exact L.log_ne_panic hfuel _ _
    | _ :: _ :: _ :: _ => simp [Dec.logFn]
  · exact ⟨Dec.fn1 (str "to_radians") d.toRadians, by simp [Dec.functions], rfl, fn1_ne_panic hrad⟩
  · exact ⟨d.trigFn (str "sin") d.sin, by simp [Dec.functions], rfl, fn1_ne_panic (rad _ hsin)⟩
  · exact ⟨d.trigFn (str "cos") d.cos, by simp [Dec.functions], rfl, fn1_ne_panic (rad _ hcos)⟩
  · exact ⟨d.trigFn (str "tan") d.tan, by simp [Dec.functions], rfl, fn1_ne_panic (rad _ L.tan_ne_panic)⟩
  · exact ⟨d.trigFn (str "csc") d.sin, by simp [Dec.functions], rfl, fn1_ne_panic (rad _ hsin)⟩
  · exact ⟨d.trigFn (str "sec") d.cos, by simp [Dec.functions], rfl, fn1_ne_panic (rad _ hcos)⟩
  · exact ⟨d.trigFn (str "cot") d.tan, by simp [Dec.functions], rfl, fn1_ne_panic (rad _ L.tan_ne_panic)⟩
  · exact ⟨Dec.fn1 (str "acot") d.atan, by simp [Dec.functions], rfl, fn1_ne_panic hatan⟩

/-- C65 for the operations that cannot panic: any sequence of tokens, well formed or not, in a decimal context after any history. Missing: the
other operations, see the counterexamples. -/
theorem C65_decimal_never_panics_partial (K : Keys) (debug : Bool) (L : d.Laws) (hfuel : 100 ≤ d.fuel) (f : F64 F) (config : Config)
    (c : Context D) (hc : d.context K debug f config = .ok c) (os : List (Op D)) (ts : List (Token D)) (h : ∀ t ∈ ts, DecimalSafe t) :
    evalTokens ((c.runAll K debug os).view K) ts ≠ .panic := by
  have hbin : ∀ s, (∃ n ∈ ["+", "-", "*", "/", "mod"], hashSame (str n) s = true) →
      ∀ g, ((c.runAll K debug os).view K).getBinary s = some g → ∀ x y, g.call x y ≠ .panic := by
    intro s hs g hg x y
    have key : ∀ g' ∈ d.binaryOps, ∀ n ∈ g'.names, hashSame n s = true → (∀ x y, g'.fn.call x y ≠ .panic) → g.call x y ≠ .panic := by
      intro g' hm n hn hk hs
      have hl : lookup hashSame d.binaryOps s = some g'.fn := lookup_mem (decimal_tables d f).binary hm hn (by simpa [hashSame] using hk)
      have := (C26_never_replaced K debug c os s).2.2 g'.fn (by rw [decimal_inv hc]; exact hl)
      rw [hg] at this
      cases this
      exact hs x y
    simp only [List.mem_cons, List.not_mem_nil, or_false, exists_eq_or_imp, exists_eq_left] at hs
    rcases hs with h | h | h | h | h
    · exact key d.addOp (by simp [Dec.binaryOps]) _ (.head _) h d.cadd_ne_panic
    · exact key d.subOp (by simp [Dec.binaryOps]) _ (.head _) h d.csub_ne_panic
    · exact key d.mulOp (by simp [Dec.binaryOps]) _ (.head _) h d.cmul_ne_panic
    · exact key d.divOp (by simp [Dec.binaryOps]) _ (.head _) h d.cdiv_ne_panic
    · exact key d.modOp (by simp [Dec.binaryOps]) _ (.head _) h d.crem_ne_panic
  refine eval_ne_panic_of_tokens _ ts ?_ ?_ ?_
  · intro s hs g hg
    obtain ⟨n, hn, hsame⟩ := h _ hs
    obtain ⟨g', hm, hnames, hsafe⟩ := decimal_safe_function L hfuel f n hn
    have hl : lookup hashSame (d.functions f) s = some g'.fn :=
      lookup_mem (decimal_tables d f).functions hm (n := str n) (by rw [hnames]; simp) (by simpa [hashSame] using hsame)
    have := (C26_never_replaced K debug c os s).1 g'.fn (by rw [decimal_inv hc]; exact hl)
    rw [hg] at this
    cases this
    exact hsafe
  · intro s hs g hg x
    have key : ∀ g' : UnFn D, lookup hashSame (d.unaryOps f) s = some g' → (∀ x, g'.call x ≠ .panic) → g.call x ≠ .panic := by
      intro g' hl hs
      have := (C26_never_replaced K debug c os s).2.1 g' (by rw [decimal_inv hc]; exact hl)
      rw [hg] at this
      cases this
      exact hs x
    rcases h _ hs with rfl | rfl
    · exact key (Ops.unaryPlus).fn rfl fun x => by simp [Ops.unaryPlus]
    · exact key d.negOp.fn rfl fun x => by simp [Dec.negOp]
  · intro s hs
    rcases hs with hs | ⟨-, rfl⟩
    · exact hbin s (h _ hs)
    · exact hbin _ ⟨"*", by decide, by decide⟩

example : ∀ t ∈ (callTokens (str "Tan") [Demo.decimal 9 1] ++ [.binary ['/'], .number (Demo.decimal 0)]), DecimalSafe t := by
  simp only [callTokens, List.map_cons, List.map_nil, List.intersperse, List.cons_append, List.nil_append, List.mem_cons, List.not_mem_nil, or_false]
  rintro t (rfl | rfl | rfl | rfl | rfl | rfl)
  · exact ⟨"tan", by decide, by decide⟩
  · trivial
  · trivial
  · trivial
  · exact ⟨"/", by decide, by decide⟩
  · trivial

/-- C65 is false: `0 ^ -1` panics, and so do an integral exponent that does not fit 64 bits, `sum`, `avg` and `product` on an overflow, `acsc(0)`,
`asec(0)`, `atanh(1)` and `to_degrees` of the largest number. -/
theorem C65_decimal_panics_counterexample (K : Keys) (debug : Bool) (L : d.Laws) (f : F64 F) (config : Config) (c : Context D)
    (hc : d.context K debug f config = .ok c) (os : List (Op D)) (zero one minus top : D) (h0 : L.val zero = 0) (h1 : L.val one = 1)
    (hm : L.val minus = -1) (ht : L.val top = maxDecimal) :
    let ev := evalTokens ((c.runAll K debug os).view K)
    ev (infixTokens zero (str "^") minus) = .panic ∧
    ev (infixTokens one (str "^") top) = .panic ∧
    ev (callTokens (str "sum") [top, one]) = .panic ∧
    ev (callTokens (str "avg") [top, top]) = .panic ∧
    ev (callTokens (str "product") [top, top]) = .panic ∧
    ev (callTokens (str "acsc") [zero]) = .panic ∧
    ev (callTokens (str "asec") [zero]) = .panic ∧
    ev (callTokens (str "atanh") [one]) = .panic ∧
    ev (callTokens (str "to_degrees") [top]) = .panic := by
  intro ev
  have v1 : L.val d.one = 1 := L.nat_val (n := 1) (by decide)
  have vm : L.val d.oneMinus = -1 := L.oneMinus
  have hdz : ∀ x y, L.val y = 0 → d.div x y = .panic := fun x y h => by
    simp [Dec.div, L.cdiv_zero h, Res.unwrapNone]
  have hbeyond : Beyond (maxDecimal + 1) := .inr (by decide +kernel)
  refine ⟨?_, ?_, ?_, ?_, ?_, ?_, ?_, ?_, ?_⟩
  · refine (decimal_infix hc os (g := d.powOp.fn) rfl _ _).trans ?_
    show d.powd zero minus = _
    rw [powd_int L (n := -1) hm, if_pos (by decide), Dec.powi, if_pos (by decide), hdz _ _ h0]
    rfl
  · refine (decimal_infix hc os (g := d.powOp.fn) rfl _ _).trans ?_
    show d.powd one top = _
    rw [powd_int L (n := 2 ^ 96 - 1) ht, if_neg (by decide)]
  · refine (decimal_call hc os (g := d.sumFn.fn) rfl _).trans ?_
    have : d.add top one = .panic := by
      simp [Dec.add, Dec.cadd, L.addOver top one (by rw [ht, h1]; exact hbeyond), Ops.orOverflow, Res.ofOption, Res.unwrapNone]
    simp [Dec.sumFn, Ops.foldArgs, this, Ops.orArgumentCount]
  · refine (decimal_call hc os (g := d.avgFn.fn) rfl _).trans ?_
    have : d.add top top = .panic := by
      simp [Dec.add, Dec.cadd, L.addOver top top (by rw [ht]; exact .inr (by decide +kernel)), Ops.orOverflow, Res.ofOption, Res.unwrapNone]
    simp [Dec.avgFn, Ops.foldArgs, this]
  · refine (decimal_call hc os (g := d.prodFn.fn) rfl _).trans ?_
    have : d.mul top top = .panic := by
      simp [Dec.mul, Dec.cmul, L.mulOver top top (by rw [ht]; exact .inr (by decide +kernel)), Ops.orOverflow, Res.ofOption, Res.unwrapNone]
    simp [Dec.prodFn, Ops.foldArgs, this, Ops.orArgumentCount]
  · refine (decimal_call hc os (g := (d.arcRecFn (str "acsc") (d.asin f)).fn) rfl _).trans ?_
    show (d.inv zero).bind _ = _
    rw [Dec.inv, hdz _ _ h0]; rfl
  · refine (decimal_call hc os (g := (d.arcRecFn (str "asec") (d.acos f)).fn) rfl _).trans ?_
    show (d.inv zero).bind _ = _
    rw [Dec.inv, hdz _ _ h0]; rfl
  · refine (decimal_call hc os (g := (Dec.fn1 (str "atanh") d.atanh).fn) rfl _).trans ?_
    show d.atanh one = _
    have e1 : d.lt one d.oneMinus = false := by
      rw [← Bool.not_eq_true, L.lt, h1, vm]; decide
    have e2 : d.lt d.one one = false := by
      rw [← Bool.not_eq_true, L.lt, h1, v1]; decide
    obtain ⟨x0, hx0, -⟩ := L.add_ok (x := d.one) (y := one) (b := 2) (by decide +kernel) (by rw [v1, h1]; constructor <;> decide +kernel)
    obtain ⟨x1, hx1, hx1v⟩ := L.csub (x := d.one) (y := one) (by rw [v1, h1]; decide +kernel)
    have hx1' : d.sub d.one one = .ok x1 := by simp [Dec.sub, hx1, Res.unwrapNone]
    have : L.val x1 = 0 := by rw [hx1v, v1, h1]; decide +kernel
    simp [Dec.atanh, e1, e2, hx0, hx1', hdz _ _ this]
  · refine (decimal_call hc os (g := (Dec.fn1 (str "to_degrees") d.toDegrees).fn) rfl _).trans ?_
    show d.toDegrees top = _
    have hpi := L.pi_pos
    have v : L.val (d.nat 180) = 180 := L.nat_val (n := 180) (by decide)
    have h3 : 3 ≤ L.val d.pi := by
      have h := L.pi
      have e1 : ((10 ^ 28 : Int) : Rat) = 10000000000000000000000000000 := by decide +kernel
      have e2 : ((31415926535897932384626433833 : Int) : Rat) = 31415926535897932384626433833 := by decide +kernel
      rw [e1, e2] at h
      grind
    have e : L.val (d.nat 180) / L.val d.pi * L.val d.pi = 180 := by rw [v]; exact Rat.div_mul_cancel (by grind)
    have hq1 : 45 ≤ L.val (d.nat 180) / L.val d.pi := by
      refine Rat.not_lt.mp fun h => ?_
      have := Rat.mul_lt_mul_of_pos_right h hpi.1
      grind
    have hq2 : L.val (d.nat 180) / L.val d.pi ≤ 60 := by
      refine Rat.not_lt.mp fun h => ?_
      have := Rat.mul_lt_mul_of_pos_right h hpi.1
      grind
    obtain ⟨k, hk, hr, -⟩ := L.div_ok (x := d.nat 180) (y := d.pi) (b := 60) (by grind) (by decide +kernel) ⟨by grind, hq2⟩
    have hk1 : 45 ≤ L.val k := (hr 45 (by decide +kernel)).1 hq1
    have hmul : d.mul top k = .panic := by
      have : Beyond (L.val top * L.val k) := by
        right
        rw [ht]
        have h1 := Rat.mul_le_mul_of_nonneg_left hk1 (c := maxDecimal) (by decide +kernel)
        have h2 : ((2 ^ 96 : Int) : Rat) ≤ maxDecimal * 45 := by decide +kernel
        exact Rat.le_trans h2 h1
      simp [Dec.mul, Dec.cmul, L.mulOver _ _ this, Ops.orOverflow, Res.ofOption, Res.unwrapNone]
    simp [Dec.toDegrees, hk, hmul]

/-- The numbers that the counterexample asks for exist. -/
example : Demo.decLaws.val (Demo.decimal (2 ^ 96 - 1)) = maxDecimal ∧ Demo.decLaws.val (Demo.decimal 0) = 0 := by
  constructor <;> decide +kernel

/-! ## C50: reciprocal functions -/

/-- C50 is false: csc, sec and cot are the same as sin, cos and tan. -/
theorem C50_reciprocal_counterexample (K : Keys) (debug : Bool) (d : Dec D F) (f : F64 F) (config : Config) (c : Context D)
    (hc : d.context K debug f config = .ok c) (os : List (Op D)) (xs : List D) :
    let ev := evalTokens ((c.runAll K debug os).view K)
    ev (callTokens (str "csc") xs) = ev (callTokens (str "sin") xs) ∧
    ev (callTokens (str "sec") xs) = ev (callTokens (str "cos") xs) ∧
    ev (callTokens (str "cot") xs) = ev (callTokens (str "tan") xs) := by
  intro ev
  refine ⟨?_, ?_, ?_⟩
  · exact (decimal_call hc os (g := (d.trigFn (str "csc") d.sin).fn) rfl xs).trans
      (decimal_call hc os (g := (d.trigFn (str "sin") d.sin).fn) rfl xs).symm
  · exact (decimal_call hc os (g := (d.trigFn (str "sec") d.cos).fn) rfl xs).trans
      (decimal_call hc os (g := (d.trigFn (str "cos") d.cos).fn) rfl xs).symm
  · exact (decimal_call hc os (g := (d.trigFn (str "cot") d.tan).fn) rfl xs).trans
      (decimal_call hc os (g := (d.trigFn (str "tan") d.tan).fn) rfl xs).symm

/-- C50 is false in particular at 0: csc(0) is 0 and not an error. -/
theorem C50_csc_zero_counterexample (K : Keys) (debug : Bool) (L : d.Laws) (f : F64 F) (config : Config) (c : Context D)
    (hc : d.context K debug f config = .ok c) (os : List (Op D)) (zero : D) (h0 : L.val zero = 0) :
    ∃ z, evalTokens ((c.runAll K debug os).view K) (callTokens (str "csc") [zero]) = .ok z ∧ L.val z = 0 := by
  rw [decimal_call hc os (g := (d.trigFn (str "csc") d.sin).fn) rfl]
  show ∃ z, (d.toRadians zero).bind d.sin = .ok z ∧ _
  have hpi := L.pi_pos
  have v0 : L.val d.zero = 0 := L.nat_val (n := 0) (by decide)
  have v : L.val (d.nat 180) = 180 := L.nat_val (n := 180) (by decide)
  obtain ⟨k, hk, -, hkb⟩ := L.div_ok (x := d.pi) (y := d.nat 180) (b := 1) (by rw [v]; decide) (by decide +kernel) (by
    rw [v]
    exact Bounded.div (by decide) ⟨by grind, by grind⟩)
  have rep0 : Representable 0 := by decide +kernel
  obtain ⟨y, hy, hyv⟩ := L.cmul (x := zero) (y := k) (by rw [h0, Rat.zero_mul]; exact rep0)
  have hy' : d.mul zero k = .ok y := by simp [Dec.mul, hy, Res.unwrapNone]
  rw [h0, Rat.zero_mul] at hyv
  obtain ⟨w, hw, hwb, -⟩ := L.approx_ok y
  have hwv : L.val w = 0 := by
    obtain ⟨h1, h2⟩ := hwb 0 (by rw [hyv]; constructor <;> decide +kernel)
    have e : ((0 : Nat) : Rat) = 0 := rfl
    rw [e] at h1 h2
    grind
  have hrad : d.toRadians zero = .ok w := by simp only [Dec.toRadians, Res.bind_eq, hk, Res.bind_ok, hy', hw]
  obtain ⟨r, hr, -, hr0⟩ := L.rem_pi2 w
  have he : d.eq r d.zero = true := by rw [L.eq, hr0 hwv, v0]
  refine ⟨d.zero, ?_, v0⟩
  simp [hrad, Dec.sin, hr, he]

/-- C50 for the hyperbolic functions: csch, sech and coth of x are the reciprocals of what sinh, cosh and tanh evaluate to: an overflow error if
that is zero, and exact if the reciprocal is representable. Missing: csc, sec and cot, see the counterexamples. -/
theorem C50_hyperbolic_partial (K : Keys) (debug : Bool) (L : d.Laws) (f : F64 F) (config : Config) (c : Context D)
    (hc : d.context K debug f config = .ok c) (os : List (Op D)) (x : D) (name inverse : String)
    (hn : (name, inverse) ∈ [("sinh", "csch"), ("cosh", "sech"), ("tanh", "coth")]) :
    let ev := evalTokens ((c.runAll K debug os).view K)
    (∀ k, ev (callTokens (str name) [x]) = .err k → ev (callTokens (str inverse) [x]) = .err k) ∧
    (∀ s, ev (callTokens (str name) [x]) = .ok s →
      (L.val s = 0 → ev (callTokens (str inverse) [x]) = .err .overflow) ∧
      (L.val s ≠ 0 → Representable (1 / L.val s) → ∃ z, ev (callTokens (str inverse) [x]) = .ok z ∧ L.val z = 1 / L.val s)) := by
  intro ev
  have key : ∀ m : D → Res D, ev (callTokens (str name) [x]) = m x → ev (callTokens (str inverse) [x]) = (m x).bind d.checkedInv →
      (∀ k, ev (callTokens (str name) [x]) = .err k → ev (callTokens (str inverse) [x]) = .err k) ∧
      (∀ s, ev (callTokens (str name) [x]) = .ok s →
        (L.val s = 0 → ev (callTokens (str inverse) [x]) = .err .overflow) ∧
        (L.val s ≠ 0 → Representable (1 / L.val s) → ∃ z, ev (callTokens (str inverse) [x]) = .ok z ∧ L.val z = 1 / L.val s)) := by
    intro m h1 h2
    rw [h1, h2]
    refine ⟨fun k hk => by rw [hk]; rfl, fun s hs => ?_⟩
    rw [hs, Res.bind_ok]
    have v1 : L.val d.one = 1 := L.nat_val (n := 1) (by decide)
    refine ⟨fun h0 => ?_, fun h0 hr => ?_⟩
    · rw [Dec.checkedInv, if_pos ((L.isZero s).mpr h0)]
    · rw [Dec.checkedInv, if_neg (by rw [L.isZero]; exact h0), Dec.inv, Dec.div]
      obtain ⟨z, hz, hv⟩ := L.cdiv (x := d.one) h0 (by rw [v1]; exact hr)
      exact ⟨z, by rw [hz]; rfl, by rw [hv, v1]⟩
  simp only [List.mem_cons, Prod.mk.injEq, List.not_mem_nil, or_false] at hn
  rcases hn with ⟨rfl, rfl⟩ | ⟨rfl, rfl⟩ | ⟨rfl, rfl⟩
  · exact key d.sinh (decimal_call hc os (g := (Dec.fn1 (str "sinh") d.sinh).fn) rfl _)
      (decimal_call hc os (g := (d.checkedInvFn (str "csch") d.sinh).fn) rfl _)
  · exact key d.cosh (decimal_call hc os (g := (Dec.fn1 (str "cosh") d.cosh).fn) rfl _)
      (decimal_call hc os (g := (d.checkedInvFn (str "sech") d.cosh).fn) rfl _)
  · exact key d.tanh (decimal_call hc os (g := (Dec.fn1 (str "tanh") d.tanh).fn) rfl _)
      (decimal_call hc os (g := (d.checkedInvFn (str "coth") d.tanh).fn) rfl _)

/-! ## C66: the angle of a point -/

/-- C66 is false: the angle of a point on the positive y axis is 2π instead of π/2, and of one on the negative y axis -2π instead of -π/2. -/
theorem C66_atan2_counterexample (K : Keys) (debug : Bool) (L : d.Laws) (f : F64 F) (config : Config) (c : Context D)
    (hc : d.context K debug f config = .ok c) (os : List (Op D)) (y x : D) (hx : L.val x = 0) :
    (0 < L.val y → evalTokens ((c.runAll K debug os).view K) (callTokens (str "atan") [y, x]) = .ok d.pi2 ∧ 6 < L.val d.pi2) ∧
    (L.val y < 0 → evalTokens ((c.runAll K debug os).view K) (callTokens (str "atan") [y, x]) = .ok d.pi2Minus ∧ L.val d.pi2Minus < -6) := by
  have v0 : L.val d.zero = 0 := L.nat_val (n := 0) (by decide)
  have ex : d.isZero x = true := (L.isZero x).mpr hx
  have e1 : ((10 ^ 28 : Int) : Rat) = 10000000000000000000000000000 := by decide +kernel
  have h := L.pi2
  have h' := L.pi2Minus
  have e2 : ((62831853071795864769252867666 : Int) : Rat) = 62831853071795864769252867666 := by decide +kernel
  have e3 : ((-62831853071795864769252867666 : Int) : Rat) = -62831853071795864769252867666 := by decide +kernel
  rw [e1, e2] at h
  rw [e1, e3] at h'
  rw [decimal_call hc os (g := d.atanFn.fn) rfl]
  show (_ → d.atan2 y x = _ ∧ _) ∧ (_ → d.atan2 y x = _ ∧ _)
  constructor
  · intro hy
    have e1 : d.isZero y = false := by rw [← Bool.not_eq_true, L.isZero]; grind
    have e2 : d.lt d.zero y = true := by rw [L.lt, v0]; exact hy
    exact ⟨by simp [Dec.atan2, ex, e1, e2], by grind⟩
  · intro hy
    have e1 : d.isZero y = false := by rw [← Bool.not_eq_true, L.isZero]; grind
    have e2 : d.lt d.zero y = false := by rw [← Bool.not_eq_true, L.lt, v0]; grind
    exact ⟨by simp [Dec.atan2, ex, e1, e2], by grind⟩

/-- C66 for points off the y axis: the arctangent of `y / x`, plus or minus π to the left of the axis. Missing: the y axis, and points for which
the quotient overflows (a panic). -/
theorem C66_atan2_partial (K : Keys) (debug : Bool) (L : d.Laws) (f : F64 F) (config : Config) (c : Context D)
    (hc : d.context K debug f config = .ok c) (os : List (Op D)) (y x q a : D) (hx : L.val x ≠ 0)
    (hq : evalTokens ((c.runAll K debug os).view K) (infixTokens y (str "/") x) = .ok q)
    (ha : evalTokens ((c.runAll K debug os).view K) (callTokens (str "atan") [q]) = .ok a) :
    let ev := evalTokens ((c.runAll K debug os).view K)
    (0 < L.val x → ev (callTokens (str "atan") [y, x]) = .ok a) ∧
    (L.val x < 0 → 0 ≤ L.val y → ∀ b, ev (infixTokens a (str "+") d.pi) = .ok b → ev (callTokens (str "atan") [y, x]) = .ok b) ∧
    (L.val x < 0 → L.val y < 0 → ∀ b, ev (infixTokens a (str "-") d.pi) = .ok b → ev (callTokens (str "atan") [y, x]) = .ok b) := by
  intro ev
  have hq' : d.cdiv y x = .ok q := (decimal_infix hc os (g := d.divOp.fn) rfl y x).symm.trans hq
  have ha' : d.atan q = .ok a := (decimal_call hc os (g := d.atanFn.fn) rfl [q]).symm.trans ha
  have hadd : ev (infixTokens a (str "+") d.pi) = d.cadd a d.pi := decimal_infix hc os (g := d.addOp.fn) rfl a d.pi
  have hsub : ev (infixTokens a (str "-") d.pi) = d.csub a d.pi := decimal_infix hc os (g := d.subOp.fn) rfl a d.pi
  have h2 : ev (callTokens (str "atan") [y, x]) = d.atan2 y x := decimal_call hc os (g := d.atanFn.fn) rfl [y, x]
  have v0 : L.val d.zero = 0 := L.nat_val (n := 0) (by decide)
  have hz : d.isZero x = false := by rw [← Bool.not_eq_true, L.isZero]; exact hx
  have hd : d.div y x = .ok q := by simp [Dec.div, hq', Res.unwrapNone]
  rw [hadd, hsub, h2]
  unfold Dec.atan2
  simp only [hz, Bool.and_false, Bool.false_eq_true, if_false, Res.bind_eq, hd, Res.bind_ok, ha', Res.pure_eq]
  refine ⟨fun h => ?_, fun h hy b hb => ?_, fun h hy b hb => ?_⟩
  · rw [if_pos (by rw [L.lt, v0]; exact h)]
  · have e1 : d.lt y d.zero = false := by rw [← Bool.not_eq_true, L.lt, v0]; grind
    rw [if_neg (by rw [L.lt, v0]; grind), e1]
    simp [Dec.add, hb, Res.unwrapNone]
  · have e1 : d.lt y d.zero = true := by rw [L.lt, v0]; exact hy
    rw [if_neg (by rw [L.lt, v0]; grind), e1]
    simp [Dec.sub, hb, Res.unwrapNone]

/-! ## C67: arguments outside of the domain are refused -/

/-- C67. -/
theorem C67_domain (K : Keys) (debug : Bool) (L : d.Laws) (hfuel : 100 ≤ d.fuel) (f : F64 F) (config : Config) (c : Context D)
    (hc : d.context K debug f config = .ok c) (os : List (Op D)) (x b : D) :
    let ev := evalTokens ((c.runAll K debug os).view K)
    (L.val x < 0 → ev (callTokens (str "sqrt") [x]) = .err .overflow) ∧
    (L.val x ≤ 0 → ev (callTokens (str "ln") [x]) = .err .overflow) ∧
    (L.val x ≤ 0 → ev (callTokens (str "log") [x]) = .err .overflow) ∧
    (L.val x ≤ 0 → ev (callTokens (str "log") [x, b]) = .err .overflow) ∧
    (L.val b ≤ 0 → ∃ k, ev (callTokens (str "log") [x, b]) = .err k) ∧
    (L.val x < 1 → ev (callTokens (str "acosh") [x]) = .err .overflow) ∧
    (L.val x < -1 ∨ 1 < L.val x → ev (callTokens (str "atanh") [x]) = .err .overflow) ∧
    (L.val x < 0 → ev [.number x, .unary ['!']] = .err .overflow) := by
  intro ev
  have v0 : L.val d.zero = 0 := L.nat_val (n := 0) (by decide)
  have v1 : L.val d.one = 1 := L.nat_val (n := 1) (by decide)
  have v10 : L.val d.ten = 10 := L.nat_val (n := 10) (by decide)
  have vm : L.val d.oneMinus = -1 := L.oneMinus
  have hln : ∀ x, L.val x ≤ 0 → d.ln x = .err .overflow := by
    intro x hx
    have : d.lt d.zero x = false := by rw [← Bool.not_eq_true, L.lt, v0]; grind
    simp [Dec.ln, Dec.lnDepth, this]
  have hlog : ∀ x b, L.val x ≤ 0 → d.log x b = .err .overflow := by
    intro x b hx
    simp [Dec.log, hln x hx]
  refine ⟨fun h => ?_, fun h => ?_, fun h => ?_, fun h => ?_, fun h => ?_, fun h => ?_, fun h => ?_, fun h => ?_⟩
  · refine (decimal_call hc os (g := (Dec.fn1 (str "sqrt") (d.sqrt f)).fn) rfl _).trans ?_
    show d.sqrt f x = _
    rw [Dec.sqrt, if_pos ((L.sign x).1 h)]
  · exact (decimal_call hc os (g := (Dec.fn1 (str "ln") d.ln).fn) rfl _).trans (hln x h)
  · exact (decimal_call hc os (g := d.logFn.fn) rfl _).trans (hlog x _ h)
  · exact (decimal_call hc os (g := d.logFn.fn) rfl _).trans (hlog x b h)
  · have he : ev (callTokens (str "log") [x, b]) = d.log x b := decimal_call hc os (g := d.logFn.fn) rfl _
    rw [he]
    have hb : ¬ d.eq b d.ten = true := by rw [L.eq, v10]; grind
    unfold Dec.log
    cases hl : d.ln x with
    | ok a => exact ⟨.overflow, by simp [hb, hln b h]⟩
    | err k => exact ⟨k, rfl⟩
    | panic => exact absurd hl (L.ln_ne_panic hfuel x)
  · refine (decimal_call hc os (g := (Dec.fn1 (str "acosh") (d.acosh f)).fn) rfl _).trans ?_
    show d.acosh f x = _
    rw [Dec.acosh, if_pos (by rw [L.lt, v1]; exact h)]
  · refine (decimal_call hc os (g := (Dec.fn1 (str "atanh") d.atanh).fn) rfl _).trans ?_
    show d.atanh x = _
    rw [Dec.atanh, if_pos]
    rw [Bool.or_eq_true, L.lt, L.lt, v1, vm]
    exact h
  · refine (decimal_postfix hc os x).trans ?_
    rw [Dec.factorial, if_pos ((L.sign x).1 h)]

/-! ## C68: inverse functions -/

/-- C68 is false: acot is the same as atan. In particular acot(0) is 0 and not π/2. -/
theorem C68_acot_counterexample (K : Keys) (debug : Bool) (L : d.Laws) (f : F64 F) (config : Config) (c : Context D)
    (hc : d.context K debug f config = .ok c) (os : List (Op D)) :
    let ev := evalTokens ((c.runAll K debug os).view K)
    (∀ x, ev (callTokens (str "acot") [x]) = ev (callTokens (str "atan") [x])) ∧
    (∀ x, L.val x = 0 → ∃ z, ev (callTokens (str "acot") [x]) = .ok z ∧ L.val z = 0) := by
  intro ev
  have h1 : ∀ x, ev (callTokens (str "acot") [x]) = d.atan x := fun x => decimal_call hc os (g := (Dec.fn1 (str "acot") d.atan).fn) rfl [x]
  refine ⟨fun x => (h1 x).trans (decimal_call hc os (g := d.atanFn.fn) rfl [x]).symm, fun x hx => ?_⟩
  rw [h1]
  exact ⟨d.zero, by rw [Dec.atan, Dec.atanDepth, if_pos ((L.isZero x).mpr hx)], L.nat_val (n := 0) (by decide)⟩

/-- C68 for acsc and asec at the ends of the domain, where they are known exactly, and inside of the gap: acsc(1) is π/2, acsc(-1) is -π/2, asec(1)
is 0, asec(-1) is π, and numbers up to a half are refused. Missing: other arguments, where the result is an approximation, and 0 (a panic, see
C65). -/
theorem C68_arc_partial (K : Keys) (debug : Bool) (L : d.Laws) (f : F64 F) (config : Config) (c : Context D)
    (hc : d.context K debug f config = .ok c) (os : List (Op D)) (x : D) :
    let ev := evalTokens ((c.runAll K debug os).view K)
    (L.val x = 1 → ev (callTokens (str "acsc") [x]) = .ok d.piHalf ∧ ∃ z, ev (callTokens (str "asec") [x]) = .ok z ∧ L.val z = 0) ∧
    (L.val x = -1 → (∃ z, ev (callTokens (str "acsc") [x]) = .ok z ∧ L.val z = - L.val d.piHalf) ∧ ev (callTokens (str "asec") [x]) = .ok d.pi) ∧
    (L.val x ≠ 0 → -(1 / 2) ≤ L.val x → L.val x ≤ 1 / 2 →
      ev (callTokens (str "acsc") [x]) = .err .overflow ∧ ev (callTokens (str "asec") [x]) = .err .overflow) := by
  intro ev
  have h1 : ev (callTokens (str "acsc") [x]) = (d.inv x).bind (d.asin f) := decimal_call hc os (g := (d.arcRecFn (str "acsc") (d.asin f)).fn) rfl [x]
  have h2 : ev (callTokens (str "asec") [x]) = (d.inv x).bind (d.acos f) := decimal_call hc os (g := (d.arcRecFn (str "asec") (d.acos f)).fn) rfl [x]
  rw [h1, h2]
  have v0 : L.val d.zero = 0 := L.nat_val (n := 0) (by decide)
  have v1 : L.val d.one = 1 := L.nat_val (n := 1) (by decide)
  have vm : L.val d.oneMinus = -1 := L.oneMinus
  have hinv : ∀ q, L.val x ≠ 0 → 1 / L.val x = q → Representable q → ∃ y, d.inv x = .ok y ∧ L.val y = q := by
    intro q h0 hq hr
    obtain ⟨z, hz, hv⟩ := L.cdiv (x := d.one) h0 (by rw [v1, hq]; exact hr)
    exact ⟨z, by rw [Dec.inv, Dec.div, hz]; rfl, by rw [hv, v1, hq]⟩
  refine ⟨fun hx => ?_, fun hx => ?_, fun hx hl hu => ?_⟩
  · obtain ⟨y, hy, hv⟩ := hinv 1 (by rw [hx]; decide) (by rw [hx]; decide +kernel) (by decide +kernel)
    have e1 : d.lt y d.oneMinus = false := by rw [← Bool.not_eq_true, L.lt, hv, vm]; decide
    have e2 : d.lt d.one y = false := by rw [← Bool.not_eq_true, L.lt, hv, v1]; decide
    have e3 : d.isZero y = false := by rw [← Bool.not_eq_true, L.isZero, hv]; decide
    have e4 : d.isOne y = true := (L.isOne y).mpr hv
    rw [hy]
    exact ⟨by simp [Dec.asin, e1, e2, e3, e4], d.zero, by simp [Dec.acos, e1, e2, e3, e4], v0⟩
  · obtain ⟨y, hy, hv⟩ := hinv (-1) (by rw [hx]; decide) (by rw [hx]; decide +kernel) (by decide +kernel)
    have e1 : d.lt y d.oneMinus = false := by rw [← Bool.not_eq_true, L.lt, hv, vm]; decide
    have e2 : d.lt d.one y = false := by rw [← Bool.not_eq_true, L.lt, hv, v1]; decide
    have e3 : d.isZero y = false := by rw [← Bool.not_eq_true, L.isZero, hv]; decide
    have e4 : d.isOne y = false := by rw [← Bool.not_eq_true, L.isOne, hv]; decide
    have e5 : d.eq y d.oneMinus = true := (L.eq _ _).mpr (by rw [hv, vm])
    rw [hy]
    exact ⟨⟨d.neg d.piHalf, by simp [Dec.asin, e1, e2, e3, e4, e5], L.neg _⟩, by simp [Dec.acos, e1, e2, e3, e4, e5]⟩
  · obtain ⟨s, hs, k, hk, hsc⟩ := L.range x
    have hrep28 : Representable ((10 ^ 28 : Nat) : Rat) := representable_nat (by decide)
    have key : ∃ y, d.inv x = .ok y ∧ (2 ≤ L.val y ∨ L.val y ≤ -2) := by
      have hpow := ten_pow_pos s
      have hp28 : (((10 : Int) ^ s : Int) : Rat) ≤ ((10 ^ 28 : Nat) : Rat) := by
        have := Nat.pow_le_pow_right (n := 10) (by decide) hs
        have h' : ((10 : Int) ^ s) ≤ ((10 ^ 28 : Nat) : Int) := by exact_mod_cast this
        exact Rat.intCast_le_intCast.mpr h'
      have e : 1 / L.val x * L.val x = 1 := Rat.div_mul_cancel hx
      by_cases hneg : L.val x < 0
      · have hk1 : k ≤ -1 := by
          have : (k : Rat) < 0 := by
            rw [← hsc]
            have := Rat.mul_lt_mul_of_pos_right hneg (c := ((10 : Int) ^ s : Int)) (by grind)
            rwa [Rat.zero_mul] at this
          have : k < 0 := by exact_mod_cast this
          omega
        have hk1' : (k : Rat) ≤ -1 := Rat.intCast_le_intCast.mpr hk1
        have hb : Bounded ((10 ^ 28 : Nat) : Rat) (L.val d.one / L.val x) := by
          rw [v1]
          have e' : (1 : Rat) / L.val x = -(1 / (- L.val x)) := by grind
          rw [e']
          refine (Bounded.div (by grind) ?_).neg
          have h5 := Rat.mul_le_mul_of_nonneg_left hp28 (c := - L.val x) (by grind)
          constructor <;> grind
        obtain ⟨z, hz, hr, -⟩ := L.div_ok hx hrep28 hb
        refine ⟨z, hz, .inr ((hr (-2) (by decide +kernel)).2 ?_)⟩
        rw [v1]
        refine Rat.not_lt.mp fun h => ?_
        have := Rat.mul_lt_mul_of_pos_right h (c := - L.val x) (by grind)
        grind
      · have hpos : 0 < L.val x := by grind
        have hk1 : 1 ≤ k := by
          have : (0 : Rat) < (k : Rat) := by
            rw [← hsc]
            have := Rat.mul_lt_mul_of_pos_right hpos (c := ((10 : Int) ^ s : Int)) (by grind)
            rwa [Rat.zero_mul] at this
          have : 0 < k := by exact_mod_cast this
          omega
        have hk1' : (1 : Rat) ≤ (k : Rat) := Rat.intCast_le_intCast.mpr hk1
        have hb : Bounded ((10 ^ 28 : Nat) : Rat) (L.val d.one / L.val x) := by
          rw [v1]
          refine Bounded.div hpos ?_
          have h5 := Rat.mul_le_mul_of_nonneg_left hp28 (c := L.val x) (by grind)
          constructor <;> grind
        obtain ⟨z, hz, hr, -⟩ := L.div_ok hx hrep28 hb
        refine ⟨z, hz, .inl ((hr 2 (by decide +kernel)).1 ?_)⟩
        rw [v1]
        refine Rat.not_lt.mp fun h => ?_
        have := Rat.mul_lt_mul_of_pos_right h hpos
        grind
    obtain ⟨y, hy, hv⟩ := key
    have hout : (d.lt y d.oneMinus || d.lt d.one y) = true := by
      rw [Bool.or_eq_true, L.lt, L.lt, vm, v1]
      rcases hv with h | h
      · right; grind
      · left; grind
    rw [hy]
    exact ⟨by simp only [Res.bind_ok, Dec.asin, hout, if_true], by simp only [Res.bind_ok, Dec.acos, hout, if_true]⟩

/-! ## C69: powers of zero and one -/

/-- C69 for whole exponents: every number to the power of zero is one, and to the power of one itself; one and zero to any other whole power are
one and zero. -/
theorem C69_special_powers_partial (K : Keys) (debug : Bool) (L : d.Laws) (f : F64 F) (config : Config) (c : Context D)
    (hc : d.context K debug f config = .ok c) (os : List (Op D)) (x y : D) :
    let ev := evalTokens ((c.runAll K debug os).view K)
    (L.val y = 0 → ∃ z, ev (infixTokens x (str "^") y) = .ok z ∧ L.val z = 1) ∧
    (L.val y = 1 → ev (infixTokens x (str "^") y) = .ok x) ∧
    (∀ n : Nat, i64.Fits n → 0 < n → L.val y = (n : Int) → L.val x = 0 → ∃ z, ev (infixTokens x (str "^") y) = .ok z ∧ L.val z = 0) ∧
    (∀ n : Nat, i64.Fits n → L.val y = (n : Int) → L.val x = 1 → ∃ z, ev (infixTokens x (str "^") y) = .ok z ∧ L.val z = 1) ∧
    ((¬ ∃ n : Int, L.val y = n) → L.val x = 1 → ev (infixTokens x (str "^") y) = .ok x) := by
  intro ev
  have he : ev (infixTokens x (str "^") y) = d.powd x y := decimal_infix hc os (g := d.powOp.fn) rfl x y
  have hex := fun n hy hn hr => C48_power_exact_partial K debug L f config c hc os x y n hy hn hr
  have rep0 : Representable 0 := by decide +kernel
  have rep1 : Representable 1 := by decide +kernel
  refine ⟨fun h => ?_, fun h => ?_, fun n hn hpos hy hx => ?_, fun n hn hy hx => ?_, fun hy hx => ?_⟩
  · rw [he, powd_int L (n := 0) h, if_pos (by decide)]
    exact ⟨d.one, rfl, L.nat_val (n := 1) (by decide)⟩
  · rw [he, powd_int L (n := 1) h, if_pos (by decide)]
    rfl
  · obtain ⟨z, hz, hv⟩ := hex n hy hn (fun k _ => by
      rw [hx]
      cases k with
      | zero => simpa using rep1
      | succ k => rw [Rat.pow_succ, Rat.mul_zero]; exact rep0)
    refine ⟨z, hz, ?_⟩
    rw [hv, hx]
    cases n with
    | zero => omega
    | succ n => rw [Rat.pow_succ, Rat.mul_zero]
  · have h1 : ∀ k : Nat, (1 : Rat) ^ k = 1 := by
      intro k
      induction k with
      | zero => simp
      | succ k ih => rw [Rat.pow_succ, ih, Rat.mul_one]
    obtain ⟨z, hz, hv⟩ := hex n hy hn (fun k _ => by rw [hx, h1]; exact rep1)
    exact ⟨z, hz, by rw [hv, hx, h1]⟩
  · have hi : d.isInteger y = false := by
      rw [← Bool.not_eq_true, Dec.isInteger, L.isZero, L.fract]; exact hy
    have hz : d.isZero x = false := by rw [← Bool.not_eq_true, L.isZero, hx]; decide
    have h1 : d.isOne x = true := (L.isOne x).mpr hx
    rw [he, Dec.powd, hi]
    simp [hz, h1]

/-- C69 is false: zero to a power that is not whole is one, also for negative powers. -/
theorem C69_zero_power_counterexample (K : Keys) (debug : Bool) (L : d.Laws) (f : F64 F) (config : Config) (c : Context D)
    (hc : d.context K debug f config = .ok c) (os : List (Op D)) (x y : D) (hy : ¬ ∃ n : Int, L.val y = n) (hx : L.val x = 0) :
    ∃ z, evalTokens ((c.runAll K debug os).view K) (infixTokens x (str "^") y) = .ok z ∧ L.val z = 1 := by
  refine ⟨d.one, ?_, L.nat_val (n := 1) (by decide)⟩
  refine (decimal_infix hc os (g := d.powOp.fn) rfl x y).trans ?_
  show d.powd x y = _
  have hi : d.isInteger y = false := by
    rw [← Bool.not_eq_true, Dec.isInteger, L.isZero, L.fract]; exact hy
  rw [Dec.powd, hi]
  simp [(L.isZero x).mpr hx]

/-- A half is not a whole number. -/
example : ¬ ∃ n : Int, Demo.decLaws.val (Demo.decimal 5 1) = n := by
  rintro ⟨n, h⟩
  have : (Demo.decimal 5 1).1.den = 1 := by rw [show (Demo.decimal 5 1).1 = _ from h]; rfl
  revert this
  decide +kernel

end Prexel
