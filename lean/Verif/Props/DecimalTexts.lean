import Verif.Lemmas.DecimalText
import Verif.Props.Literals
import Verif.Props.NumberNames
import Verif.Props.Decimal
/-!
# Decimal literals and the texts of decimals (C143, C108, C134)
-/

set_option linter.unusedVariables false

namespace Prexel
open D96
variable {F : Type} {lib : Lib F}

namespace D96

theorem int_abs (x : D96) : x.int.natAbs = x.c := by unfold int; split <;> omega

theorem toStr_signed (x : D96) : SignedWritten (toStr x) x.int x.s := by
  refine ⟨digitsOf x.c x.s, by rw [int_abs]; exact digitsOf_written _ _, digitsOf_usual' _ _, ?_, ?_, ?_⟩
  · intro h
    unfold int at h
    unfold toStr
    split at h
    · omega
    · rename_i hn; rw [if_neg hn]
  · intro h
    unfold int at h
    unfold toStr
    split at h
    · rename_i hn; rw [if_pos hn]
    · omega
  · intro h
    unfold toStr
    split
    · exact .inr rfl
    · exact .inl rfl

/-- A sum with the larger number of places, if it fits. -/
theorem add_places {x y : D96} (hx : x.int ≠ 0) (hy : y.int ≠ 0) (h : (x.at_ (max x.s y.s) + y.at_ (max x.s y.s)).natAbs < 2 ^ 96) :
    ∃ z, add x y = some z ∧ z.int = x.at_ (max x.s y.s) + y.at_ (max x.s y.s) ∧ z.s = max x.s y.s := by
  have hx' : x.c ≠ 0 := by rw [← int_abs]; omega
  have hy' : y.c ≠ 0 := by rw [← int_abs]; omega
  unfold add
  rw [if_neg hx', if_neg hy']
  simp only
  have hm : max x.s y.s ≤ 28 := max_le x.scale y.scale
  generalize x.at_ (max x.s y.s) + y.at_ (max x.s y.s) = t at *
  generalize max x.s y.s = m at *
  have he : even (t.natAbs * 10 ^ m) (10 ^ m) = t.natAbs := even_exact (by positivity)
  rw [fit_top (by rw [he]; exact h) hm]
  refine ⟨_, rfl, ?_, rfl⟩
  unfold int
  simp only [he]
  by_cases h0 : t = 0
  · subst h0; simp
  · rw [if_neg h0]
    by_cases h1 : t < 0
    · rw [if_pos (by simpa using h1)]; omega
    · rw [if_neg (by simpa using h1)]; omega

theorem opp_int (x : D96) : x.opp.int = -x.int := by
  obtain ⟨n, c, s, _, _⟩ := x
  cases n <;> simp [opp, int]

theorem sub_places {x y : D96} (hx : x.int ≠ 0) (hy : y.int ≠ 0) (h : (x.at_ (max x.s y.s) - y.at_ (max x.s y.s)).natAbs < 2 ^ 96) :
    ∃ z, sub x y = some z ∧ z.int = x.at_ (max x.s y.s) - y.at_ (max x.s y.s) ∧ z.s = max x.s y.s := by
  have hy' : y.c ≠ 0 := by rw [← int_abs]; omega
  have ho : ∀ m, y.opp.at_ m = -y.at_ m := by
    intro m
    show y.opp.int * 10 ^ (m - y.s) = _
    rw [opp_int]
    unfold at_
    ring
  unfold sub
  rw [if_neg hy']
  have hs : y.opp.s = y.s := rfl
  have := add_places (x := x) (y := y.opp) hx (by rw [opp_int]; omega)
  rw [hs, ho, ← sub_eq_add_neg] at this
  exact this h

theorem mul_places {x y : D96} (hx : x.int ≠ 0) (hy : y.int ≠ 0) (h : (x.int * y.int).natAbs < 2 ^ 96) (hp : x.s + y.s ≤ 28) :
    ∃ z, mul x y = some z ∧ z.int = x.int * y.int ∧ z.s = x.s + y.s := by
  have hx' : x.c ≠ 0 := by rw [← int_abs]; omega
  have hy' : y.c ≠ 0 := by rw [← int_abs]; omega
  unfold mul
  rw [if_neg (by tauto), min_eq_left hp]
  have he : even (x.c * y.c * 10 ^ (x.s + y.s)) (10 ^ (x.s + y.s)) = x.c * y.c := even_exact (by positivity)
  rw [Int.natAbs_mul, int_abs, int_abs] at h
  rw [fit_top (by rw [he]; exact h) hp]
  refine ⟨_, rfl, ?_, rfl⟩
  simp only [int, he]
  obtain ⟨n1, _, _, _, _⟩ := x
  obtain ⟨n2, _, _, _, _⟩ := y
  cases n1 <;> cases n2 <;> simp

/-- The value of a tree has the places that school arithmetic gives. -/
theorem value_places (f : F64 F) (e : Arith D96) : ∀ {k : ℤ} {p : ℕ}, e.places (fun n => (n.int, n.s)) = some (k, p) →
    ∃ z, e.value (decimalArithmetic (dec lib) f) = .ok z ∧ z.int = k ∧ z.s = p := by
  induction e with
  | num n => rintro k p h; simp only [Arith.places, Option.some.injEq, Prod.mk.injEq] at h; exact ⟨n, rfl, h.1, h.2⟩
  | neg e ih =>
    rintro k p h
    simp only [Arith.places, Option.map_eq_some_iff, Prod.mk.injEq] at h
    obtain ⟨⟨k', p'⟩, h1, h2, h3⟩ := h
    obtain ⟨z, hz, hz1, hz2⟩ := ih h1
    refine ⟨z.opp, ?_, by rw [opp_int, hz1, ← h2], by rw [← h3, ← hz2]; rfl⟩
    simp [Arith.value, hz, Res.bind_ok]
    rfl
  | fact e ih => rintro k p h; simp [Arith.places] at h
  | bin o l r ihl ihr =>
    rintro k p h
    simp only [Arith.places, Option.bind_eq_some_iff] at h
    obtain ⟨⟨k1, p1⟩, h1, ⟨k2, p2⟩, h2, w, h3, h4⟩ := h
    obtain ⟨x, hx, hx1, hx2⟩ := ihl h1
    obtain ⟨y, hy, hy1, hy2⟩ := ihr h2
    subst hx1 hx2 hy1 hy2
    split at h4
    · rename_i hcond
      cases h4
      obtain ⟨c1, c2, c3, c4⟩ := hcond
      simp only at c1 c2 c3 c4
      have hval : ∀ z, (decimalArithmetic (dec lib) f).op o x y = .ok z → (Arith.bin o l r).value (decimalArithmetic (dec lib) f) = .ok z := by
        intro z hz
        simp [Arith.value, hx, hy, Res.bind_ok, hz]
      cases o with
      | add =>
        simp only [Option.some.injEq, Prod.mk.injEq] at h3
        obtain ⟨rfl, rfl⟩ := h3
        obtain ⟨z, hz, hz1, hz2⟩ := add_places c1 c2 c3
        refine ⟨z, hval z ?_, hz1, hz2⟩
        show Res.ofOption (add x y) .overflow = _
        rw [hz]; rfl
      | sub =>
        simp only [Option.some.injEq, Prod.mk.injEq] at h3
        obtain ⟨rfl, rfl⟩ := h3
        obtain ⟨z, hz, hz1, hz2⟩ := sub_places c1 c2 c3
        refine ⟨z, hval z ?_, hz1, hz2⟩
        show Res.ofOption (sub x y) .overflow = _
        rw [hz]; rfl
      | mul =>
        simp only [Option.some.injEq, Prod.mk.injEq] at h3
        obtain ⟨rfl, rfl⟩ := h3
        obtain ⟨z, hz, hz1, hz2⟩ := mul_places c1 c2 c3 c4
        refine ⟨z, hval z ?_, hz1, hz2⟩
        show Res.ofOption (mul x y) .overflow = _
        rw [hz]; rfl
      | div => cases h3
      | mod => cases h3
      | pow => cases h3
    · cases h4

theorem words_none : ∀ w ∈ arithWords, fromStr lib w = none := by
  intro w hw
  refine fromStr_none lib ?_
  have : ∀ w ∈ arithWords, w.any isDigit = false := by decide
  exact .inl (this w hw)

end D96

/-! ## C143 -/

/-- C143. A numeral of at most 96 bits and 28 places, alone, evaluates over decimals to exactly what it stands for, whatever is registered. The result is
printed with the same digits and the same number of places: as the same text, if that has no superfluous zeros in front. -/
theorem C143_literal {rules : List Rule} (hr : rules = defaultRules ∨ rules = replRules false) (ctx : Ctx D96) {s : Str} {c p : ℕ} (h : WrittenPlaces s c p)
    (hc : c < 2 ^ 96) (hp : p ≤ 28) :
    ∃ z, eval (fromStr lib) (split rules) ctx s = .ok z ∧ z.val = (c : ℚ) / 10 ^ p ∧ WrittenPlaces (toStr z) c p ∧ UsualPlaces (toStr z) ∧ (UsualPlaces s → toStr z = s) := by
  refine ⟨_, eval_word _ (plain_of hr) ctx (.numeral h.stands.numeral) (fromStr_written lib h hc hp), ?_, ?_, ?_, ?_⟩
  · rw [val_eq]; simp
  · exact digitsOf_written c p
  · exact digitsOf_usual' c p
  · exact fun hu => digitsOf_usual h hu

/-- The literals of a tree are written as numerals. -/
def WrittenLiterals (lit : D96 → Str) (e : Arith D96) : Prop := ∀ n, Token.number n ∈ e.tokens → n.neg = false ∧ WrittenPlaces (lit n) n.c n.s

theorem decimal_text {K : Keys} {debug : Bool} {f : F64 F} {config : Config} (hcx : config.complexNumber = false) {c : Context D96}
    (hc : (dec lib).context K debug f config = .ok c) (lit : D96 → Str) (e : Arith D96) (hl : WrittenLiterals lit e) (s : Str)
    (hs : Spaced (e.tokens.map (wordOf lit)) s) :
    eval (fromStr lib) (split defaultRules) (c.view K) s = e.value (decimalArithmetic (dec lib) f) := by
  refine C32_decimal_text K debug (dec lib) f config hcx c hc (fromStr lib) lit D96.words_none e (fun n hn => ?_) s hs
  obtain ⟨h1, h2⟩ := hl n hn
  refine ⟨?_, split_numberWord defaultRules_plain (.numeral h2.stands.numeral)⟩
  rw [fromStr_written lib h2 n.small n.scale, ← h1]

/-- C143 for sums, differences and products of numerals, written with any white space between the tokens: the result is exact and printed with the places
that school arithmetic gives. -/
theorem C143_places {K : Keys} {debug : Bool} {f : F64 F} {config : Config} (hcx : config.complexNumber = false) {c : Context D96}
    (hc : (dec lib).context K debug f config = .ok c) (lit : D96 → Str) (e : Arith D96) (hl : WrittenLiterals lit e) {k : ℤ} {p : ℕ}
    (hp : e.places (fun n => (n.int, n.s)) = some (k, p)) (s : Str) (hs : Spaced (e.tokens.map (wordOf lit)) s) :
    ∃ z, eval (fromStr lib) (split defaultRules) (c.view K) s = .ok z ∧ z.val = (k : ℚ) / 10 ^ p ∧ SignedWritten (toStr z) k p := by
  obtain ⟨z, h1, h2, h3⟩ := value_places f e hp
  refine ⟨z, by rw [decimal_text hcx hc lit e hl s hs, h1], by rw [val, h2, h3], ?_⟩
  rw [← h2, ← h3]
  exact toStr_signed z

/-- C143 at the server: the answer to such an expression is the exact result with those places. -/
theorem C143_server {T : Type} (W : World D96 F T) (hd : W.dec = dec lib) (hread : W.readDecimal = fromStr lib) (hshow : W.showDecimal = toStr)
    (lit : D96 → Str) (e : Arith D96) (hl : WrittenLiterals lit e) {k : ℤ} {p : ℕ} (hp : e.places (fun n => (n.int, n.s)) = some (k, p)) (r : Request F)
    (htype : r.numberType = .decimal) (hvars : r.variables.getD [] = []) (hs : Spaced (e.tokens.map (wordOf lit)) r.expression) :
    ∃ t, W.evalExpression r = .result t ∧ SignedWritten t k p := by
  have htype' : r.type.getD .decimal = .decimal := by rw [← htype]; unfold Request.numberType; cases r.type <;> rfl
  have ht : W.texts r = [] := by simp [World.texts, hvars]
  obtain ⟨c, hc, hv⟩ := decimal_build W.K W.debug W.dec W.f serverConfig
  have hc' := hc
  rw [hd] at hc'
  obtain ⟨z, h1, -, h2⟩ := C143_places (hcx := rfl) hc' lit e hl hp r.expression hs
  refine ⟨toStr z, ?_, h2⟩
  unfold World.evalExpression
  simp only [htype', ht]
  rw [serve_result _ _ _ _ _ (by simp)]
  refine ⟨c, hc, (fun _ he => by cases he), z, ?_, by show W.showDecimal z = _; rw [hshow]⟩
  show eval W.readDecimal (split defaultRules) _ _ = _
  rw [hread, ← h1]
  rfl

/-! ## C108 over decimals -/

/-- The sign of a decimal is written as a minus sign before the numeral of its absolute value. -/
theorem decimal_cases (lib : Lib F) (x : D96) :
    ∃ s m, NumberWord s ∧ fromStr lib s = some m ∧ ((toStr x = s ∧ m = x) ∨ (toStr x = '-' :: s ∧ m.opp = x)) := by
  have hw := digitsOf_written x.c x.s
  refine ⟨_, _, .numeral hw.stands.numeral, fromStr_written lib hw x.small x.scale, ?_⟩
  obtain ⟨n, c, s, h, h'⟩ := x
  cases n
  · exact .inl ⟨rfl, rfl⟩
  · exact .inr ⟨rfl, rfl⟩

/-- C108 for decimals in the library. The text of any decimal, entered as an expression, evaluates to it, after anything that was registered since, unless
something is named `-`. -/
theorem C108_decimal {K : Keys} {debug : Bool} {f : F64 F} {config : Config} {c : Context D96} (hc : (dec lib).context K debug f config = .ok c)
    (os : List (Op D96)) (hd : DashFree ((c.runAll K debug os).view K)) {rules : List Rule} (hr : rules = defaultRules ∨ rules = replRules false) (x : D96) :
    eval (fromStr lib) (split rules) ((c.runAll K debug os).view K) (toStr x) = .ok x := by
  obtain ⟨s, m, hw, hm, ⟨h1, rfl⟩ | ⟨h1, h2⟩⟩ := decimal_cases lib x
  · rw [h1]; exact eval_word _ (plain_of hr) _ hw hm
  · have hu : ((c.runAll K debug os).view K).getUnary ['-'] = some (Dec.negOp (dec lib)).fn := by
      refine (C26_never_replaced K debug c os _).2.1 _ ?_
      rw [decimal_inv hc]; rfl
    rw [h1, eval_dash _ (plain_of hr) _ hw hm (fromStr_none lib (.inl (by decide))) hd hu rfl, ← h2]
    rfl

/-- C108 at the server for decimals, without any assumption about reading and printing: every answer, sent as the expression of the same request, is
answered with itself. -/
theorem C108_server_decimal {T : Type} (W : World D96 F T) (hdec : W.dec = dec lib) (hread : W.readDecimal = fromStr lib) (hshow : W.showDecimal = toStr)
    (r : Request F) (htype : r.numberType = .decimal) (hn : r.Distinct) {t : Str} (hres : W.evalExpression r = .result t)
    (hv : ∀ e ∈ r.variables.getD [], e.1 ≠ ['-']) : W.evalExpression { r with expression := t } = .result t := by
  refine C108_server_partial W r hn hres ?_ fun _ _ => hv
  rw [htype]
  have ht : ∃ x, t = toStr x := by
    have htype' : r.type.getD .decimal = .decimal := by rw [← htype]; unfold Request.numberType; cases r.type <;> rfl
    have hn' : ((W.texts r).map (·.1)).Nodup := by simpa [World.texts, Request.Distinct, Function.comp_def] using hn
    unfold World.evalExpression at hres
    simp only [htype'] at hres
    obtain ⟨c, hc, -, n, -, h⟩ := (serve_result _ _ _ _ _ hn' _ _).1 hres
    exact ⟨n, by rw [← h]; show W.showDecimal n = _; rw [hshow]⟩
  obtain ⟨x, rfl⟩ := ht
  show W.readDecimal _ = none ∧ Backend.Reads _ _ _
  rw [hread, hdec]
  refine ⟨fromStr_none lib (.inl (by decide)), ?_⟩
  obtain ⟨s, m, hw, hm, ⟨h1, rfl⟩ | ⟨h1, h2⟩⟩ := decimal_cases lib x
  · exact ⟨s, m, hw, by show W.readDecimal s = _; rw [hread]; exact hm, .inl ⟨h1, by show W.showDecimal m = _; rw [hshow]⟩⟩
  · exact ⟨s, m, hw, by show W.readDecimal s = _; rw [hread]; exact hm, .inr ⟨h1, x, by rw [← h2]; rfl, by show W.showDecimal x = _; rw [hshow]⟩⟩

/-! ## C134 over decimals -/

/-- C134 for decimals: the text of an identifier that is bound to a value evaluates to the value, in every context. -/
theorem C134_decimals {rules : List Rule} (hr : rules = defaultRules ∨ rules = replRules false) (ctx : Ctx D96) {s : Str} (h : Identifier s)
    {v : D96} (hv : ctx.getVariable s = some v) : eval (fromStr lib) (split rules) ctx s = .ok v := by
  refine eval_identifier _ (plain_of hr) ctx h (fromStr_none lib (.inr ?_)) hv
  obtain ⟨c, r, rfl, hc, -⟩ := h
  simp [isLetter_iff.2 hc]

/-! ## Examples -/

/-- A library for the examples: no conversions, and no other texts are numbers. -/
def Demo.decimals : Lib B64 := ⟨fun _ => none, fun _ => none, fun _ => none, 100⟩

/-- The tree of `19.99 * 3 - 0.1`. -/
def Demo.invoice : Arith D96 := .bin .sub (.bin .mul (.num (D96.lit false 1999 2)) (.num (D96.lit false 3 0))) (.num (D96.lit false 1 1))

example : Demo.invoice.places (fun n => (n.int, n.s)) = some (5987, 2) := by decide +kernel

example : WrittenLiterals toStr Demo.invoice := by
  have key : Demo.invoice.tokens.all (fun t => match t with | .number n => !n.neg | _ => true) = true := by decide +kernel
  intro n hn
  have hneg : n.neg = false := by simpa using List.all_eq_true.1 key _ hn
  refine ⟨hneg, ?_⟩
  have := digitsOf_written n.c n.s
  unfold toStr
  rwa [if_neg (by simp [hneg])]

/-- `0.1 + 0.2` is `0.3`, `1.10` stays `1.10`, and the difference of equal numbers keeps their places. -/
example : (add (D96.lit false 1 1) (D96.lit false 2 1)).map toStr = some (str "0.3") ∧
    (fromStr Demo.decimals (str "1.10")).map toStr = some (str "1.10") ∧ (sub (D96.lit false 100 2) (D96.lit false 1 0)).map toStr = some (str "0.00") ∧
    (div (D96.lit false 1 0) (D96.lit false 3 0)).map toStr = some (str "0.3333333333333333333333333333") := by decide +kernel

end Prexel
