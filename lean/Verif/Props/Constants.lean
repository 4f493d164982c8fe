import Verif.Model.Constants
import Verif.Lemmas.ConstantDigits
import Verif.Props.DecimalTexts
import Verif.Props.Literals
/-!
# The constants (C154)
-/

set_option linter.unusedVariables false

namespace Prexel
open D96 B64

/-- The numbers that the constants stand for, by their documentation. -/
noncomputable def constantMeanings : List (String × ℝ) :=
  [("E", Real.exp 1),
   ("E_INV", 1 / Real.exp 1),
   ("E_POW_2", Real.exp 1 ^ 2),
   ("PI", Real.pi),
   ("PI_2", 2 * Real.pi),
   ("PI_MINUS", -Real.pi),
   ("PI_2_MINUS", -(2 * Real.pi)),
   ("PI_FRACT_2", Real.pi / 2),
   ("PI_FRACT_3", Real.pi / 3),
   ("PI_FRACT_4", Real.pi / 4),
   ("PI_FRACT_6", Real.pi / 6),
   ("PI_FRACT_8", Real.pi / 8),
   ("PI_3_FRACT_2", 3 * Real.pi / 2),
   ("LN_2", Real.log 2),
   ("LN_10", Real.log 10),
   ("LN_10_INV", 1 / Real.log 10),
   ("SQRT_2", Real.sqrt 2),
   ("HALF", 0.5),
   ("ONE_FRACT_3", 1 / 3),
   ("ONE_MINUS", -1),
   ("ZERO", 0),
   ("ONE", 1),
   ("TWO", 2),
   ("THREE", 3),
   ("TEN", 10)]

theorem lit_val {neg : Bool} {m s : ℕ} (h : m < 2 ^ 96 ∧ s ≤ 28) : (D96.lit neg m s).val = (if neg then -(m : ℤ) else (m : ℤ) : ℤ) / 10 ^ s := by
  simp only [D96.lit, D96.mk', dif_pos h, D96.val, D96.int]

/-- The four that are not the nearest decimals. -/
def notNearest : List String := ["E_POW_2", "PI_FRACT_3", "PI_3_FRACT_2", "LN_10"]

/-- What is claimed of one constant. -/
def LastPlace (c : String × D96) (m : String × ℝ) : Prop :=
  c.1 = m.1 ∧ |(c.2.val : ℝ) - m.2| < 1 / 10 ^ 28 ∧ (|(c.2.val : ℝ) - m.2| ≤ 1 / 10 ^ 28 / 2 ↔ c.1 ∉ notNearest)

theorem last_near {n : String} {c : D96} {r v : ℝ} (hv : (c.val : ℝ) = v) (hn : n ∉ notNearest) (h1 : v - 1 / 10 ^ 28 / 2 ≤ r) (h2 : r ≤ v + 1 / 10 ^ 28 / 2) :
    LastPlace (n, c) (n, r) := by
  have h : |(c.val : ℝ) - r| ≤ 1 / 10 ^ 28 / 2 := by rw [hv, abs_le]; constructor <;> linarith
  exact ⟨rfl, h.trans_lt (by norm_num), iff_of_true h hn⟩

theorem last_far {n : String} {c : D96} {r v : ℝ} (hv : (c.val : ℝ) = v) (hn : n ∈ notNearest)
    (h : (v - 1 / 10 ^ 28 < r ∧ r < v - 1 / 10 ^ 28 / 2) ∨ (v + 1 / 10 ^ 28 / 2 < r ∧ r < v + 1 / 10 ^ 28)) : LastPlace (n, c) (n, r) := by
  refine ⟨rfl, ?_, iff_of_false ?_ (not_not.2 hn)⟩
  · rw [hv, abs_lt]; rcases h with h | h <;> constructor <;> linarith [h.1, h.2]
  · rw [hv, not_le, lt_abs]; rcases h with h | h
    · left; linarith [h.2]
    · right; linarith [h.1]

/-- C154. Every published constant of decimals is less than one unit of the 28th decimal place away from the number that its documentation names,
and all but four of them are at most half a unit away, so that no decimal with 28 places is closer. -/
theorem C154_constants : List.Forall₂ LastPlace D96.constants constantMeanings := by
  have hp := abs_le.1 pi_digits
  have he := abs_le.1 e_digits
  have h10 := abs_le.1 log_digits.1
  have h2 := abs_le.1 log_digits.2
  unfold D96.constants constantMeanings
  generalize Real.pi = π at hp ⊢
  generalize Real.exp 1 = e at he ⊢
  generalize Real.log 10 = l at h10 ⊢
  generalize Real.log 2 = l2 at h2 ⊢
  obtain ⟨p1, p2⟩ := hp
  obtain ⟨e1, e2⟩ := he
  obtain ⟨l1, l3⟩ := h10
  obtain ⟨t1, t2⟩ := h2
  norm_num at p1 p2 e1 e2 l1 l3 t1 t2
  have e0 : 0 < e := by linarith
  have l0 : 0 < l := by linarith
  have q1 : (27182818284590452353602874713525 / 10 ^ 31) ^ 2 ≤ e ^ 2 := pow_le_pow_left₀ (by norm_num) (by norm_num; linarith) 2
  have q2 : e ^ 2 ≤ (27182818284590452353602874713527 / 10 ^ 31) ^ 2 := pow_le_pow_left₀ e0.le (by norm_num; linarith) 2
  norm_num at q1 q2
  have hv : ∀ {neg : Bool} {m s : ℕ}, m < 2 ^ 96 ∧ s ≤ 28 → ((D96.lit neg m s).val : ℝ) = ((if neg then -(m : ℤ) else (m : ℤ) : ℤ) : ℝ) / 10 ^ s := by
    intro neg m s h
    rw [lit_val h]
    push_cast
    cases neg <;> norm_num
  refine .cons (last_near (hv (by decide)) (by decide) ?_ ?_) <|
    .cons (last_near (hv (by decide)) (by decide) ?_ ?_) <|
    .cons (last_far (hv (by decide)) (by decide) (.inr ⟨?_, ?_⟩)) <|
    .cons (last_near (hv (by decide)) (by decide) ?_ ?_) <|
    .cons (last_near (hv (by decide)) (by decide) ?_ ?_) <|
    .cons (last_near (hv (by decide)) (by decide) ?_ ?_) <|
    .cons (last_near (hv (by decide)) (by decide) ?_ ?_) <|
    .cons (last_near (hv (by decide)) (by decide) ?_ ?_) <|
    .cons (last_far (hv (by decide)) (by decide) (.inr ⟨?_, ?_⟩)) <|
    .cons (last_near (hv (by decide)) (by decide) ?_ ?_) <|
    .cons (last_near (hv (by decide)) (by decide) ?_ ?_) <|
    .cons (last_near (hv (by decide)) (by decide) ?_ ?_) <|
    .cons (last_far (hv (by decide)) (by decide) (.inl ⟨?_, ?_⟩)) <|
    .cons (last_near (hv (by decide)) (by decide) ?_ ?_) <|
    .cons (last_far (hv (by decide)) (by decide) (.inr ⟨?_, ?_⟩)) <|
    .cons (last_near (hv (by decide)) (by decide) ?_ ?_) <|
    .cons (last_near (hv (by decide)) (by decide) ?_ ?_) <|
    .cons (last_near (hv (by decide)) (by decide) ?_ ?_) <|
    .cons (last_near (hv (by decide)) (by decide) ?_ ?_) <|
    .cons (last_near (hv (by decide)) (by decide) ?_ ?_) <|
    .cons (last_near (hv (by decide)) (by decide) ?_ ?_) <|
    .cons (last_near (hv (by decide)) (by decide) ?_ ?_) <|
    .cons (last_near (hv (by decide)) (by decide) ?_ ?_) <|
    .cons (last_near (hv (by decide)) (by decide) ?_ ?_) <|
    .cons (last_near (hv (by decide)) (by decide) ?_ ?_) .nil
  all_goals
    first
      | (norm_num; done)
      | (norm_num; linarith)
      | (rw [le_div_iff₀ (by assumption)]; norm_num; linarith)
      | (rw [div_le_iff₀ (by assumption)]; norm_num; linarith)
      | (refine Real.le_sqrt_of_sq_le ?_; norm_num)
      | (refine Real.sqrt_le_iff.2 ⟨?_, ?_⟩ <;> norm_num)

/-- Not vacuous: there are 25 constants. -/
example : D96.constants.length = 25 ∧ constantMeanings.length = 25 := ⟨rfl, rfl⟩

/-! ## As text -/

theorem eval_constant {N : Type} (parse : Str → Option N) {rules : List Rule} (hr : PlainRules rules) (ctx : Ctx N) {s : Str} (h : Identifier s)
    (hp : parse s = none) (hv : ctx.getVariable s = none) {v : N} (hc : ctx.getConstant s = some v) : eval parse (split rules) ctx s = .ok v := by
  have hsplit := split_identifier hr h
  have hatom := C01_eval_eq_denote ctx (.atom (.const s)) (by simp [Expr.WF])
  obtain ⟨c, r, rfl, hl, hall⟩ := h
  have hw : isWhitespace c = false := by
    rw [Bool.eq_false_iff]
    intro hw
    have := isLetter_iff.2 hl
    rw [ws_not_letter hw] at this
    cases this
  have hb : (c :: r).all isWhitespace = false := notBlank_of hw
  have hvar : ctx.isVariable (c :: r) = false := by simp [Ctx.isVariable, hv]
  have hcon : ctx.isConstant (c :: r) = true := by simp [Ctx.isConstant, hc]
  simp only [eval, tokenize, hb, Bool.false_eq_true, if_false, hsplit, tokenizeLoop, hp, hvar, hcon, if_true, Res.bind_ok]
  simpa [Expr.render, Expr.denote, Atom.token, Atom.denote, Res.ofOption, hc] using hatom

/-- The spellings of the two constants of the built-in contexts. -/
def piSpellings : List Str := ["PI", "Pi", "pI", "pi"].map str
/-- See `piSpellings`. -/
def eSpellings : List Str := ["E", "e"].map str

theorem spellings_identifier : ∀ s ∈ piSpellings ++ eSpellings, Identifier s := by
  have key : ∀ s ∈ piSpellings ++ eSpellings, s ≠ [] ∧ ∀ c ∈ s, isLetter c = true := by decide
  intro s hs
  obtain ⟨h1, h2⟩ := key s hs
  cases s with
  | nil => exact absurd rfl h1
  | cons c r => exact ⟨c, r, rfl, isLetter_iff.1 (h2 c (by simp)), fun x hx => .inl (isLetter_iff.1 (h2 x (by simp [hx])))⟩

theorem provides_spellings {N : Type} {v : Ctx N} {config : Config} {pi e : N} {b : List (Named (BinFn N))} {u : List (Named (UnFn N))} {f : List (Named (Fn N))}
    (hp : Provides v config [(str "PI", pi), (str "E", e)] b u f) :
    (∀ s ∈ piSpellings, v.getConstant s = some pi) ∧ ∀ s ∈ eSpellings, v.getConstant s = some e := by
  refine ⟨fun s hs => hp.constants.1 (str "PI", pi) (by simp) s ?_, fun s hs => hp.constants.1 (str "E", e) (by simp) s ?_⟩
  · show CaseVariant (str "PI") s
    revert s; decide
  · show CaseVariant (str "E") s
    revert s; decide

/-- C154. In the context of decimals the texts `PI` and `E`, in any case, are the decimals with 28 places nearest to pi and e. -/
theorem C154_decimal_text {F : Type} {lib : Lib F} (K : Keys) (debug : Bool) (f : F64 F) (config : Config) {c : Context D96}
    (hc : (dec lib).context K debug f config = .ok c) {rules : List Rule} (hr : rules = defaultRules ∨ rules = replRules false) :
    (∀ s ∈ piSpellings, ∃ x, eval (D96.fromStr lib) (split rules) (c.view K) s = .ok x ∧ |(x.val : ℝ) - Real.pi| ≤ 1 / 10 ^ 28 / 2) ∧
    (∀ s ∈ eSpellings, ∃ x, eval (D96.fromStr lib) (split rules) (c.view K) s = .ok x ∧ |(x.val : ℝ) - Real.exp 1| ≤ 1 / 10 ^ 28 / 2) := by
  obtain ⟨c', hc', hp, -⟩ := C31_decimal K debug (dec lib) f config
  rw [hc] at hc'; cases hc'
  obtain ⟨g1, g2⟩ := provides_spellings hp
  have none_ : ∀ s ∈ piSpellings ++ eSpellings, D96.fromStr lib s = none := by
    intro s hs
    refine fromStr_none lib (.inr ?_)
    revert s
    decide
  have hC := C154_constants
  unfold D96.constants constantMeanings at hC
  simp only [List.forall₂_cons] at hC
  refine ⟨fun s hs => ⟨_, eval_constant _ (plain_of hr) _ (spellings_identifier s (by simp [hs])) (none_ s (by simp [hs])) (hp.variables s) (g1 s hs), ?_⟩,
    fun s hs => ⟨_, eval_constant _ (plain_of hr) _ (spellings_identifier s (by simp [hs])) (none_ s (by simp [hs])) (hp.variables s) (g2 s hs), ?_⟩⟩
  · exact hC.2.2.2.1.2.2.2 (by decide)
  · exact hC.1.2.2.2 (by decide)

/-- C154. In the contexts of floats they are the doubles nearest to pi and e: they are less than half the distance `2 ^ -51` of the doubles between
2 and 4 away. -/
theorem C154_float_text (K : Keys) (debug docs : Bool) (lib : Libm) (draw : B64) (config : Config) {c : Context B64}
    (hc : Context.checked K debug docs (f64 lib draw) ((f64 lib draw).num B64.num) config = .ok c ∨
      Context.unchecked K debug (f64 lib draw) ((f64 lib draw).num B64.num) config = .ok c)
    {rules : List Rule} (hr : rules = defaultRules ∨ rules = replRules false) :
    (∀ s ∈ piSpellings, ∃ x, eval B64.fromStr (split rules) (c.view K) s = .ok x ∧ |(x.val : ℝ) - Real.pi| < 1 / 2 ^ 52) ∧
    (∀ s ∈ eSpellings, ∃ x, eval B64.fromStr (split rules) (c.view K) s = .ok x ∧ |(x.val : ℝ) - Real.exp 1| < 1 / 2 ^ 52) := by
  have hp : ∃ b u f, Provides (c.view K) config [(str "PI", B64.pi), (str "E", B64.e)] b u f := by
    rcases hc with hc | hc
    · obtain ⟨c', hc', hp⟩ := C31_checked K debug docs (f64 lib draw) ((f64 lib draw).num B64.num) config B64.pi B64.e rfl rfl
      rw [hc] at hc'; cases hc'
      exact ⟨_, _, _, hp⟩
    · obtain ⟨c', hc', hp⟩ := C31_unchecked K debug (f64 lib draw) ((f64 lib draw).num B64.num) config B64.pi B64.e rfl rfl
      rw [hc] at hc'; cases hc'
      exact ⟨_, _, _, hp⟩
  obtain ⟨b, u, f, hp⟩ := hp
  obtain ⟨g1, g2⟩ := provides_spellings hp
  have none_ : ∀ s ∈ piSpellings ++ eSpellings, B64.fromStr s = none := fun s hs =>
    (fromStr_identifier (spellings_identifier s hs)).2 (by revert s; decide)
  have hpi : B64.pi.val = 884279719003555 / 281474976710656 := by decide +kernel
  have hee : B64.e.val = 6121026514868073 / 2251799813685248 := by decide +kernel
  refine ⟨fun s hs => ⟨_, eval_constant _ (plain_of hr) _ (spellings_identifier s (by simp [hs])) (none_ s (by simp [hs])) (hp.variables s) (g1 s hs), ?_⟩,
    fun s hs => ⟨_, eval_constant _ (plain_of hr) _ (spellings_identifier s (by simp [hs])) (none_ s (by simp [hs])) (hp.variables s) (g2 s hs), ?_⟩⟩
  · have := abs_le.1 pi_digits
    rw [hpi, abs_lt]
    push_cast
    constructor <;> linarith [this.1, this.2]
  · have := abs_le.1 e_digits
    rw [hee, abs_lt]
    push_cast
    constructor <;> linarith [this.1, this.2]

end Prexel
