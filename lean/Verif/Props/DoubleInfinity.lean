import Verif.Props.DoubleExtrema
import Mathlib.Data.EReal.Operations
/-!
# Infinity and NaN as operands (C170)
-/

namespace Prexel
open B64

/-- Only + - * / mod and signs. -/
def Arith.Plain {N : Type} : Arith N → Prop
  | .num _ => True
  | .neg e => e.Plain
  | .fact _ => False
  | .bin o l r => o ≠ .pow ∧ l.Plain ∧ r.Plain

/-- Nothing is divided. -/
def Arith.Undivided {N : Type} : Arith N → Prop
  | .num _ => True
  | .neg e => e.Undivided
  | .fact e => e.Undivided
  | .bin o l r => o ≠ .div ∧ o ≠ .mod ∧ l.Undivided ∧ r.Undivided

/-- The number occurs in the expression. -/
def Arith.Contains {N : Type} (n : N) : Arith N → Prop
  | .num m => m = n
  | .neg e => e.Contains n
  | .fact e => e.Contains n
  | .bin _ l r => l.Contains n ∨ r.Contains n

section
variable {K : Keys} {debug docs : Bool} {lib : Libm} {draw : B64} {ctx : Ctx B64}

theorem nan_op (o : ArOp) (ho : o ≠ .pow) (x y : B64) (h : x = .nan ∨ y = .nan) :
    (doubleArithmetic lib draw).op o x y = .ok .nan ∨ (o = .div ∨ o = .mod) ∧ (doubleArithmetic lib draw).op o x y = .err .divisionByZero := by
  rcases o with - | - | - | - | - | -
  · left
    rcases h with rfl | rfl
    · rfl
    · cases x <;> rfl
  · left
    rcases h with rfl | rfl
    · cases y <;> rfl
    · cases x <;> rfl
  · left
    rcases h with rfl | rfl
    · rfl
    · cases x <;> rfl
  · show (if y.isZero = true then _ else _) = _ ∨ _ ∧ (if y.isZero = true then _ else _) = _
    by_cases hy : y.isZero = true
    · right; simp [hy]
    · left
      rw [if_neg hy]
      rcases h with rfl | rfl
      · cases y <;> rfl
      · cases x <;> rfl
  · show (if y.isZero = true then _ else _) = _ ∨ _ ∧ (if y.isZero = true then _ else _) = _
    by_cases hy : y.isZero = true
    · right; simp [hy]
    · left
      rw [if_neg hy]
      rcases h with rfl | rfl
      · cases y <;> rfl
      · cases x <;> rfl
  · exact absurd rfl ho

theorem plain_value (e : Arith B64) (hp : e.Plain) :
    (∃ y, e.value (doubleArithmetic lib draw) = .ok y) ∨ ¬ e.Undivided ∧ e.value (doubleArithmetic lib draw) = .err .divisionByZero := by
  induction e with
  | num n => exact .inl ⟨n, rfl⟩
  | neg e ih =>
    rcases ih hp with ⟨y, hy⟩ | ⟨h1, h2⟩
    · exact .inl ⟨B64.neg y, by rw [Arith.value, hy]; rfl⟩
    · exact .inr ⟨h1, by rw [Arith.value, h2]; rfl⟩
  | fact e => exact hp.elim
  | bin o l r ihl ihr =>
    obtain ⟨ho, hl, hr⟩ := hp
    rcases ihl hl with ⟨x, hx⟩ | ⟨h1, h2⟩
    · rcases ihr hr with ⟨y, hy⟩ | ⟨h1, h2⟩
      · have e1 : (Arith.bin o l r).value (doubleArithmetic lib draw) = (doubleArithmetic lib draw).op o x y := by
          rw [Arith.value, hx, hy]; rfl
        rw [e1]
        rcases o with - | - | - | - | - | -
        · exact .inl ⟨_, rfl⟩
        · exact .inl ⟨_, rfl⟩
        · exact .inl ⟨_, rfl⟩
        · show (∃ z, (if y.isZero = true then _ else _) = _) ∨ _ ∧ (if y.isZero = true then _ else _) = _
          by_cases hz : y.isZero = true
          · right; simp [hz, Arith.Undivided]
          · left; exact ⟨_, if_neg hz⟩
        · show (∃ z, (if y.isZero = true then _ else _) = _) ∨ _ ∧ (if y.isZero = true then _ else _) = _
          by_cases hz : y.isZero = true
          · right; simp [hz, Arith.Undivided]
          · left; exact ⟨_, if_neg hz⟩
        · exact absurd rfl ho
      · refine .inr ⟨fun h => h1 h.2.2.2, ?_⟩
        rw [Arith.value, hx, h2]; rfl
    · refine .inr ⟨fun h => h1 h.2.2.1, ?_⟩
      rw [Arith.value, h2]; rfl

theorem nan_value (e : Arith B64) (hp : e.Plain) (hc : e.Contains .nan) :
    e.value (doubleArithmetic lib draw) = .ok .nan ∨ ¬ e.Undivided ∧ e.value (doubleArithmetic lib draw) = .err .divisionByZero := by
  induction e with
  | num n => left; rw [show n = B64.nan from hc]; rfl
  | neg e ih =>
    rcases ih hp hc with h | ⟨h1, h2⟩
    · left; rw [Arith.value, h]; rfl
    · right; exact ⟨h1, by rw [Arith.value, h2]; rfl⟩
  | fact e => exact hp.elim
  | bin o l r ihl ihr =>
    rcases plain_value (lib := lib) (draw := draw) _ hp with ⟨z, hz⟩ | h
    · left
      obtain ⟨ho, hl, hr⟩ := hp
      rcases plain_value (lib := lib) (draw := draw) _ hl with ⟨x, hx⟩ | ⟨-, h⟩
      · rcases plain_value (lib := lib) (draw := draw) _ hr with ⟨y, hy⟩ | ⟨-, h⟩
        · have hn : x = .nan ∨ y = .nan := by
            rcases hc with hc | hc
            · rcases ihl hl hc with h | ⟨-, h⟩
              · left; rw [hx] at h; exact Res.ok.inj h
              · rw [hx] at h; cases h
            · rcases ihr hr hc with h | ⟨-, h⟩
              · right; rw [hy] at h; exact Res.ok.inj h
              · rw [hy] at h; cases h
          have e1 : (Arith.bin o l r).value (doubleArithmetic lib draw) = (doubleArithmetic lib draw).op o x y := by
            rw [Arith.value, hx, hy]; rfl
          rw [e1] at hz ⊢
          rcases nan_op (lib := lib) (draw := draw) o ho x y hn with h | ⟨-, h⟩
          · exact h
          · rw [hz] at h; cases h
        · rw [Arith.value, hx, h] at hz; cases hz
      · rw [Arith.value, h] at hz; cases hz
    · exact .inr h

/-- C170, NaN: an expression of + - * / mod and signs in which NaN occurs is NaN, or refused because it divides by zero. -/
theorem C170_nan (h : BuiltIn K debug docs (f64 lib draw) ((f64 lib draw).num B64.num) ctx) (e : Arith B64) (hp : e.Plain) (hc : e.Contains .nan) :
    evalTokens ctx e.tokens = .ok .nan ∨ ¬ e.Undivided ∧ evalTokens ctx e.tokens = .err .divisionByZero := by
  rw [double_tree h e]
  exact nan_value e hp hc

/-- C170, infinity as an operand of + - *: as in the extended real numbers, where these give a value. -/
theorem C170_infinity (h : BuiltIn K debug docs (f64 lib draw) ((f64 lib draw).num B64.num) ctx) (x y : B64) (hx : x ≠ .nan) (hy : y ≠ .nan)
    (hi : ¬ x.isFin ∨ ¬ y.isFin) :
    let result := fun o => evalTokens ctx (infixTokens x (str o) y)
    (x.place ≠ -y.place → ∃ r, result "+" = .ok r ∧ r ≠ .nan ∧ r.place = x.place + y.place) ∧ (x.place = -y.place → result "+" = .ok .nan) ∧
    (x.place ≠ y.place → ∃ r, result "-" = .ok r ∧ r ≠ .nan ∧ r.place = x.place - y.place) ∧ (x.place = y.place → result "-" = .ok .nan) ∧
    (x.place ≠ 0 ∧ y.place ≠ 0 → ∃ r, result "*" = .ok r ∧ r ≠ .nan ∧ r.place = x.place * y.place) ∧
    (x.place = 0 ∨ y.place = 0 → result "*" = .ok .nan) := by
  intro result
  have hb : ∀ o : ArOp, evalTokens ctx (infixTokens x o.symbol y) = (doubleArithmetic lib draw).op o x y := by
    intro o
    have := double_tree h (.bin o (.num x) (.num y))
    cases o <;> exact this
  have r1 : result "+" = .ok (B64.add x y) := hb .add
  have r2 : result "-" = .ok (B64.sub x y) := hb .sub
  have r3 : result "*" = .ok (B64.mul x y) := hb .mul
  rw [r1, r2, r3]
  have fin : ∀ a k hk, (B64.fin a k hk).place = (((B64.fin a k hk).val : ℝ) : EReal) := fun a k hk => rfl
  have top : (B64.inf false).place = ⊤ := rfl
  have bot : (B64.inf true).place = ⊥ := rfl
  have zero : ∀ {a : Bool} {k : ℕ} {hk : Fits k}, (B64.fin a k hk).place = 0 ↔ k = 0 := by
    intro a k hk
    rw [fin, ← EReal.coe_zero, EReal.coe_eq_coe_iff, ← Rat.cast_zero, Rat.cast_inj, val_zero_iff]
  have sign : ∀ {a : Bool} {k : ℕ} {hk : Fits k}, k ≠ 0 → if a then (B64.fin a k hk).val < 0 else 0 < (B64.fin a k hk).val := by
    intro a k hk h0
    have hk : (0 : ℚ) < k := by exact_mod_cast Nat.pos_of_ne_zero h0
    have hp : (0 : ℚ) < (perOne : ℚ) := by unfold perOne; positivity
    cases a
    · simp only [val, Bool.false_eq_true, if_false]
      positivity
    · simp only [val, if_true]
      rw [neg_div]
      have : (0 : ℚ) < k / perOne := by positivity
      linarith
  rcases x with - | a | ⟨a, k, hk⟩
  · exact absurd rfl hx
  · rcases y with - | b | ⟨b, j, hj⟩
    · exact absurd rfl hy
    · cases a <;> cases b <;> simp [top, bot, B64.add, B64.sub, B64.mul, B64.neg]
    · cases a
      · rw [top]
        simp only [B64.add, B64.sub, B64.neg, B64.mul]
        refine ⟨fun _ => ⟨_, rfl, by simp, ?_⟩, fun h => absurd h ?_, fun _ => ⟨_, rfl, by simp, ?_⟩, fun h => absurd h ?_, fun h => ?_, fun h => ?_⟩
        · rw [fin, top, EReal.top_add_coe]
        · rw [fin, ← EReal.coe_neg]; exact (EReal.coe_ne_top _).symm
        · rw [fin, top, EReal.top_sub_coe]
        · rw [fin]; exact (EReal.coe_ne_top _).symm
        · have h0 : j ≠ 0 := fun h0 => h.2 (zero.mpr h0)
          have s := sign (a := b) (hk := hj) h0
          rw [if_neg h0]
          refine ⟨_, rfl, by simp, ?_⟩
          cases b
          · rw [fin, EReal.top_mul_coe_of_pos (by exact_mod_cast s)]; rfl
          · rw [fin, EReal.top_mul_coe_of_neg (by exact_mod_cast s)]; rfl
        · rcases h with h | h
          · exact absurd h EReal.top_ne_zero
          · rw [if_pos (zero.mp h)]
      · rw [bot]
        simp only [B64.add, B64.sub, B64.neg, B64.mul]
        refine ⟨fun _ => ⟨_, rfl, by simp, ?_⟩, fun h => absurd h ?_, fun _ => ⟨_, rfl, by simp, ?_⟩, fun h => absurd h ?_, fun h => ?_, fun h => ?_⟩
        · rw [fin, bot, EReal.bot_add]
        · rw [fin, ← EReal.coe_neg]; exact (EReal.coe_ne_bot _).symm
        · rw [fin, bot, EReal.bot_sub]
        · rw [fin]; exact (EReal.coe_ne_bot _).symm
        · have h0 : j ≠ 0 := fun h0 => h.2 (zero.mpr h0)
          have s := sign (a := b) (hk := hj) h0
          rw [if_neg h0]
          refine ⟨_, rfl, by simp, ?_⟩
          cases b
          · rw [fin, EReal.bot_mul_coe_of_pos (by exact_mod_cast s)]; rfl
          · rw [fin, EReal.bot_mul_coe_of_neg (by exact_mod_cast s)]; rfl
        · rcases h with h | h
          · exact absurd h EReal.bot_ne_zero
          · rw [if_pos (zero.mp h)]
  · rcases y with - | b | ⟨b, j, hj⟩
    · exact absurd rfl hy
    · cases b
      · rw [top]
        simp only [B64.add, B64.sub, B64.neg, B64.mul, EReal.neg_top]
        refine ⟨fun _ => ⟨_, rfl, by simp, ?_⟩, fun h => absurd h ?_, fun _ => ⟨_, rfl, by simp, ?_⟩, fun h => absurd h ?_, fun h => ?_, fun h => ?_⟩
        · rw [fin, top, EReal.coe_add_top]
        · rw [fin]; exact EReal.coe_ne_bot _
        · rw [fin, sub_eq_add_neg, EReal.neg_top, EReal.add_bot]; rfl
        · rw [fin]; exact EReal.coe_ne_top _
        · have h0 : k ≠ 0 := fun h0 => h.1 (zero.mpr h0)
          have s := sign (a := a) (hk := hk) h0
          rw [if_neg h0]
          refine ⟨_, rfl, by simp, ?_⟩
          cases a
          · rw [fin, EReal.coe_mul_top_of_pos (by exact_mod_cast s)]; rfl
          · rw [fin, EReal.coe_mul_top_of_neg (by exact_mod_cast s)]; rfl
        · rcases h with h | h
          · rw [if_pos (zero.mp h)]
          · exact absurd h EReal.top_ne_zero
      · rw [bot]
        simp only [B64.add, B64.sub, B64.neg, B64.mul, EReal.neg_bot]
        refine ⟨fun _ => ⟨_, rfl, by simp, ?_⟩, fun h => absurd h ?_, fun _ => ⟨_, rfl, by simp, ?_⟩, fun h => absurd h ?_, fun h => ?_, fun h => ?_⟩
        · rw [fin, bot, EReal.add_bot]
        · rw [fin]; exact EReal.coe_ne_top _
        · rw [fin, sub_eq_add_neg, EReal.neg_bot, EReal.coe_add_top]; rfl
        · rw [fin]; exact EReal.coe_ne_bot _
        · have h0 : k ≠ 0 := fun h0 => h.1 (zero.mpr h0)
          have s := sign (a := a) (hk := hk) h0
          rw [if_neg h0]
          refine ⟨_, rfl, by simp, ?_⟩
          cases a
          · rw [fin, EReal.coe_mul_bot_of_pos (by exact_mod_cast s)]; rfl
          · rw [fin, EReal.coe_mul_bot_of_neg (by exact_mod_cast s)]; rfl
        · rcases h with h | h
          · rw [if_pos (zero.mp h)]
          · exact absurd h EReal.bot_ne_zero
    · exact absurd hi (by rintro (h | h) <;> exact h ⟨rfl, rfl⟩)

/-- C170, infinity in divisions: a finite number by infinity is zero and stays what it is after mod; infinity by a number is infinity with the
sign of the quotient, and NaN after mod; infinity by infinity is NaN. Only zero is refused. -/
theorem C170_division (h : BuiltIn K debug docs (f64 lib draw) ((f64 lib draw).num B64.num) ctx) (x : B64) (hx : x.isFin) (a b : Bool) :
    let result := fun x o y => evalTokens ctx (infixTokens x (str o) y)
    (∃ r, result x "/" (.inf a) = .ok r ∧ r.isFin ∧ r.val = 0) ∧ result x "mod" (.inf a) = .ok x ∧
    (x.val ≠ 0 → result (.inf a) "/" x = .ok (.inf (a ^^ decide (x.val < 0))) ∧ result (.inf a) "mod" x = .ok .nan) ∧
    (x.val = 0 → result (.inf a) "/" x = .err .divisionByZero ∧ result (.inf a) "mod" x = .err .divisionByZero) ∧
    result (.inf a) "/" (.inf b) = .ok .nan ∧ result (.inf a) "mod" (.inf b) = .ok .nan := by
  intro result
  have hb : ∀ (o : ArOp) (x y : B64), evalTokens ctx (infixTokens x o.symbol y) = (doubleArithmetic lib draw).op o x y := by
    intro o x y
    have := double_tree h (.bin o (.num x) (.num y))
    cases o <;> exact this
  have hz : x.isZero = true ↔ x.val = 0 := isZero_iff hx
  have fin0 := hx
  obtain ⟨s, k, hk, rfl⟩ := isFin_fin hx
  refine ⟨⟨B64.zero (s ^^ a), hb .div _ _, ⟨rfl, rfl⟩, (val_zero_iff _ _ _).mpr rfl⟩, hb .mod _ _, fun h0 => ⟨?_, ?_⟩, fun h0 => ⟨?_, ?_⟩, hb .div _ _, hb .mod _ _⟩
  · refine (hb .div _ _).trans ?_
    show (if _ then _ else _) = _
    rw [if_neg (by rw [hz]; exact h0)]
    have hk0 : k ≠ 0 := fun h => h0 ((val_zero_iff _ _ _).mpr h)
    have hkq : (0 : ℚ) < k := by exact_mod_cast Nat.pos_of_ne_zero hk0
    have hp : (0 : ℚ) < (perOne : ℚ) := by unfold perOne; positivity
    have : s = decide ((B64.fin s k hk).val < 0) := by
      have hpos : (0 : ℚ) < k / perOne := by positivity
      cases s
      · symm
        rw [decide_eq_false_iff_not, not_lt]
        simp only [val, Bool.false_eq_true, if_false]
        exact hpos.le
      · symm
        rw [decide_eq_true_iff]
        simp only [val, if_true]
        rw [neg_div]
        linarith
    rw [← this]
    rfl
  · refine (hb .mod _ _).trans ?_
    show (if _ then _ else _) = _
    rw [if_neg (by rw [hz]; exact h0)]
    rfl
  · refine (hb .div _ _).trans ?_
    show (if _ then _ else _) = _
    rw [if_pos (hz.mpr h0)]
  · refine (hb .mod _ _).trans ?_
    show (if _ then _ else _) = _
    rw [if_pos (hz.mpr h0)]

/-- The hypotheses are met: `(1 + NaN) / 2` is plain and contains NaN; infinity and 3 are no NaN, and infinity is not finite. -/
example : (Arith.bin .div (.bin .add (.num (lit 1)) (.num .nan)) (.num (lit 2))).Plain ∧
    (Arith.bin .div (.bin .add (.num (lit 1)) (.num .nan)) (.num (lit 2))).Contains .nan ∧ B64.inf true ≠ .nan ∧ ¬ (B64.inf true).isFin ∧ (lit 3).isFin :=
  ⟨⟨by decide, ⟨by decide, trivial, trivial⟩, trivial⟩, .inl (.inr rfl), by simp, fun h => absurd h.2 (by simp [isInf]), ⟨by decide +kernel, by decide +kernel⟩⟩

end

end Prexel
