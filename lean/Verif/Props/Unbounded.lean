import Verif.Spec.Unbounded
import Verif.Model.BigDecimal
import Verif.Props.Floats
import Verif.Props.Arith
import Mathlib.Tactic.Linarith
import Mathlib.Tactic.Ring
import Mathlib.Tactic.NormNum
import Mathlib.Tactic.Positivity
import Mathlib.Tactic.FieldSimp
/-!
# Numbers of arbitrary precision (C157)
-/

namespace Prexel
variable {N F : Type}

/-- A result is exactly what was computed ideally. -/
def Res.Is (val : N → ℚ) : Res N → Res ℚ → Prop
  | .ok z, .ok q => val z = q
  | .err k, .err k' => k = k'
  | _, _ => False

theorem factorialLoop_exact {num : Num N F} {val : N → ℚ} (h : num.Unbounded val) : ∀ (n fuel : ℕ) (total next : N), val next = n → n ≤ fuel →
    ∃ z r, Ops.factorialLoop num fuel total next = .ok (z, r) ∧ val z = val total * n.factorial ∧ val r = 0
  | 0, fuel, total, next, hn, _ => by
    have hg : num.ge next num.one = false := by
      rw [Bool.eq_false_iff]; intro hc
      have := (h.ge _ _).mp hc
      rw [hn, h.one] at this; norm_num at this
    refine ⟨total, next, ?_, by simp, by simpa using hn⟩
    cases fuel <;> simp [Ops.factorialLoop, hg]
  | n + 1, 0, total, next, _, hf => by omega
  | n + 1, fuel + 1, total, next, hn, hf => by
    have hg : num.ge next num.one = true := by
      rw [h.ge, hn, h.one]; push_cast; linarith [Nat.cast_nonneg (α := ℚ) n]
    obtain ⟨t, h1, -, ht⟩ := h.mul total next
    obtain ⟨m, h2, -, hm⟩ := h.sub next num.one
    have hm : val m = n := by rw [hm, hn, h.one]; push_cast; ring
    obtain ⟨z, r, h3, hz, hr⟩ := factorialLoop_exact h n fuel t m hm (by omega)
    refine ⟨z, r, by simp [Ops.factorialLoop, hg, h1, h2, h3], ?_, hr⟩
    rw [hz, ht, hn, Nat.factorial_succ]; push_cast; ring

theorem factorial_exact (f : F64 F) {num : Num N F} {val : N → ℚ} (h : num.Unbounded val) (x : N) :
    (val x < 0 → (Ops.factorial f num).fn.call x = .err .negativeValue) ∧
    ∀ n : ℕ, val x = n → ∃ z, (Ops.factorial f num).fn.call x = .ok z ∧ val z = n.factorial := by
  constructor
  · intro hx
    have : num.lt x num.zero = true := by rw [h.lt, h.zero]; exact hx
    simp [Ops.factorial, this]
  · intro n hn
    have h0 : num.lt x num.zero = false := by
      rw [Bool.eq_false_iff, ne_eq, h.lt, h.zero, hn]; exact not_lt.mpr (Nat.cast_nonneg n)
    by_cases h01 : n ≤ 1
    · refine ⟨num.one, ?_, ?_⟩
      · have : (num.isZero x || num.isOne x) = true := by
          rw [Bool.or_eq_true, h.isZero, h.isOne, hn]
          rcases Nat.le_one_iff_eq_zero_or_eq_one.mp h01 with rfl | rfl <;> simp
        simp only [Ops.factorial, h0, this, Bool.false_eq_true, if_false, if_true]
      · rw [h.one, Nat.factorial_eq_one.mpr h01]; simp
    · obtain ⟨m, rfl⟩ : ∃ m, n = m + 1 := ⟨n - 1, by omega⟩
      have h2 : (num.isZero x || num.isOne x) = false := by
        rw [Bool.eq_false_iff, ne_eq, Bool.or_eq_true, h.isZero, h.isOne, hn]
        rintro (hc | hc) <;> norm_cast at hc <;> omega
      have h3 : num.lt x num.one = false := by
        rw [Bool.eq_false_iff, ne_eq, h.lt, h.one, hn]; push_cast; linarith [Nat.cast_nonneg (α := ℚ) m]
      obtain ⟨p, h4, -, hp⟩ := h.sub x num.one
      have hp : val p = m := by rw [hp, hn, h.one]; push_cast; ring
      have hfuel : m ≤ num.fuel x := by
        have := h.fuel x
        rw [hn] at this
        have : m + 1 ≤ num.fuel x := by exact_mod_cast this
        omega
      obtain ⟨z, r, h5, hz, hr⟩ := factorialLoop_exact h m (num.fuel x) x p hp hfuel
      refine ⟨z, ?_, ?_⟩
      · have : num.isZero r = true := (h.isZero r).mpr hr
        simp only [Ops.factorial, h0, h2, h3, h4, h5, this, Bool.false_eq_true, if_false, if_true, Res.bind_ok]
      · rw [hz, hn, Nat.factorial_succ]; push_cast; ring

theorem ideal_value (f : F64 F) {num : Num N F} {val : N → ℚ} (h : num.Unbounded val) {A : Arithmetic N}
    (hA : A = checkedArithmetic f num ∨ A = uncheckedArithmetic f num) : ∀ (e : Arith N) (r : Res ℚ), e.ideal val = some r → (e.value A).Is val r
  | .num n, r, he => by
    simp only [Arith.ideal, Option.some.injEq] at he
    subst he; rfl
  | .neg e, r, he => by
    simp only [Arith.ideal, Option.map_eq_some_iff] at he
    obtain ⟨q, hq, rfl⟩ := he
    have ih := ideal_value f h hA e q hq
    rw [Arith.value]
    cases hv : e.value A <;> cases q <;> simp only [hv, Res.Is] at ih ⊢ <;> try exact ih.elim
    · rename_i v q
      obtain ⟨z, h1, h2, h3⟩ := h.neg v
      have : A.neg v = .ok z := by rcases hA with rfl | rfl <;> simp [checkedArithmetic, uncheckedArithmetic, h1, h2, Res.ofOption]
      simp [this, Res.Is, h3, ih]
    · exact ih
  | .fact e, r, he => by
    simp only [Arith.ideal, Option.bind_eq_some_iff] at he
    obtain ⟨q, hq, he⟩ := he
    have ih := ideal_value f h hA e q hq
    rw [Arith.value]
    have hfact : A.fact = (Ops.factorial f num).fn.call := by rcases hA with rfl | rfl <;> rfl
    cases hv : e.value A <;> cases q <;> simp only [hv, Res.Is] at ih <;> try exact ih.elim
    · rename_i v q
      obtain ⟨hneg, hnat⟩ := factorial_exact f h v
      simp only at he
      split at he
      · cases he
        simp [hfact, hneg (by rw [ih]; assumption), Res.Is]
      · split at he
        · rename_i h1 h2
          cases he
          have : val v = (q.num.toNat : ℕ) := by
            rw [ih]
            have h3 : (q.num : ℚ) = q := Rat.coe_int_num_of_den_eq_one h2
            have h4 : 0 ≤ q.num := Rat.num_nonneg.mpr (not_lt.mp h1)
            rw [← h3]
            exact_mod_cast (Int.toNat_of_nonneg h4).symm
          obtain ⟨z, hz, hz'⟩ := hnat _ this
          simp [hfact, hz, Res.Is, hz']
        · cases he
    · cases he
      simpa [Res.Is] using ih
  | .bin o l r', r, he => by
    simp only [Arith.ideal, Option.bind_eq_some_iff] at he
    obtain ⟨a, ha, b, hb, he⟩ := he
    have il := ideal_value f h hA l a ha
    have ir := ideal_value f h hA r' b hb
    rw [Arith.value]
    have key : ∀ x y, match o with
        | .add => ∃ z, A.op o x y = .ok z ∧ val z = val x + val y
        | .sub => ∃ z, A.op o x y = .ok z ∧ val z = val x - val y
        | .mul => ∃ z, A.op o x y = .ok z ∧ val z = val x * val y
        | _ => True := by
      intro x y
      cases o <;> simp only
      · obtain ⟨z, h1, h2, h3⟩ := h.add x y
        exact ⟨z, by rcases hA with rfl | rfl <;> simp [checkedArithmetic, uncheckedArithmetic, h1, h2, Res.ofOption], h3⟩
      · obtain ⟨z, h1, h2, h3⟩ := h.sub x y
        exact ⟨z, by rcases hA with rfl | rfl <;> simp [checkedArithmetic, uncheckedArithmetic, h1, h2, Res.ofOption], h3⟩
      · obtain ⟨z, h1, h2, h3⟩ := h.mul x y
        exact ⟨z, by rcases hA with rfl | rfl <;> simp [checkedArithmetic, uncheckedArithmetic, h1, h2, Res.ofOption], h3⟩
    cases hl : l.value A <;> cases a <;> simp only [hl, Res.Is] at il <;> try exact il.elim
    · rename_i x qx
      cases hr : r'.value A <;> cases b <;> simp only [hr, Res.Is] at ir <;> try exact ir.elim
      · rename_i y qy
        have := key x y
        cases o <;> simp only [Option.some.injEq, reduceCtorEq] at he this
        all_goals
          subst he
          obtain ⟨z, h1, h2⟩ := this
          simp [h1, Res.Is, h2, il, ir]
      · cases o <;> simp only [Option.some.injEq, reduceCtorEq] at he
        all_goals subst he; simpa [Res.Is] using ir
    · cases o <;> simp only [Option.some.injEq, reduceCtorEq] at he
      all_goals subst he; simpa [Res.Is] using il

/-- C157. Over a number type that computes exactly and without bounds, in both contexts and whatever else is registered, every expression of sums,
differences, products, signs and factorials has its exact value, or the error `NegativeValue` where a factorial of a negative number is taken. -/
theorem C157_exact {K : Keys} {debug docs : Bool} {f : F64 F} {num : Num N F} {ctx : Ctx N} (hctx : BuiltIn K debug docs f num ctx) {val : N → ℚ}
    (h : num.Unbounded val) (e : Arith N) :
    (∀ q, e.ideal val = some (.ok q) → ∃ z, evalTokens ctx e.tokens = .ok z ∧ val z = q) ∧
    ∀ k, e.ideal val = some (.err k) → evalTokens ctx e.tokens = .err k := by
  have key : ∀ r, e.ideal val = some r → (evalTokens ctx e.tokens).Is val r := by
    intro r hr
    obtain ⟨config, c, os, hc | hc, rfl⟩ := hctx
    · rw [C32_checked K debug docs f num config c hc os e]; exact ideal_value f h (.inl rfl) e r hr
    · rw [C32_unchecked K debug f num config c hc os e]; exact ideal_value f h (.inr rfl) e r hr
  constructor <;> intro r hr <;> have := key _ hr <;> cases hv : evalTokens ctx e.tokens <;> simp [hv, Res.Is] at this
  · exact ⟨_, rfl, this⟩
  · rw [this]

theorem foldArgs_exact {val : N → ℚ} {g : N → N → Res N} {op : ℚ → ℚ → ℚ} (hg : ∀ x y, ∃ z, g x y = .ok z ∧ val z = op (val x) (val y)) :
    ∀ (xs : List N) (x : N), ∃ z, Ops.foldArgs g (some x) xs = .ok (some z) ∧ val z = (xs.map val).foldl op (val x)
  | [], x => ⟨x, rfl, rfl⟩
  | y :: xs, x => by
    obtain ⟨z, h1, h2⟩ := hg x y
    obtain ⟨w, h3, h4⟩ := foldArgs_exact hg xs z
    exact ⟨w, by simp [Ops.foldArgs, h1, h3], by simp [h4, h2]⟩

theorem foldl_add : ∀ (qs : List ℚ) (a : ℚ), qs.foldl (· + ·) a = a + qs.sum
  | [], a => by simp
  | q :: qs, a => by rw [List.foldl_cons, foldl_add qs, List.sum_cons]; ring

theorem foldl_mul : ∀ (qs : List ℚ) (a : ℚ), qs.foldl (· * ·) a = a * qs.prod
  | [], a => by simp
  | q :: qs, a => by rw [List.foldl_cons, foldl_mul qs, List.prod_cons]; ring

/-- C157 for `sum` and `product` of one argument or more. -/
theorem C157_aggregates {K : Keys} {debug docs : Bool} {f : F64 F} {num : Num N F} {ctx : Ctx N} (hctx : BuiltIn K debug docs f num ctx) {val : N → ℚ}
    (h : num.Unbounded val) (xs : List N) (hx : xs ≠ []) :
    (∃ z, evalTokens ctx (callTokens (str "sum") xs) = .ok z ∧ val z = (xs.map val).sum) ∧
    ∃ z, evalTokens ctx (callTokens (str "product") xs) = .ok z ∧ val z = (xs.map val).prod := by
  obtain ⟨x, xs, rfl⟩ := List.exists_cons_of_ne_nil hx
  have hs : ∀ {g : N → N → Res N}, (∀ x y, ∃ z, g x y = .ok z ∧ val z = val x + val y) →
      ∃ z, Ops.orArgumentCount (Ops.foldArgs g none (x :: xs)) = .ok z ∧ val z = ((x :: xs).map val).sum := by
    intro g hg
    obtain ⟨z, h1, h2⟩ := foldArgs_exact (op := (· + ·)) hg xs x
    refine ⟨z, by simp [Ops.foldArgs, h1, Ops.orArgumentCount, Res.ofOption], ?_⟩
    rw [h2, List.map_cons, List.sum_cons, foldl_add]
  have hp : ∀ {g : N → N → Res N}, (∀ x y, ∃ z, g x y = .ok z ∧ val z = val x * val y) →
      ∃ z, Ops.orArgumentCount (Ops.foldArgs g none (x :: xs)) = .ok z ∧ val z = ((x :: xs).map val).prod := by
    intro g hg
    obtain ⟨z, h1, h2⟩ := foldArgs_exact (op := (· * ·)) hg xs x
    refine ⟨z, by simp [Ops.foldArgs, h1, Ops.orArgumentCount, Res.ofOption], ?_⟩
    rw [h2, List.map_cons, List.prod_cons, foldl_mul]
  obtain ⟨config, c, os, hc | hc, rfl⟩ := hctx
  · refine ⟨?_, ?_⟩
    · rw [checked_call hc os (by rfl)]
      exact hs fun x y => let ⟨z, _, h2, h3⟩ := h.add x y; ⟨z, by simp [h2, Ops.orOverflow, Res.ofOption], h3⟩
    · rw [checked_call hc os (by rfl)]
      exact hp fun x y => let ⟨z, _, h2, h3⟩ := h.mul x y; ⟨z, by simp [h2, Ops.orOverflow, Res.ofOption], h3⟩
  · refine ⟨?_, ?_⟩
    · rw [unchecked_call hc os (by rfl)]
      exact hs fun x y => let ⟨z, h1, _, h3⟩ := h.add x y; ⟨z, h1, h3⟩
    · rw [unchecked_call hc os (by rfl)]
      exact hp fun x y => let ⟨z, h1, _, h3⟩ := h.mul x y; ⟨z, h1, h3⟩

namespace BigDec

/-- The number that is meant. -/
def val (x : BigDec) : ℚ := x.int * (10 : ℚ) ^ (-x.scale)

theorem at_val (x : BigDec) {s : ℤ} (h : x.scale ≤ s) : (x.at_ s : ℚ) * (10 : ℚ) ^ (-s) = x.val := by
  have h10 : (10 : ℚ) ≠ 0 := by norm_num
  have : ((s - x.scale).toNat : ℤ) = s - x.scale := Int.toNat_of_nonneg (by omega)
  unfold at_ val
  push_cast
  rw [← zpow_natCast, this, mul_assoc, ← zpow_add₀ h10]
  congr 2; ring

theorem lt_val (x y : BigDec) : lt x y = true ↔ x.val < y.val := by
  have hp : (0 : ℚ) < (10 : ℚ) ^ (-(max x.scale y.scale)) := zpow_pos (by norm_num) _
  rw [lt, decide_eq_true_iff, ← at_val x (le_max_left x.scale y.scale), ← at_val y (le_max_right x.scale y.scale), mul_lt_mul_iff_left₀ hp]
  exact_mod_cast Iff.rfl

theorem unbounded (lib : Lib F) : (num lib).Unbounded val where
  zero := by simp [num, val]
  one := by simp [num, val]
  isZero x := by
    have : (10 : ℚ) ^ (-x.scale) ≠ 0 := (zpow_pos (by norm_num) _).ne'
    simp only [num, val, decide_eq_true_iff, mul_eq_zero, this, or_false, Int.cast_eq_zero]
  isOne x := by
    have h1 : val ⟨1, 0⟩ = 1 := by simp [val]
    simp only [num, Bool.and_eq_true, Bool.not_eq_true', Bool.eq_false_iff, ne_eq, lt_val, h1]
    constructor
    · rintro ⟨h, h'⟩; linarith
    · intro h; constructor <;> linarith
  lt := lt_val
  ge x y := by simp only [num, Bool.not_eq_true', Bool.eq_false_iff, ne_eq, lt_val, not_lt]
  add x y := ⟨add x y, rfl, rfl, by
    rw [← at_val x (le_max_left x.scale y.scale), ← at_val y (le_max_right x.scale y.scale), val, add]; push_cast; ring⟩
  sub x y := ⟨sub x y, rfl, rfl, by
    rw [← at_val x (le_max_left x.scale y.scale), ← at_val y (le_max_right x.scale y.scale), val, sub]; push_cast; ring⟩
  mul x y := ⟨mul x y, rfl, rfl, by
    have h10 : (10 : ℚ) ≠ 0 := by norm_num
    simp only [val, mul, neg_add, zpow_add₀ h10]; push_cast; ring⟩
  neg x := ⟨neg x, rfl, rfl, by simp [val, neg]⟩
  fuel x := by
    show x.val ≤ ((x.int.toNat * 10 ^ (-x.scale).toNat : ℕ) : ℚ)
    push_cast
    have h1 : (x.int : ℚ) ≤ (x.int.toNat : ℚ) := by exact_mod_cast Int.self_le_toNat x.int
    have h2 : (10 : ℚ) ^ (-x.scale) ≤ 10 ^ (-x.scale).toNat := by
      rw [← zpow_natCast]
      exact zpow_le_zpow_right₀ (by norm_num) (Int.self_le_toNat _)
    unfold val
    calc (x.int : ℚ) * 10 ^ (-x.scale) ≤ x.int.toNat * 10 ^ (-x.scale) := by
          exact mul_le_mul_of_nonneg_right h1 (zpow_pos (by norm_num) _).le
      _ ≤ _ := by apply mul_le_mul_of_nonneg_left h2; positivity

end BigDec

/-- C157: arbitrary-precision decimals are such a number type. -/
theorem C157_big_decimal (lib : BigDec.Lib F) : (BigDec.num lib).Unbounded BigDec.val := BigDec.unbounded lib

/-- C157 for the program `big_decimal.rs`: `n!` is the factorial for every number `n`, with as many digits as it has. -/
theorem C157_big_factorial {K : Keys} {debug docs : Bool} {f : F64 F} (lib : BigDec.Lib F) {ctx : Ctx BigDec}
    (hctx : BuiltIn K debug docs f (BigDec.num lib) ctx) (n : ℕ) :
    ∃ z, evalTokens ctx [.number ⟨n, 0⟩, .unary (str "!")] = .ok z ∧ z.val = n.factorial := by
  refine (C157_exact hctx (BigDec.unbounded lib) (.fact (.num ⟨n, 0⟩))).1 _ ?_
  have : BigDec.val ⟨n, 0⟩ = (n : ℚ) := by simp [BigDec.val]
  simp [Arith.ideal, this]

/-- Not vacuous: there is such a context, and `(100.5 - 0.5)!` in it has the value of 100!. -/
example (lib : BigDec.Lib Int) (hl : ∀ x, lib.fromF64 x = some ⟨3, 0⟩) : ∃ c z, Context.unchecked Demo.keys true Demo.float (BigDec.num lib) Config.new = .ok c ∧
    evalTokens (c.view Demo.keys) [.gopen '(', .number ⟨1005, 1⟩, .binary ['-'], .number ⟨5, 1⟩, .gclose ')', .unary ['!']] = .ok z ∧ z.val = Nat.factorial 100 := by
  obtain ⟨c, hc, -⟩ := unchecked_build Demo.keys true Demo.float (BigDec.num lib) Config.new _ _ (hl _) (hl _)
  obtain ⟨z, h1, h2⟩ := (C157_exact (docs := true) ⟨_, c, [], .inr hc, rfl⟩ (BigDec.unbounded lib)
    (.fact (.bin .sub (.num ⟨1005, 1⟩) (.num ⟨5, 1⟩)))).1 (Nat.factorial 100 : ℕ) (by
      have h : BigDec.val ⟨1005, 1⟩ - BigDec.val ⟨5, 1⟩ = ((100 : ℕ) : ℚ) := by simp only [BigDec.val]; norm_num
      simp only [Arith.ideal, Option.bind_some, Res.bind_ok, h]
      rw [if_neg (by norm_num), if_pos (by rfl)]
      congr 2)
  exact ⟨c, z, hc, h1, h2⟩

end Prexel
