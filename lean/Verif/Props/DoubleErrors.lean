import Mathlib.Algebra.Order.Ring.Pow
import Verif.Props.Literals
import Verif.Props.DoubleFactorial
/-!
# How rounding errors add up over `f64` (C136)
-/

namespace Prexel
open B64

/-- Not so small or so large that doubles lose digits: from 2^-1021 to 2^1022. -/
def Usual (q : ℚ) : Prop := 1 / 2 ^ 1021 ≤ q ∧ q ≤ 2 ^ 1022

/-- A tree of sums, products and quotients; the exact values of all its parts are of the usual size. -/
def Arith.Tame (exact : B64 → ℚ) : Arith B64 → Prop
  | .num n => Usual (exact n)
  | .neg _ => False
  | .fact _ => False
  | .bin o l r => (o = .add ∨ o = .mul ∨ o = .div) ∧ l.Tame exact ∧ r.Tame exact ∧ ∀ q, (Arith.bin o l r).ratValue exact = some q → Usual q

/-- The number of operators. -/
def Arith.operations : Arith N → ℕ
  | .num _ => 0
  | .neg e => e.operations + 1
  | .fact e => e.operations + 1
  | .bin _ l r => l.operations + r.operations + 1

/-- The number of literals. -/
def Arith.literals : Arith N → ℕ
  | .num _ => 1
  | .neg e => e.literals
  | .fact e => e.literals
  | .bin _ l r => l.literals + r.literals

namespace B64

/-- How much is kept when rounding. -/
@[irreducible] def keep : ℚ := 1 - 1 / 2 ^ 53

theorem keep_pos : 0 < keep := by unfold keep; norm_num
theorem keep_lt : keep ≤ 1 := by unfold keep; norm_num
theorem keep_eq : keep = 1 - 1 / 2 ^ 53 := by unfold keep; rfl

/-- Within `k` roundings of each other. -/
def Near (k : ℕ) (q r : ℚ) : Prop := q * keep ^ k ≤ r ∧ r * keep ^ k ≤ q

theorem keep_pow (k : ℕ) (h : k ≤ 2 ^ 52) : 1 - (k : ℚ) / 2 ^ 53 ≤ keep ^ k ∧ (1 : ℚ) / 2 ≤ keep ^ k := by
  have h1 := one_add_mul_le_pow (a := -(1 / 2 ^ 53 : ℚ)) (by norm_num) k
  have e : (1 : ℚ) + -(1 / 2 ^ 53) = keep := by rw [keep_eq]; ring
  rw [e] at h1
  have h2 : 1 - (k : ℚ) / 2 ^ 53 ≤ keep ^ k := by
    calc 1 - (k : ℚ) / 2 ^ 53 = 1 + k * -(1 / 2 ^ 53) := by ring
      _ ≤ _ := h1
  refine ⟨h2, le_trans ?_ h2⟩
  have : (k : ℚ) ≤ 2 ^ 52 := by exact_mod_cast h
  have h3 : (k : ℚ) / 2 ^ 53 ≤ 2 ^ 52 / 2 ^ 53 := by gcongr
  have e2 : (2 : ℚ) ^ 52 / 2 ^ 53 = 1 / 2 := by norm_num
  linarith

theorem near_error {k : ℕ} {q r : ℚ} (hk : k ≤ 2 ^ 52) (hq : 0 < q) (h : Near k q r) : |r - q| ≤ q * (k / 2 ^ 52) := by
  obtain ⟨h1, h2⟩ := h
  obtain ⟨p1, p2⟩ := keep_pow k hk
  have hk0 : (0 : ℚ) ≤ k := Nat.cast_nonneg k
  have p3 : keep ^ k ≤ 1 := pow_le_one₀ keep_pos.le keep_lt
  have hx : (k : ℚ) / 2 ^ 52 = 2 * (k / 2 ^ 53) := by ring
  rw [hx]
  have hr0 : 0 ≤ r := le_trans (mul_nonneg hq.le (pow_nonneg keep_pos.le k)) h1
  have hd : (0 : ℚ) ≤ k / 2 ^ 53 := by positivity
  generalize (k : ℚ) / 2 ^ 53 = d at p1 hd
  generalize keep ^ k = p at *
  rw [abs_le]
  constructor
  · have : q * (1 - d) ≤ q * p := mul_le_mul_of_nonneg_left p1 hq.le
    nlinarith
  · by_contra hc
    push Not at hc
    have h3 : q * (1 + 2 * d) < r := by nlinarith
    have h4 : q * (1 + 2 * d) * p < r * p := mul_lt_mul_of_pos_right h3 (by linarith)
    have h5 : q * (1 + 2 * d) * p < q * 1 := by linarith
    have h6 : (1 + 2 * d) * p < 1 := by
      rw [mul_assoc] at h5
      exact lt_of_mul_lt_mul_left h5 hq.le
    nlinarith

theorem near_pos {k : ℕ} {q r : ℚ} (hq : 0 < q) (h : Near k q r) : 0 < r :=
  lt_of_lt_of_le (mul_pos hq (pow_pos keep_pos k)) h.1

theorem near_mul {i j : ℕ} {p q x y : ℚ} (hp : 0 < p) (hq : 0 < q) (hx : Near i p x) (hy : Near j q y) : Near (i + j) (p * q) (x * y) := by
  have hx0 := near_pos hp hx
  have hy0 := near_pos hq hy
  have ki := pow_pos keep_pos i
  have kj := pow_pos keep_pos j
  unfold Near
  rw [pow_add]
  constructor
  · calc p * q * (keep ^ i * keep ^ j) = (p * keep ^ i) * (q * keep ^ j) := by ring
      _ ≤ x * y := mul_le_mul hx.1 hy.1 (by positivity) hx0.le
  · calc x * y * (keep ^ i * keep ^ j) = (x * keep ^ i) * (y * keep ^ j) := by ring
      _ ≤ p * q := mul_le_mul hx.2 hy.2 (by positivity) hp.le

theorem near_symm {k : ℕ} {q r : ℚ} (h : Near k q r) : Near k r q := ⟨h.2, h.1⟩

theorem near_inv {k : ℕ} {q r : ℚ} (hq : 0 < q) (h : Near k q r) : Near k (1 / q) (1 / r) := by
  have hr := near_pos hq h
  have kk := pow_pos keep_pos k
  constructor
  · rw [one_div_mul_eq_div, div_le_div_iff₀ hq hr, one_mul, mul_comm]; exact h.2
  · rw [one_div_mul_eq_div, div_le_div_iff₀ hr hq, one_mul, mul_comm]; exact h.1

theorem near_div {i j : ℕ} {p q x y : ℚ} (hp : 0 < p) (hq : 0 < q) (hx : Near i p x) (hy : Near j q y) : Near (i + j) (p / q) (x / y) := by
  have := near_mul hp (by positivity : 0 < 1 / q) hx (near_inv hq hy)
  rwa [mul_one_div, mul_one_div] at this

theorem near_more {i j : ℕ} (h : i ≤ j) {q r : ℚ} (hq : 0 < q) (hn : Near i q r) : Near j q r := by
  have hr := near_pos hq hn
  have : keep ^ j ≤ keep ^ i := pow_le_pow_of_le_one keep_pos.le keep_lt h
  exact ⟨le_trans (mul_le_mul_of_nonneg_left this hq.le) hn.1, le_trans (mul_le_mul_of_nonneg_left this hr.le) hn.2⟩

theorem near_add {i j : ℕ} {p q x y : ℚ} (hp : 0 < p) (hq : 0 < q) (hx : Near i p x) (hy : Near j q y) : Near (i + j) (p + q) (x + y) := by
  have h1 := near_more (Nat.le_add_right i j) hp hx
  have h2 := near_more (Nat.le_add_left j i) hq hy
  exact ⟨by rw [add_mul]; exact add_le_add h1.1 h2.1, by rw [add_mul]; exact add_le_add h1.2 h2.2⟩

theorem near_rnd {q : ℚ} (h : 1 / 2 ^ 1022 ≤ q) : Near 1 q (rnd q) := by
  have h1 := rnd_relative h
  have h0 : 0 ≤ q := le_trans (by positivity) h
  rw [abs_le] at h1
  unfold Near
  rw [pow_one, keep_eq]
  have hd : (0 : ℚ) < 1 / 2 ^ 53 := by norm_num
  have e : q / 2 ^ 53 = q * (1 / 2 ^ 53) := by ring
  rw [e] at h1
  have hr := rnd_pos h0
  generalize (1 : ℚ) / 2 ^ 53 = d at *
  generalize rnd q = r at *
  constructor
  · linarith
  · have : r ≤ q * (1 + d) := by linarith
    have hd1 : 0 ≤ 1 - d ∨ 1 - d < 0 := le_or_gt 0 (1 - d)
    rcases hd1 with h2 | h2
    · have := mul_le_mul_of_nonneg_right this h2
      nlinarith [mul_nonneg h0 (mul_nonneg hd.le hd.le)]
    · nlinarith

theorem near_trans {i j : ℕ} {p q r : ℚ} (h1 : Near i p q) (h2 : Near j q r) : Near (i + j) p r := by
  have ki := pow_pos keep_pos i
  have kj := pow_pos keep_pos j
  unfold Near
  rw [pow_add]
  constructor
  · calc p * (keep ^ i * keep ^ j) = p * keep ^ i * keep ^ j := by ring
      _ ≤ q * keep ^ j := mul_le_mul_of_nonneg_right h1.1 kj.le
      _ ≤ r := h2.1
  · calc r * (keep ^ i * keep ^ j) = r * keep ^ j * keep ^ i := by ring
      _ ≤ q * keep ^ i := mul_le_mul_of_nonneg_right h2.2 ki.le
      _ ≤ p := h1.2

theorem two_pow_split (n : ℕ) : (2 : ℚ) ^ (n + 1) = 2 * 2 ^ n := pow_succ' 2 n

/-- A number of the usual size, known up to some roundings, is rounded once more. -/
theorem near_round {k : ℕ} (hk : k ≤ 2 ^ 52) {q y : ℚ} (hq : Usual q) (h : Near k q y) (a : Bool) :
    (of a y).isFin ∧ Near (k + 1) q (of a y).val := by
  obtain ⟨h1, h2⟩ := hq
  have hp := (keep_pow k hk).2
  have hq0 : 0 < q := lt_of_lt_of_le (by positivity) h1
  have hy0 := near_pos hq0 h
  have hlow : 1 / 2 ^ 1022 ≤ y := by
    have e : (1 : ℚ) / 2 ^ 1022 = 1 / 2 ^ 1021 * (1 / 2) := by
      rw [show (1022 : ℕ) = 1021 + 1 from rfl, two_pow_split]; field_simp
    rw [e]
    calc 1 / 2 ^ 1021 * (1 / 2) ≤ q * keep ^ k := mul_le_mul h1 hp (by norm_num) hq0.le
      _ ≤ y := h.1
  have hhigh : y ≤ 2 * 2 ^ 1022 := by
    have h3 : y * (1 / 2) ≤ q := le_trans (mul_le_mul_of_nonneg_left hp hy0.le) h.2
    have h4 := le_trans h3 h2
    generalize (2 : ℚ) ^ 1022 = m at *
    linarith
  have hlarge : ¬ TooLarge y := by
    unfold TooLarge
    rw [abs_of_pos hy0, not_le]
    refine lt_of_le_of_lt hhigh ?_
    have e : (2 : ℚ) ^ 1024 = 4 * 2 ^ 1022 := by
      rw [show (1024 : ℕ) = 1022 + 1 + 1 from rfl, two_pow_split, two_pow_split, ← mul_assoc]; norm_num only
    have e2 : (2 : ℚ) ^ 970 ≤ 2 ^ 1022 := pow_le_pow_right₀ (by norm_num) (by norm_num)
    have e3 : (0 : ℚ) < 2 ^ 1022 := by positivity
    rw [e]
    clear e hlow h1 hp
    generalize (2 : ℚ) ^ 1022 = m at *
    generalize (2 : ℚ) ^ 970 = n at *
    linarith
  obtain ⟨f1, f2⟩ := of_fin a hlarge
  refine ⟨f1, ?_⟩
  rw [f2]
  exact near_trans h (near_rnd hlow)

end B64

section
variable {K : Keys} {debug docs : Bool} {lib : Libm} {draw : B64} {ctx : Ctx B64}

theorem usual_pos {q : ℚ} (h : Usual q) : 0 < q := lt_of_lt_of_le (by positivity) h.1

/-- Each literal is within `c` roundings of what it stands for. -/
theorem tame_value (exact : B64 → ℚ) (c : ℕ) (e : Arith B64) (ht : e.Tame exact)
    (hc : ∀ n, .number n ∈ e.tokens → n.isFin ∧ Near c (exact n) n.val) (hk : e.operations + c * e.literals ≤ 2 ^ 52) :
    ∃ q r, e.ratValue exact = some q ∧ Usual q ∧ e.value (doubleArithmetic lib draw) = .ok r ∧ r.isFin ∧
      Near (e.operations + c * e.literals) q r.val := by
  induction e with
  | num n =>
    obtain ⟨h1, h2⟩ := hc n (by simp [Arith.tokens])
    exact ⟨_, n, rfl, ht, rfl, h1, by simpa [Arith.operations, Arith.literals] using h2⟩
  | neg e ih => exact ht.elim
  | fact e ih => exact ht.elim
  | bin o l r ihl ihr =>
    obtain ⟨ho, htl, htr, hu⟩ := ht
    have ml : ∀ n, .number n ∈ l.tokens → Token.number n ∈ (Arith.bin o l r).tokens := by
      intro n hn
      simp only [Arith.tokens, List.mem_append]
      left
      unfold atLevel; split
      · exact hn
      · simp [bracketed, hn]
    have mr : ∀ n, .number n ∈ r.tokens → Token.number n ∈ (Arith.bin o l r).tokens := by
      intro n hn
      simp only [Arith.tokens, List.mem_append]
      right
      simp only [List.mem_cons]
      right
      unfold atLevel; split
      · exact hn
      · simp [bracketed, hn]
    simp only [Arith.operations, Arith.literals] at hk ⊢
    have em : c * (l.literals + r.literals) = c * l.literals + c * r.literals := Nat.mul_add _ _ _
    rw [em] at hk ⊢
    obtain ⟨p, x, hp, pu, hx, xf, xn⟩ := ihl htl (fun n hn => hc n (ml n hn)) (by omega)
    obtain ⟨q, y, hq, qu, hy, yf, yn⟩ := ihr htr (fun n hn => hc n (mr n hn)) (by omega)
    have p0 := usual_pos pu
    have q0 := usual_pos qu
    simp only [Arith.ratValue, hp, hq, Option.bind_some] at hu ⊢
    simp only [Arith.value, hx, hy, Res.bind_ok]
    have hk' : l.operations + c * l.literals + (r.operations + c * r.literals) ≤ 2 ^ 52 := by omega
    have ek : l.operations + r.operations + 1 + (c * l.literals + c * r.literals) =
      l.operations + c * l.literals + (r.operations + c * r.literals) + 1 := by omega
    rw [ek]
    rcases ho with rfl | rfl | rfl
    · have us := hu _ rfl
      refine ⟨_, _, rfl, us, rfl, ?_⟩
      rw [add_fin xf yf]
      exact near_round hk' us (near_add p0 q0 xn yn) _
    · have us := hu _ rfl
      refine ⟨_, _, rfl, us, rfl, ?_⟩
      rw [mul_fin xf yf]
      exact near_round hk' us (near_mul p0 q0 xn yn) _
    · simp only [q0.ne', if_false] at hu ⊢
      have us := hu _ rfl
      have y0 : y.val ≠ 0 := (near_pos q0 yn).ne'
      have h1 : y.isZero = false := by rw [← Bool.not_eq_true, isZero_iff yf]; exact y0
      refine ⟨_, B64.div x y, rfl, us, ?_, ?_⟩
      · show (if y.isZero = true then _ else _) = _
        rw [h1]; rfl
      · rw [div_fin xf yf y0]
        exact near_round hk' us (near_div p0 q0 xn yn) _

/-- C136. Over `f64`, in both contexts: a tree of k sums, products and quotients of positive numbers, of which all parts are of the usual size, is
evaluated with a relative error of at most k / 2^52. -/
theorem C136_error (h : BuiltIn K debug docs (f64 lib draw) ((f64 lib draw).num B64.num) ctx) (e : Arith B64) (ht : e.Tame B64.val)
    (hf : ∀ n, .number n ∈ e.tokens → n.isFin) (hk : e.operations ≤ 2 ^ 52) :
    ∃ q r, e.ratValue B64.val = some q ∧ evalTokens ctx e.tokens = .ok r ∧ r.isFin ∧ |r.val - q| ≤ q * (e.operations / 2 ^ 52) := by
  obtain ⟨q, r, h1, h2, h3, h4, h5⟩ := tame_value (lib := lib) (draw := draw) B64.val 0 e ht (fun n hn => ⟨hf n hn, by simp [Near]⟩) (by simpa using hk)
  exact ⟨q, r, h1, by rw [double_tree h, h3], h4, near_error hk (usual_pos h2) (by simpa using h5)⟩

end

section
variable {K : Keys} {debug docs : Bool} {lib : Libm} {draw : B64}

/-- C136 from text: the numbers are those that the numerals stand for, and reading a numeral counts as one more operation. -/
theorem C136_text {config : Config} (hcx : config.complexNumber = false) {c : Context B64}
    (hc : Context.checked K debug docs (f64 lib draw) ((f64 lib draw).num B64.num) config = .ok c ∨
      Context.unchecked K debug (f64 lib draw) ((f64 lib draw).num B64.num) config = .ok c)
    (lit : B64 → Str) (exact : B64 → ℚ) (e : Arith B64) (hl : ∀ n, .number n ∈ e.tokens → Stands (lit n) (exact n) ∧ n = of false (exact n))
    (ht : e.Tame exact) (hk : e.operations + e.literals ≤ 2 ^ 52) (s : Str) (hs : Spaced (e.tokens.map (wordOf lit)) s) :
    ∃ q r, e.ratValue exact = some q ∧ eval fromStr (split defaultRules) (c.view K) s = .ok r ∧ r.isFin ∧
      |r.val - q| ≤ q * ((e.operations + e.literals : ℕ) / 2 ^ 52) := by
  have hus : ∀ (e : Arith B64), e.Tame exact → ∀ n, Token.number n ∈ e.tokens → Usual (exact n) := by
    intro e
    induction e with
    | num n => intro h m hm; simp only [Arith.tokens, List.mem_singleton, Token.number.injEq] at hm; rw [hm]; exact h
    | neg e _ => intro h; exact h.elim
    | fact e _ => intro h; exact h.elim
    | bin o l r ihl ihr =>
      intro h n hn
      have key : ∀ a b (ts : List (Token B64)), Token.number n ∈ atLevel a b ts → Token.number n ∈ ts := by
        intro a b ts hn
        unfold atLevel at hn
        split at hn
        · exact hn
        · simpa [bracketed] using hn
      simp only [Arith.tokens, List.mem_append, List.mem_cons] at hn
      rcases hn with hn | hn | hn
      · exact ihl h.2.1 n (key _ _ _ hn)
      · cases hn
      · exact ihr h.2.2.1 n (key _ _ _ hn)
  have hnear : ∀ n, Token.number n ∈ e.tokens → n.isFin ∧ Near 1 (exact n) n.val := by
    intro n hn
    have := near_round (k := 0) (Nat.zero_le _) (hus e ht n hn) (y := exact n) (by simp [Near]) false
    rw [← (hl n hn).2] at this
    simpa using this
  obtain ⟨q, r, h1, h2, h3, h4, h5⟩ := tame_value (lib := lib) (draw := draw) exact 1 e ht hnear (by simpa using hk)
  rw [one_mul] at h5
  refine ⟨q, r, h1, ?_, h4, near_error hk (usual_pos h2) h5⟩
  rw [double_text hcx hc lit e (fun n hn => ⟨_, hl n hn⟩) s hs, h3]

end

/-! ## Whole numbers with signs -/

namespace B64

theorem units_int (d i : ℕ) : ∃ j : ℕ, units ((i : ℚ) * (2 ^ d : ℕ)) = j * 2 ^ d := by
  have ht : (0 : ℚ) ≤ (i : ℚ) * (2 ^ d : ℕ) := by positivity
  obtain ⟨n, e, h1, -, h3, -, -⟩ := units_eq ht
  rcases le_total d e with h | h
  · obtain ⟨c, rfl⟩ := Nat.exists_eq_add_of_le h
    exact ⟨n * 2 ^ c, by rw [h1, pow_add]; ring⟩
  · obtain ⟨c, rfl⟩ := Nat.exists_eq_add_of_le h
    have e1 : (i : ℚ) * (2 ^ (e + c) : ℕ) / 2 ^ e = ((i * 2 ^ c : ℕ) : ℤ) := by
      push_cast
      rw [pow_add]
      field_simp
    rw [e1, toNearestEven_int] at h3
    have h4 : n = i * 2 ^ c := by exact_mod_cast h3
    exact ⟨i, by rw [h1, h4, pow_add]; ring⟩

/-- A whole number is rounded to a whole number. -/
theorem rnd_int (i : ℤ) : ∃ j : ℤ, rnd i = j := by
  have key : ∀ n : ℕ, ∃ j : ℤ, rnd (n : ℚ) = j := by
    intro n
    obtain ⟨j, hj⟩ := units_int 1074 n
    have hp := perOne_pos
    have e : perOne = 2 ^ 1074 := by unfold perOne; rfl
    refine ⟨j, ?_⟩
    rw [rnd_nonneg (Nat.cast_nonneg n), e, hj, ← e]
    push_cast
    field_simp
  obtain ⟨n, rfl | rfl⟩ := i.eq_nat_or_neg
  · simpa using key n
  · obtain ⟨j, hj⟩ := key n
    refine ⟨-j, ?_⟩
    push_cast
    rw [rnd_neg, hj]

theorem rnd_int_error (i : ℤ) : |rnd i - i| ≤ |(i : ℚ)| * (1 / 2 ^ 53) := by
  have key : ∀ n : ℕ, |rnd (n : ℚ) - n| ≤ (n : ℚ) * (1 / 2 ^ 53) := by
    intro n
    rcases Nat.eq_zero_or_pos n with rfl | h
    · simp [rnd_zero]
    · have h1 : (1 : ℚ) ≤ n := by exact_mod_cast h
      have h2 : (1 : ℚ) / 2 ^ 1022 ≤ n := le_trans (div_le_one_of_le₀ (one_le_pow₀ (by norm_num)) (by positivity)) h1
      exact (rnd_relative h2).trans_eq (by ring)
  obtain ⟨n, rfl | rfl⟩ := i.eq_nat_or_neg
  · simpa using key n
  · have := key n
    push_cast
    rw [rnd_neg, abs_neg, show (-rnd (n : ℚ) - -n) = -(rnd (n : ℚ) - n) by ring, abs_neg]
    simpa using this

end B64

/-- A tree of sums, differences, products and signs of whole numbers. -/
def Arith.Polynomial : Arith B64 → Prop
  | .num n => n.isFin ∧ ∃ i : ℤ, n.val = i
  | .neg e => e.Polynomial
  | .fact _ => False
  | .bin o l r => (o = .add ∨ o = .sub ∨ o = .mul) ∧ l.Polynomial ∧ r.Polynomial

/-- The value that the tree would have if every number and every sign in it were positive. -/
def Arith.magnitude (val : N → ℚ) : Arith N → ℚ
  | .num n => |val n|
  | .neg e => e.magnitude val
  | .fact e => e.magnitude val
  | .bin o l r => match o with
    | .mul => l.magnitude val * r.magnitude val
    | _ => l.magnitude val + r.magnitude val

namespace B64

/-- What is known after some roundings: `p` is the part that is kept, `a` the magnitude. -/
def Within (p a q r : ℚ) : Prop := |r| * p ≤ a ∧ |r - q| * p ≤ a * (1 - p)

theorem within_add {p p' a a' q q' r r' : ℚ} (hp : 0 ≤ p) (hp1 : p ≤ 1) (hp' : 0 ≤ p') (hp1' : p' ≤ 1) (ha : 0 ≤ a) (ha' : 0 ≤ a')
    (h : Within p a q r) (h' : Within p' a' q' r') : Within (p * p') (a + a') (q + q') (r + r') := by
  obtain ⟨h1, h2⟩ := h
  obtain ⟨h3, h4⟩ := h'
  constructor
  · have e := abs_add_le r r'
    have e1 : |r| * p * p' ≤ a := le_trans (mul_le_of_le_one_right (by positivity) hp1') h1
    have e2 : |r'| * p' * p ≤ a' := le_trans (mul_le_of_le_one_right (by positivity) hp1) h3
    have e3 : |r + r'| * (p * p') ≤ (|r| + |r'|) * (p * p') := mul_le_mul_of_nonneg_right e (by positivity)
    linarith
  · have e := abs_add_le (r - q) (r' - q')
    have e0 : r + r' - (q + q') = r - q + (r' - q') := by ring
    rw [e0]
    have e1 : |r - q| * p * p' ≤ a * (1 - p) * p' := mul_le_mul_of_nonneg_right h2 hp'
    have e2 : |r' - q'| * p' * p ≤ a' * (1 - p') * p := mul_le_mul_of_nonneg_right h4 hp
    have e3 := mul_le_mul_of_nonneg_right e (mul_nonneg hp hp')
    have e4 : a * (1 - p) * p' ≤ a * (1 - p * p') := by rw [mul_assoc]; exact mul_le_mul_of_nonneg_left (by linarith) ha
    have e5 : a' * (1 - p') * p ≤ a' * (1 - p * p') := by rw [mul_assoc]; exact mul_le_mul_of_nonneg_left (by linarith) ha'
    linarith

theorem within_mul {p p' a a' q q' r r' : ℚ} (hp : 0 ≤ p) (hp' : 0 ≤ p') (ha : 0 ≤ a) (ha' : 0 ≤ a') (hq : |q'| ≤ a')
    (h : Within p a q r) (h' : Within p' a' q' r') : Within (p * p') (a * a') (q * q') (r * r') := by
  obtain ⟨h1, h2⟩ := h
  obtain ⟨h3, h4⟩ := h'
  constructor
  · rw [abs_mul]
    calc |r| * |r'| * (p * p') = (|r| * p) * (|r'| * p') := by ring
      _ ≤ a * a' := mul_le_mul h1 h3 (by positivity) ha
  · have e0 : r * r' - q * q' = r * (r' - q') + q' * (r - q) := by ring
    have e := abs_add_le (r * (r' - q')) (q' * (r - q))
    rw [← e0, abs_mul, abs_mul] at e
    have e1 : (|r| * p) * (|r' - q'| * p') ≤ a * (a' * (1 - p')) := mul_le_mul h1 h4 (by positivity) ha
    have e2 : |q'| * (|r - q| * p) * p' ≤ a' * (a * (1 - p)) * p' :=
      mul_le_mul_of_nonneg_right (mul_le_mul hq h2 (by positivity) ha') hp'
    have e3 := mul_le_mul_of_nonneg_right e (mul_nonneg hp hp')
    linarith

theorem within_round {p a q r u s : ℚ} (hp : 0 ≤ p) (ha : 0 ≤ a) (hu : 0 ≤ u) (hu1 : u ≤ 1) (hs : |s - r| ≤ |r| * u)
    (h : Within p a q r) : Within (p * (1 - u)) a q s := by
  obtain ⟨h1, h2⟩ := h
  have e1 : |s| ≤ |r| + |r| * u := by
    have := abs_add_le (s - r) r
    rw [sub_add_cancel] at this
    linarith
  have e2 : |s - q| ≤ |r| * u + |r - q| := by
    have := abs_add_le (s - r) (r - q)
    rw [show s - r + (r - q) = s - q by ring] at this
    linarith
  have hpu : 0 ≤ p * (1 - u) := mul_nonneg hp (by linarith)
  constructor
  · calc |s| * (p * (1 - u)) ≤ (|r| + |r| * u) * (p * (1 - u)) := mul_le_mul_of_nonneg_right e1 hpu
      _ = |r| * p * (1 - u * u) := by ring
      _ ≤ |r| * p * 1 := mul_le_mul_of_nonneg_left (by nlinarith) (by positivity)
      _ ≤ a := by linarith
  · have e3 : |r| * p * u ≤ a * u := mul_le_mul_of_nonneg_right h1 hu
    calc |s - q| * (p * (1 - u)) ≤ (|r| * u + |r - q|) * (p * (1 - u)) := mul_le_mul_of_nonneg_right e2 hpu
      _ = (|r| * p * u + |r - q| * p) * (1 - u) := by ring
      _ ≤ (a * u + a * (1 - p)) * (1 - u) := mul_le_mul_of_nonneg_right (add_le_add e3 h2) (by linarith)
      _ ≤ a * (1 - p * (1 - u)) := by nlinarith [mul_nonneg ha (mul_nonneg hu hu)]

end B64

section
variable {K : Keys} {debug docs : Bool} {lib : Libm} {draw : B64} {ctx : Ctx B64}

theorem magnitude_nonneg (val : N → ℚ) (e : Arith N) : 0 ≤ e.magnitude val := by
  induction e with
  | num n => exact abs_nonneg _
  | neg e ih => exact ih
  | fact e ih => exact ih
  | bin o l r ihl ihr => cases o <;> simp only [Arith.magnitude] <;> positivity

theorem keep_pow_le (k : ℕ) : keep ^ k ≤ 1 := pow_le_one₀ keep_pos.le keep_lt

/-- Rounding a whole number that is not too large. -/
theorem round_whole {k : ℕ} (hk : k ≤ 2 ^ 52) {a q : ℚ} (ha : a ≤ 2 ^ 1000) (ha0 : 0 ≤ a) {i : ℤ} (h : Within (keep ^ k) a q i) (b : Bool) :
    (of b (i : ℚ)).isFin ∧ (∃ j : ℤ, (of b (i : ℚ)).val = j) ∧ Within (keep ^ (k + 1)) a q (of b (i : ℚ)).val := by
  have hp := (keep_pow k hk).2
  have hl : ¬ TooLarge (i : ℚ) := by
    unfold TooLarge
    rw [not_le]
    have h1 : |(i : ℚ)| * (1 / 2) ≤ a := le_trans (mul_le_mul_of_nonneg_left hp (abs_nonneg _)) h.1
    have h2 : |(i : ℚ)| ≤ 2 * 2 ^ 1000 := by
      have := le_trans h1 ha
      generalize (2 : ℚ) ^ 1000 = m at *
      linarith
    refine lt_of_le_of_lt h2 ?_
    have e : (2 : ℚ) ^ 1024 = 4 * 2 ^ 1022 := by
      rw [show (1024 : ℕ) = 1022 + 1 + 1 from rfl, two_pow_split, two_pow_split, ← mul_assoc]; norm_num only
    have e1 : (2 : ℚ) ^ 1000 ≤ 2 ^ 1022 := pow_le_pow_right₀ (by norm_num) (by norm_num only)
    have e2 : (2 : ℚ) ^ 970 ≤ 2 ^ 1022 := pow_le_pow_right₀ (by norm_num) (by norm_num only)
    have e3 : (0 : ℚ) < 2 ^ 1022 := by positivity
    rw [e]
    clear e h2 ha h1
    generalize (2 : ℚ) ^ 1022 = m at *
    generalize (2 : ℚ) ^ 1000 = m' at *
    generalize (2 : ℚ) ^ 970 = n at *
    linarith
  obtain ⟨f1, f2⟩ := of_fin b hl
  refine ⟨f1, ?_, ?_⟩
  · rw [f2]; exact rnd_int i
  · rw [f2, pow_succ, keep_eq]
    have := within_round (u := 1 / 2 ^ 53) (pow_nonneg keep_pos.le k) ha0 (by norm_num) (by norm_num) (rnd_int_error i) h
    rwa [keep_eq] at this

/-- The magnitude of every part is at most `b`. -/
def Arith.AllBelow (val : N → ℚ) (b : ℚ) : Arith N → Prop
  | .num n => |val n| ≤ b
  | .neg e => e.AllBelow val b
  | .fact e => e.AllBelow val b
  | .bin o l r => l.AllBelow val b ∧ r.AllBelow val b ∧ (Arith.bin o l r).magnitude val ≤ b

theorem polynomial_value (e : Arith B64) (he : e.Polynomial) (ha : e.AllBelow B64.val (2 ^ 1000)) (hk : e.operations ≤ 2 ^ 52) :
    ∃ q r, e.ratValue B64.val = some q ∧ |q| ≤ e.magnitude B64.val ∧ e.value (doubleArithmetic lib draw) = .ok r ∧ r.isFin ∧
      (∃ i : ℤ, r.val = i) ∧ Within (keep ^ e.operations) (e.magnitude B64.val) q r.val := by
  induction e with
  | num n => exact ⟨_, n, rfl, le_rfl, rfl, he.1, he.2, by simp [Within, Arith.operations, Arith.magnitude]⟩
  | fact e ih => exact he.elim
  | neg e ih =>
    simp only [Arith.operations] at hk
    obtain ⟨q, r, h1, h2, h3, h4, ⟨i, h5⟩, h6⟩ := ih he ha (by omega)
    obtain ⟨n1, n2, -⟩ := neg_fin h4
    refine ⟨-q, B64.neg r, by simp [Arith.ratValue, h1], by rw [abs_neg]; exact h2, by simp only [Arith.value, h3, Res.bind_ok]; rfl, n1,
      ⟨-i, by rw [n2, h5]; push_cast; rfl⟩, ?_⟩
    have hm := magnitude_nonneg B64.val e
    have hp := pow_nonneg keep_pos.le e.operations
    have hle : keep ^ (e.operations + 1) ≤ keep ^ e.operations := pow_le_pow_of_le_one keep_pos.le keep_lt (Nat.le_succ _)
    simp only [Arith.operations, Arith.magnitude]
    rw [n2]
    unfold Within
    rw [abs_neg, show -r.val - -q = -(r.val - q) by ring, abs_neg]
    constructor
    · exact le_trans (mul_le_mul_of_nonneg_left hle (abs_nonneg _)) h6.1
    · refine le_trans (mul_le_mul_of_nonneg_left hle (abs_nonneg _)) (h6.2.trans ?_)
      exact mul_le_mul_of_nonneg_left (by linarith) hm
  | bin o l r ihl ihr =>
    obtain ⟨ho, pl, pr⟩ := he
    obtain ⟨al, ar, ab⟩ := ha
    simp only [Arith.operations] at hk ⊢
    obtain ⟨p, x, hp, pa, hx, xf, ⟨i, hi⟩, xw⟩ := ihl pl al (by omega)
    obtain ⟨q, y, hq, qa, hy, yf, ⟨j, hj⟩, yw⟩ := ihr pr ar (by omega)
    have ml := magnitude_nonneg B64.val l
    have mr := magnitude_nonneg B64.val r
    have kl := pow_nonneg keep_pos.le l.operations
    have kr := pow_nonneg keep_pos.le r.operations
    have kl1 := keep_pow_le l.operations
    have kr1 := keep_pow_le r.operations
    have hk' : l.operations + r.operations ≤ 2 ^ 52 := by omega
    simp only [Arith.ratValue, hp, hq, Option.bind_some]
    simp only [Arith.value, hx, hy, Res.bind_ok]
    rcases ho with rfl | rfl | rfl
    · simp only [Arith.magnitude] at ab ⊢
      refine ⟨_, _, rfl, (abs_add_le p q).trans (add_le_add pa qa), rfl, ?_⟩
      rw [add_fin xf yf]
      have hw := within_add kl kl1 kr kr1 ml mr xw yw
      rw [← pow_add] at hw
      have e : x.val + y.val = ((i + j : ℤ) : ℚ) := by rw [hi, hj]; push_cast; rfl
      rw [e] at hw ⊢
      exact round_whole hk' ab (by positivity) hw _
    · simp only [Arith.magnitude] at ab ⊢
      refine ⟨_, _, rfl, (abs_sub p q).trans (add_le_add pa qa), rfl, ?_⟩
      rw [sub_fin xf yf]
      have yw' : Within (keep ^ r.operations) (r.magnitude B64.val) (-q) (-y.val) := by
        unfold Within
        rw [abs_neg, show -y.val - -q = -(y.val - q) by ring, abs_neg]
        exact yw
      have hw := within_add kl kl1 kr kr1 ml mr xw yw'
      rw [← pow_add, ← sub_eq_add_neg, ← sub_eq_add_neg] at hw
      have e : x.val - y.val = ((i - j : ℤ) : ℚ) := by rw [hi, hj]; push_cast; rfl
      rw [e] at hw ⊢
      exact round_whole hk' ab (by positivity) hw _
    · simp only [Arith.magnitude] at ab ⊢
      refine ⟨_, _, rfl, by rw [abs_mul]; exact mul_le_mul pa qa (abs_nonneg _) ml, rfl, ?_⟩
      rw [mul_fin xf yf]
      have hw := within_mul kl kr ml mr qa xw yw
      rw [← pow_add] at hw
      have e : x.val * y.val = ((i * j : ℤ) : ℚ) := by rw [hi, hj]; push_cast; rfl
      rw [e] at hw ⊢
      exact round_whole hk' ab (by positivity) hw _

theorem within_error {k : ℕ} (hk : k ≤ 2 ^ 52) {a q r : ℚ} (ha : 0 ≤ a) (h : Within (keep ^ k) a q r) : |r - q| ≤ a * (k / 2 ^ 52) := by
  obtain ⟨p1, p2⟩ := keep_pow k hk
  have hx : (k : ℚ) / 2 ^ 52 = 2 * (k / 2 ^ 53) := by ring
  rw [hx]
  have h1 : |r - q| * (1 / 2) ≤ a * (k / 2 ^ 53) :=
    calc |r - q| * (1 / 2) ≤ |r - q| * keep ^ k := mul_le_mul_of_nonneg_left p2 (abs_nonneg _)
      _ ≤ a * (1 - keep ^ k) := h.2
      _ ≤ a * (k / 2 ^ 53) := mul_le_mul_of_nonneg_left (by linarith) ha
  linarith

theorem polynomial_exact (e : Arith B64) (he : e.Polynomial) (ha : e.AllBelow B64.val (2 ^ 53)) :
    e.Rational ∧ e.AllDoubles ∧ ∃ i : ℤ, e.ratValue B64.val = some (i : ℚ) ∧ |(i : ℚ)| ≤ e.magnitude B64.val := by
  induction e with
  | num n =>
    obtain ⟨h1, i, h2⟩ := he
    exact ⟨trivial, h1, i, by simp [Arith.ratValue, h2], by simp [Arith.magnitude, h2]⟩
  | fact e ih => exact he.elim
  | neg e ih =>
    obtain ⟨h1, h2, i, h3, h4⟩ := ih he ha
    exact ⟨h1, h2, -i, by simp [Arith.ratValue, h3], by push_cast; rw [abs_neg]; exact h4⟩
  | bin o l r ihl ihr =>
    obtain ⟨ho, pl, pr⟩ := he
    obtain ⟨al, ar, ab⟩ := ha
    obtain ⟨l1, l2, i, l3, l4⟩ := ihl pl al
    obtain ⟨r1, r2, j, r3, r4⟩ := ihr pr ar
    have ml := magnitude_nonneg B64.val l
    have key : ∃ n : ℤ, (Arith.bin o l r).ratValue B64.val = some (n : ℚ) ∧ |(n : ℚ)| ≤ (Arith.bin o l r).magnitude B64.val := by
      rcases ho with rfl | rfl | rfl
      · exact ⟨i + j, by simp [Arith.ratValue, l3, r3], by push_cast; exact (abs_add_le _ _).trans (add_le_add l4 r4)⟩
      · exact ⟨i - j, by simp [Arith.ratValue, l3, r3], by push_cast; exact (abs_sub _ _).trans (add_le_add l4 r4)⟩
      · exact ⟨i * j, by simp [Arith.ratValue, l3, r3], by push_cast; rw [abs_mul]; exact mul_le_mul l4 r4 (abs_nonneg _) ml⟩
    obtain ⟨n, h1, h2⟩ := key
    refine ⟨⟨?_, l1, r1⟩, ⟨l2, r2, ?_⟩, n, h1, h2⟩
    · rcases ho with h | h | h <;> simp [h]
    · intro q hq
      rw [h1] at hq
      cases hq
      apply isDouble_int
      have := h2.trans ab
      exact_mod_cast this

/-- C136 for whole numbers with any signs: sums, differences and products are exact as long as the magnitudes of all parts are at most 2^53; up to
magnitudes of 2^1000 the error of k operations is at most k / 2^52 of the magnitude. -/
theorem C136_whole (h : BuiltIn K debug docs (f64 lib draw) ((f64 lib draw).num B64.num) ctx) (e : Arith B64) (he : e.Polynomial) :
    (e.AllBelow B64.val (2 ^ 53) → ∃ q r, e.ratValue B64.val = some q ∧ evalTokens ctx e.tokens = .ok r ∧ r.isFin ∧ r.val = q) ∧
    (e.AllBelow B64.val (2 ^ 1000) → e.operations ≤ 2 ^ 52 →
      ∃ q r, e.ratValue B64.val = some q ∧ evalTokens ctx e.tokens = .ok r ∧ r.isFin ∧ |r.val - q| ≤ e.magnitude B64.val * (e.operations / 2 ^ 52)) := by
  constructor
  · intro ha
    obtain ⟨h1, h2, i, h3, -⟩ := polynomial_exact e he ha
    obtain ⟨r, r1, r2, r3⟩ := (C131_exact h e h1 h2).1 _ h3
    exact ⟨_, r, h3, r1, r2, r3⟩
  · intro ha hk
    obtain ⟨q, r, h1, -, h2, h3, -, h4⟩ := polynomial_value (lib := lib) (draw := draw) e he ha hk
    exact ⟨q, r, h1, by rw [double_tree h, h2], h3, within_error hk (magnitude_nonneg _ _) h4⟩

end

/-! ## Examples -/

theorem usual_of {q : ℚ} (h1 : 1 / 2 ^ 100 ≤ q) (h2 : q ≤ 2 ^ 100) : Usual q :=
  ⟨le_trans (one_div_le_one_div_of_le (by positivity) (pow_le_pow_right₀ (by norm_num) (by norm_num only))) h1,
    le_trans h2 (pow_le_pow_right₀ (by norm_num) (by norm_num only))⟩

/-- `1 / 3 * 7 + 10`. -/
def sampleSum : Arith B64 := .bin .add (.bin .mul (.bin .div (.num (lit 1)) (.num (lit 3))) (.num (lit 7))) (.num (lit 10))

/-- The hypotheses of C136 hold for `1 / 3 * 7 + 10`, which is 37/3, with three operations. -/
example : sampleSum.Tame B64.val ∧ (∀ n, .number n ∈ sampleSum.tokens → n.isFin) ∧ sampleSum.operations = 3 ∧
    sampleSum.ratValue B64.val = some (37 / 3) := by
  have e1 : (lit 1).val = 1 := by decide +kernel
  have e3 : (lit 3).val = 3 := by decide +kernel
  have e7 : (lit 7).val = 7 := by decide +kernel
  have e10 : (lit 10).val = 10 := by decide +kernel
  refine ⟨⟨.inl rfl, ⟨.inr (.inl rfl), ⟨.inr (.inr rfl), ?_, ?_, ?_⟩, ?_, ?_⟩, ?_, ?_⟩, ?_, rfl, ?_⟩
  · show Usual _; rw [e1]; exact usual_of (by norm_num) (by norm_num)
  · show Usual _; rw [e3]; exact usual_of (by norm_num) (by norm_num)
  · intro q hq
    simp only [Arith.ratValue, e1, e3, Option.bind_some] at hq
    cases hq
    exact usual_of (by norm_num) (by norm_num)
  · show Usual _; rw [e7]; exact usual_of (by norm_num) (by norm_num)
  · intro q hq
    simp only [Arith.ratValue, e1, e3, e7, Option.bind_some, show (3 : ℚ) ≠ 0 by norm_num, if_false] at hq
    cases hq
    exact usual_of (by norm_num) (by norm_num)
  · show Usual _; rw [e10]; exact usual_of (by norm_num) (by norm_num)
  · intro q hq
    simp only [Arith.ratValue, e1, e3, e7, e10, Option.bind_some, show (3 : ℚ) ≠ 0 by norm_num, if_false] at hq
    cases hq
    exact usual_of (by norm_num) (by norm_num)
  · intro n hn
    have : n = lit 1 ∨ n = lit 3 ∨ n = lit 7 ∨ n = lit 10 := by
      simpa [sampleSum, Arith.tokens, atLevel, Arith.level, ArOp.level, ArOp.leftLevel, ArOp.rightLevel] using hn
    rcases this with rfl | rfl | rfl | rfl <;> exact ⟨by decide +kernel, by decide +kernel⟩
  · simp [sampleSum, Arith.ratValue, e1, e3, e7, e10]; norm_num

/-- The hypotheses of the second theorem hold for `(2 - 7) * 3`. -/
example : (Arith.bin .mul (.bin .sub (.num (lit 2)) (.num (lit 7))) (.num (lit 3))).Polynomial ∧
    (Arith.bin .mul (.bin .sub (.num (lit 2)) (.num (lit 7))) (.num (lit 3))).AllBelow B64.val (2 ^ 53) := by
  have e2 : (lit 2).val = 2 := by decide +kernel
  have e3 : (lit 3).val = 3 := by decide +kernel
  have e7 : (lit 7).val = 7 := by decide +kernel
  refine ⟨⟨.inr (.inr rfl), ⟨.inr (.inl rfl), ⟨⟨by decide +kernel, by decide +kernel⟩, 2, by rw [e2]; norm_num⟩,
    ⟨⟨by decide +kernel, by decide +kernel⟩, 7, by rw [e7]; norm_num⟩⟩, ⟨⟨by decide +kernel, by decide +kernel⟩, 3, by rw [e3]; norm_num⟩⟩, ?_⟩
  simp only [Arith.AllBelow, Arith.magnitude, e2, e3, e7]
  norm_num

end Prexel
