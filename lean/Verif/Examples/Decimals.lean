import Verif.Lemmas.DecimalSafe
import Verif.Examples.Numbers
/-!
# Decimals used by the examples beside the theorems
-/

set_option linter.unusedSimpArgs false

namespace Prexel.Demo

theorem representable_scaled {r : Rat} (h : Representable r) : ∃ m : Int, r * ((10 : Int) ^ 28 : Int) = m := by
  obtain ⟨s, hs, c, hc, h⟩ := h
  refine ⟨c * (10 : Int) ^ (28 - s), ?_⟩
  have : (10 : Int) ^ 28 = (10 : Int) ^ s * (10 : Int) ^ (28 - s) := by rw [← Int.pow_add]; congr 1; omega
  rw [this, Rat.intCast_mul, ← Rat.mul_assoc, h, Rat.intCast_mul]

/-- The representable numbers up to a bound have a largest one. -/
theorem exists_below {q : Rat} (h : -maxDecimal ≤ q) :
    ∃ r, Representable r ∧ r ≤ q ∧ ∀ r', Representable r' → r' ≤ q → r' ≤ r := by
  have hlow : Representable (-maxDecimal) := by decide +kernel
  obtain ⟨m, hm⟩ := representable_scaled hlow
  have key : ∀ (k : Nat) (N : Int), N - m = k → ((N : Rat) ≤ q * ((10 : Int) ^ 28 : Int)) →
      (∀ r', Representable r' → r' ≤ q → r' * ((10 : Int) ^ 28 : Int) ≤ (N : Rat)) →
      ∃ r, Representable r ∧ r ≤ q ∧ ∀ r', Representable r' → r' ≤ q → r' ≤ r := by
    intro k
    induction k with
    | zero =>
      intro N hN hle hub
      have : N = m := by omega
      subst this
      refine ⟨_, hlow, h, fun r' hr hq => ?_⟩
      have := hub r' hr hq
      rw [← hm] at this
      exact le_of_mul_pow this
    | succ k ih =>
      intro N hN hle hub
      by_cases hex : ∃ r, Representable r ∧ r * ((10 : Int) ^ 28 : Int) = (N : Rat)
      · obtain ⟨r, hr, hrN⟩ := hex
        rw [← hrN] at hle hub
        exact ⟨r, hr, le_of_mul_pow hle, fun r' hr' hq => le_of_mul_pow (hub r' hr' hq)⟩
      · refine ih (N - 1) (by omega) ?_ ?_
        · have : ((N - 1 : Int) : Rat) ≤ (N : Rat) := Rat.intCast_le_intCast.mpr (by omega)
          grind
        · intro r' hr' hq
          obtain ⟨m', hm'⟩ := representable_scaled hr'
          have h1 := hub r' hr' hq
          rw [hm', Rat.intCast_le_intCast] at h1
          rw [hm', Rat.intCast_le_intCast]
          have : m' ≠ N := fun h => hex ⟨r', hr', by rw [hm', h]⟩
          omega
  have hfl : m ≤ (q * ((10 : Int) ^ 28 : Int)).floor := by
    rw [Rat.le_floor_iff, ← hm]
    exact Rat.mul_le_mul_of_nonneg_right h (by have := ten_pow_pos 28; grind)
  refine key ((q * ((10 : Int) ^ 28 : Int)).floor - m).toNat _ (by omega) (Rat.floor_le _) ?_
  intro r' hr' hq
  obtain ⟨m', hm'⟩ := representable_scaled hr'
  rw [hm', Rat.intCast_le_intCast, Rat.le_floor_iff, ← hm']
  exact Rat.mul_le_mul_of_nonneg_right hq (by have := ten_pow_pos 28; grind)

/-- The representable numbers as a decimal type. Results are rounded down. -/
abbrev Decimal := { q : Rat // Representable q }

/-- The number if it is representable. -/
def ofRat? (q : Rat) : Option Decimal := if h : Representable q then some ⟨q, h⟩ else none

/-- The number zero. -/
def zero : Decimal := ⟨0, by decide +kernel⟩

/-- The number, or zero. -/
def ofRat (q : Rat) : Decimal := (ofRat? q).getD zero

/-- The largest decimal up to the number. -/
noncomputable def below (q : Rat) : Decimal := if h : -maxDecimal ≤ q then ⟨(exists_below h).choose, (exists_below h).choose_spec.1⟩ else zero

/-- The number if it is representable, otherwise rounded down if it is in the range. -/
noncomputable def near? (q : Rat) : Option Decimal :=
  if h : Representable q then some ⟨q, h⟩ else if -maxDecimal ≤ q ∧ q ≤ maxDecimal then some (below q) else none

/-- The number `c / 10 ^ s`. -/
def decimal (c : Int) (s : Nat := 0) : Decimal := ofRat (c / (10 : Rat) ^ s)

/-- Decimals with rounding down. -/
noncomputable def dec : Dec Decimal Int where
  checkedAdd x y := near? (x.1 + y.1)
  checkedSub x y := near? (x.1 - y.1)
  checkedMul x y := near? (x.1 * y.1)
  checkedDiv x y := if y.1 = 0 then none else near? (x.1 / y.1)
  checkedRem x y := if y.1 = 0 then none else some (ofRat (x.1 - y.1 * wholePart (x.1 / y.1)))
  neg x := ofRat (-x.1)
  abs x := if x.1 < 0 then ofRat (-x.1) else x
  fract x := if x.1.den = 1 then zero else x
  round x := ofRat (x.1 + 1 / 2).floor
  roundDp _ x := x
  trunc x := ofRat (wholePart x.1)
  floor x := ofRat x.1.floor
  ceil x := ofRat x.1.ceil
  isZero x := decide (x.1 = 0)
  isOne x := decide (x.1 = 1)
  isSignNegative x := decide (x.1 < 0)
  eq x y := decide (x.1 = y.1)
  lt x y := decide (x.1 < y.1)
  toI64 x := if x.1.den = 1 ∧ i64.Fits x.1.num then some x.1.num else none
  toF64 x := some x.1.floor
  fromF64 x := ofRat? x
  nat n := ofRat (n : Int)
  oneMinus := decimal (-1)
  half := decimal 5 1
  third := decimal 3333333333333333333333333333 28
  pi := decimal 31415926535897932384626433833 28
  pi2 := decimal 62831853071795864769252867666 28
  pi2Minus := decimal (-62831853071795864769252867666) 28
  piHalf := decimal 15707963267948966192313216916 28
  piQuarter := decimal 7853981633974483096156608458 28
  pi3Half := decimal 47123889803846898576939650750 28
  ln10 := decimal 23025850929940456840179914546 28
  e := decimal 27182818284590452353602874714 28
  precision := decimal 1 16
  gammaG := decimal 47421875 7
  gammaP0 := decimal 99999999999999709182 20
  gammaP := []
  fuel := 100

theorem ofRat?_eq (q : Rat) (h : Representable q) : ofRat? q = some ⟨q, h⟩ := by simp [ofRat?, h]

theorem ofRat_val {q : Rat} (h : Representable q) : (ofRat q).1 = q := by simp [ofRat, ofRat?_eq q h]

theorem ofRat_nonneg {q : Rat} (h : 0 ≤ q) : 0 ≤ (ofRat q).1 := by
  unfold ofRat ofRat?
  split
  · exact h
  · exact Rat.le_refl

theorem ofRat_cases (q : Rat) : (ofRat q).1 = q ∨ (ofRat q).1 = 0 := by
  unfold ofRat ofRat?
  split
  · exact .inl rfl
  · exact .inr rfl

theorem near?_rounded {q : Rat} (h : Bounded maxDecimal q) : ∃ z, near? q = some z ∧ Rounded z.1 q := by
  unfold near?
  split
  · exact ⟨_, rfl, fun r hr => ⟨id, id⟩⟩
  · rw [if_pos (show -maxDecimal ≤ q ∧ q ≤ maxDecimal from h)]
    refine ⟨_, rfl, ?_⟩
    have : below q = ⟨(exists_below h.1).choose, (exists_below h.1).choose_spec.1⟩ := by unfold below; rw [dif_pos h.1]
    rw [this]
    obtain ⟨-, h2, h3⟩ := (exists_below h.1).choose_spec
    exact fun r hr => ⟨h3 r hr, Rat.le_trans h2⟩

theorem near?_beyond {q : Rat} (h : Beyond q) : near? q = none := by
  have hb : ¬ Bounded maxDecimal q := by
    rintro ⟨h1, h2⟩
    have h3 : ((-2 ^ 96 : Int) : Rat) < -maxDecimal := by decide +kernel
    have h4 : maxDecimal < ((2 ^ 96 : Int) : Rat) := by decide +kernel
    rcases h with h | h <;> grind
  have hr : ¬ Representable q := fun h => hb (representable_bounded h)
  unfold near?
  rw [dif_neg hr, if_neg (show ¬(-maxDecimal ≤ q ∧ q ≤ maxDecimal) from hb)]

theorem representable_whole {q : Rat} (h : Representable q) {n : Int} (h1 : q - 1 < n) (h2 : (n : Rat) < q + 1) : Representable (n : Rat) := by
  refine representable_int.mpr ?_
  obtain ⟨h3, h4⟩ := representable_bounded h
  unfold maxDecimal at h3 h4
  rw [← Rat.intCast_neg] at h3
  have h5 : (n : Rat) < ((2 ^ 96 : Int) : Rat) := by
    have : ((2 ^ 96 - 1 : Int) : Rat) + 1 = (2 ^ 96 : Int) := by decide +kernel
    grind
  have h6 : ((-(2 ^ 96) : Int) : Rat) < (n : Rat) := by
    have : ((-(2 ^ 96 - 1) : Int) : Rat) - 1 = (-(2 ^ 96) : Int) := by decide +kernel
    grind
  rw [Rat.intCast_lt_intCast] at h5 h6
  omega

theorem scaled_bound {q b : Rat} {s : Nat} {c m : Int} (hb : b * ((10 : Int) ^ s : Int) = c) (hq : q * ((10 : Int) ^ s : Int) = m)
    (h : Bounded (if b < 0 then -b else b) q) : m.natAbs ≤ c.natAbs := by
  have hp := ten_pow_pos s
  obtain ⟨h1, h2⟩ := h
  have e1 := Rat.mul_le_mul_of_nonneg_right h1 (show 0 ≤ (((10 : Int) ^ s : Int) : Rat) by grind)
  have e2 := Rat.mul_le_mul_of_nonneg_right h2 (show 0 ≤ (((10 : Int) ^ s : Int) : Rat) by grind)
  rw [hq] at e1 e2
  have e3 : (if b < 0 then -b else b) * (((10 : Int) ^ s : Int) : Rat) = ((if b < 0 then -c else c : Int) : Rat) := by
    split
    · rw [Rat.neg_mul, hb, Rat.intCast_neg]
    · exact hb
  rw [Rat.neg_mul, e3, ← Rat.intCast_neg, Rat.intCast_le_intCast] at e1
  rw [e3, Rat.intCast_le_intCast] at e2
  split at e1 <;> omega

theorem representable_rem {x y : Rat} (hx : Representable x) (hy : Representable y) (h0 : y ≠ 0) :
    Representable (x - y * wholePart (x / y)) := by
  obtain ⟨b1, b2⟩ := wholePart_rem (x := x) h0
  obtain ⟨s, hs, c, hc, h⟩ := hx
  obtain ⟨t, ht, e, he, h'⟩ := hy
  by_cases hst : s ≤ t
  · have hp : (10 : Int) ^ t = (10 : Int) ^ s * (10 : Int) ^ (t - s) := by rw [← Int.pow_add]; congr 1; omega
    refine ⟨t, ht, c * (10 : Int) ^ (t - s) - e * wholePart (x / y), ?_, ?_⟩
    · refine Nat.lt_of_le_of_lt (scaled_bound h' ?_ b2) he
      rw [Rat.intCast_sub, Rat.intCast_mul, ← h, Rat.intCast_mul, ← h', hp, Rat.intCast_mul]
      grind
    · rw [Rat.intCast_sub, Rat.intCast_mul, ← h, Rat.intCast_mul, ← h', hp, Rat.intCast_mul]
      grind
  · have hp : (10 : Int) ^ s = (10 : Int) ^ t * (10 : Int) ^ (s - t) := by rw [← Int.pow_add]; congr 1; omega
    refine ⟨s, hs, c - e * (10 : Int) ^ (s - t) * wholePart (x / y), ?_, ?_⟩
    · refine Nat.lt_of_le_of_lt (scaled_bound h ?_ b1) hc
      rw [Rat.intCast_sub, Rat.intCast_mul, Rat.intCast_mul, ← h, ← h', hp, Rat.intCast_mul]
      grind
    · rw [Rat.intCast_sub, Rat.intCast_mul, Rat.intCast_mul, ← h, ← h', hp, Rat.intCast_mul]
      grind

/-- These decimals satisfy the contract. -/
noncomputable def decLaws : dec.Laws where
  val x := x.1
  range x := x.2
  nat n hn := ofRat_val (representable_int.mpr (by simpa using hn))
  natSign n := by
    have : 0 ≤ (ofRat ((n : Int) : Rat)).1 := ofRat_nonneg (Rat.intCast_nonneg.mpr (by omega))
    simp only [dec, decide_eq_false_iff_not, Rat.not_lt]
    exact this
  add x y h := near?_rounded h
  sub x y h := near?_rounded h
  mul x y h := near?_rounded h
  div x y h0 h := by
    simp only [dec, h0, if_false]
    exact near?_rounded h
  addOver x y h := near?_beyond h
  subOver x y h := near?_beyond h
  mulOver x y h := near?_beyond h
  divZero x y h := by simp [dec, h]
  remZero x y h := by simp [dec, h]
  rem x y h := ⟨ofRat (x.1 - y.1 * wholePart (x.1 / y.1)), by simp [dec, h], ofRat_val (representable_rem x.2 y.2 h)⟩
  neg x := ofRat_val (representable_neg x.2)
  eq x y := by simp [dec]
  lt x y := by simp [dec]
  isZero x := by simp [dec]
  isOne x := by simp [dec]
  sign x := by
    refine ⟨fun h => by simpa [dec] using h, fun h => ?_⟩
    simp only [dec, decide_eq_false_iff_not, Rat.not_lt]
    exact Rat.le_of_lt h
  fract x := by
    simp only [dec]
    constructor
    · intro h
      by_cases hd : x.1.den = 1
      · exact ⟨_, eq_num hd⟩
      · rw [if_neg hd] at h
        rw [h] at hd
        exact absurd rfl hd
    · rintro ⟨n, h⟩
      rw [if_pos (by rw [h]; rfl)]
      rfl
  toI64 x n h := by
    have h1 : x.1.den = 1 := by rw [h]; rfl
    have h2 : x.1.num = n := by rw [h]; rfl
    simp [dec, h1, h2]
  abs x := by
    simp only [dec]
    split
    · exact ofRat_val (representable_neg x.2)
    · rfl
  round x := by
    have h1 := Rat.floor_le (x.1 + 1 / 2)
    have h2 := Rat.lt_floor (x := x.1 + 1 / 2)
    refine ⟨(x.1 + 1 / 2).floor, ofRat_val (representable_int.mpr ?_), by constructor <;> grind⟩
    obtain ⟨h3, h4⟩ := representable_bounded x.2
    unfold maxDecimal at h3 h4
    rw [← Rat.intCast_neg] at h3
    have h5 : ((x.1 + 1 / 2).floor : Rat) < ((2 ^ 96 : Int) : Rat) := by
      have : ((2 ^ 96 - 1 : Int) : Rat) + 1 = (2 ^ 96 : Int) := by decide +kernel
      grind
    have h6 : ((-(2 ^ 96) : Int) : Rat) < ((x.1 + 1 / 2).floor : Rat) := by
      have : ((-(2 ^ 96 - 1) : Int) : Rat) - 1 = (-(2 ^ 96) : Int) := by decide +kernel
      grind
    rw [Rat.intCast_lt_intCast] at h5 h6
    omega
  floor x := by
    refine ⟨x.1.floor, ofRat_val (representable_whole x.2 ?_ ?_), Rat.floor_le x.1, by have := Rat.lt_floor (x := x.1); grind⟩
    · have := Rat.lt_floor (x := x.1); grind
    · have := Rat.floor_le x.1; grind
  ceil x := by
    refine ⟨x.1.ceil, ofRat_val (representable_whole x.2 ?_ ?_), by have := Rat.ceil_lt (x := x.1); grind, Rat.le_ceil⟩
    · have := Rat.le_ceil (x := x.1); grind
    · have := Rat.ceil_lt (x := x.1); grind
  trunc x := by
    obtain ⟨h1, h2⟩ := wholePart_bounds x.1
    refine ofRat_val (representable_whole x.2 ?_ ?_)
    · by_cases h : x.1 < 0
      · have := h2 h; grind
      · have := h1 (by grind); grind
    · by_cases h : x.1 < 0
      · have := h2 h; grind
      · have := h1 (by grind); grind
  roundDp k x n h := h
  third := by decide +kernel
  ln10 := by decide +kernel
  oneMinus := by decide +kernel
  half := by decide +kernel
  precision := by decide +kernel
  piQuarter := by decide +kernel
  e := by decide +kernel
  pi3Half := by decide +kernel
  pi := by decide +kernel
  pi2 := by decide +kernel
  pi2Minus := by decide +kernel
  piHalf := by decide +kernel

end Prexel.Demo
