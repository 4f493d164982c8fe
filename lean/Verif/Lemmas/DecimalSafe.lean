import Verif.Lemmas.Decimal
import Verif.Lemmas.Universal
/-!
# Which functions of decimals never panic
-/

set_option linter.unusedVariables false
set_option linter.unusedSimpArgs false

namespace Prexel
variable {D F : Type} {d : Dec D F}

theorem Bounded.mono {a b q : Rat} (h : Bounded a q) (hab : a ≤ b) : Bounded b q := ⟨by have := h.1; grind, by have := h.2; grind⟩
theorem Bounded.neg {a q : Rat} (h : Bounded a q) : Bounded a (-q) := ⟨by have := h.2; grind, by have := h.1; grind⟩
theorem Bounded.add {a b x y : Rat} (h : Bounded a x) (h' : Bounded b y) : Bounded (a + b) (x + y) := by
  obtain ⟨h1, h2⟩ := h
  obtain ⟨h3, h4⟩ := h'
  constructor <;> grind
theorem Bounded.sub {a b x y : Rat} (h : Bounded a x) (h' : Bounded b y) : Bounded (a + b) (x - y) := by
  obtain ⟨h1, h2⟩ := h
  obtain ⟨h3, h4⟩ := h'
  constructor <;> grind
theorem Bounded.mul {a b x y : Rat} (h : Bounded a x) (h' : Bounded b y) : Bounded (a * b) (x * y) := by
  obtain ⟨h1, h2⟩ := h
  obtain ⟨h3, h4⟩ := h'
  have e1 : 0 ≤ (a - x) * (b + y) := Rat.mul_nonneg (by grind) (by grind)
  have e2 : 0 ≤ (a + x) * (b - y) := Rat.mul_nonneg (by grind) (by grind)
  have e3 : 0 ≤ (a - x) * (b - y) := Rat.mul_nonneg (by grind) (by grind)
  have e4 : 0 ≤ (a + x) * (b + y) := Rat.mul_nonneg (by grind) (by grind)
  constructor <;> grind
theorem Bounded.div {c x y : Rat} (hy : 0 < y) (h : Bounded (c * y) x) : Bounded c (x / y) := by
  obtain ⟨h1, h2⟩ := h
  have e : x / y * y = x := Rat.div_mul_cancel (by grind)
  constructor
  · by_cases hc : -c ≤ x / y
    · exact hc
    · have := Rat.mul_lt_mul_of_pos_right (Rat.not_le.mp hc) hy
      grind
  · by_cases hc : x / y ≤ c
    · exact hc
    · have := Rat.mul_lt_mul_of_pos_right (Rat.not_le.mp hc) hy
      grind

theorem representable_neg {q : Rat} (h : Representable q) : Representable (-q) := by
  obtain ⟨s, hs, c, hc, h⟩ := h
  exact ⟨s, hs, -c, by simpa using hc, by rw [Rat.neg_mul, h, Rat.intCast_neg]⟩

theorem representable_nat {n : Nat} (h : n < 2 ^ 96) : Representable (n : Rat) := by
  have := representable_int (n := (n : Int)).mpr (by simpa using h)
  rwa [Rat.intCast_natCast] at this

theorem Rounded.bounded {z q b : Rat} (h : Rounded z q) (hb : Representable b) (hq : Bounded b q) : Bounded b z :=
  ⟨(h _ (representable_neg hb)).1 hq.1, (h _ hb).2 hq.2⟩

theorem Bounded.max {b q : Rat} (hb : Representable b) (hq : Bounded b q) : Bounded maxDecimal q := hq.mono (representable_bounded hb).2

theorem wholePart_bounds (q : Rat) : (0 ≤ q → (wholePart q : Rat) ≤ q ∧ q < wholePart q + 1 ∧ 0 ≤ (wholePart q : Rat)) ∧
    (q < 0 → q ≤ wholePart q ∧ (wholePart q : Rat) < q + 1 ∧ (wholePart q : Rat) ≤ 0) := by
  unfold wholePart
  constructor
  · intro h
    rw [if_neg (by grind)]
    refine ⟨Rat.floor_le q, by have := Rat.lt_floor (x := q); grind, ?_⟩
    have : (0 : Int) ≤ q.floor := Rat.le_floor_iff.mpr (by simpa using h)
    exact_mod_cast this
  · intro h
    rw [if_pos h]
    refine ⟨Rat.le_ceil, by have := Rat.ceil_lt (x := q); grind, ?_⟩
    have h1 := Rat.ceil_lt (x := q)
    have h2 : (q.ceil : Rat) < ((1 : Int) : Rat) := by grind
    rw [Rat.intCast_lt_intCast] at h2
    have : q.ceil ≤ 0 := by omega
    exact_mod_cast this

/-- The remainder is no larger than either number. -/
theorem wholePart_rem {x y : Rat} (hy : y ≠ 0) :
    Bounded (if x < 0 then -x else x) (x - y * wholePart (x / y)) ∧ Bounded (if y < 0 then -y else y) (x - y * wholePart (x / y)) := by
  have e : y * (x / y) = x := by rw [Rat.mul_comm]; exact Rat.div_mul_cancel hy
  obtain ⟨h1, h2⟩ := wholePart_bounds (x / y)
  by_cases hq : x / y < 0
  · obtain ⟨a, b, c⟩ := h2 hq
    rcases (show y < 0 ∨ 0 < y by grind) with h | h
    · have e1 := Rat.mul_le_mul_of_nonneg_left a (show 0 ≤ -y by grind)
      have e2 := Rat.mul_lt_mul_of_pos_left b (show 0 < -y by grind)
      have e3 := Rat.mul_le_mul_of_nonneg_left c (show 0 ≤ -y by grind)
      constructor <;> constructor <;> split <;> grind
    · have e1 := Rat.mul_le_mul_of_nonneg_left a (show 0 ≤ y by grind)
      have e2 := Rat.mul_lt_mul_of_pos_left b (show 0 < y by grind)
      have e3 := Rat.mul_le_mul_of_nonneg_left c (show 0 ≤ y by grind)
      constructor <;> constructor <;> split <;> grind
  · obtain ⟨a, b, c⟩ := h1 (by grind)
    rcases (show y < 0 ∨ 0 < y by grind) with h | h
    · have e1 := Rat.mul_le_mul_of_nonneg_left a (show 0 ≤ -y by grind)
      have e2 := Rat.mul_lt_mul_of_pos_left b (show 0 < -y by grind)
      have e3 := Rat.mul_le_mul_of_nonneg_left c (show 0 ≤ -y by grind)
      constructor <;> constructor <;> split <;> grind
    · have e1 := Rat.mul_le_mul_of_nonneg_left a (show 0 ≤ y by grind)
      have e2 := Rat.mul_lt_mul_of_pos_left b (show 0 < y by grind)
      have e3 := Rat.mul_le_mul_of_nonneg_left c (show 0 ≤ y by grind)
      constructor <;> constructor <;> split <;> grind

theorem Dec.Laws.remSome (L : d.Laws) (x y : D) (hy : L.val y ≠ 0) :
    ∃ z, d.checkedRem x y = some z ∧ (0 < L.val y → Bounded (L.val y) (L.val z)) ∧ (L.val x = 0 → L.val z = 0) := by
  obtain ⟨z, hz, hv⟩ := L.rem x y hy
  obtain ⟨h1, h2⟩ := wholePart_rem (x := L.val x) hy
  rw [← hv] at h1 h2
  refine ⟨z, hz, fun h => ?_, fun h => ?_⟩
  · rw [if_neg (by grind)] at h2; exact h2
  · rw [h, if_neg (by decide)] at h1
    obtain ⟨a, b⟩ := h1
    grind

namespace Dec.Laws
variable (L : d.Laws)
include L

theorem add_ok {x y : D} {b : Rat} (hb : Representable b) (h : Bounded b (L.val x + L.val y)) : ∃ z, d.add x y = .ok z ∧ Bounded b (L.val z) := by
  obtain ⟨z, hz, hr⟩ := L.add x y (h.max hb)
  exact ⟨z, by simp [Dec.add, Dec.cadd, hz, Ops.orOverflow, Res.ofOption, Res.unwrapNone], hr.bounded hb h⟩
theorem sub_ok {x y : D} {b : Rat} (hb : Representable b) (h : Bounded b (L.val x - L.val y)) : ∃ z, d.sub x y = .ok z ∧ Bounded b (L.val z) := by
  obtain ⟨z, hz, hr⟩ := L.sub x y (h.max hb)
  exact ⟨z, by simp [Dec.sub, Dec.csub, hz, Ops.orOverflow, Res.ofOption, Res.unwrapNone], hr.bounded hb h⟩
theorem mul_ok {x y : D} {b : Rat} (hb : Representable b) (h : Bounded b (L.val x * L.val y)) :
    ∃ z, d.mul x y = .ok z ∧ Rounded (L.val z) (L.val x * L.val y) ∧ Bounded b (L.val z) := by
  obtain ⟨z, hz, hr⟩ := L.mul x y (h.max hb)
  exact ⟨z, by simp [Dec.mul, Dec.cmul, hz, Ops.orOverflow, Res.ofOption, Res.unwrapNone], hr, hr.bounded hb h⟩
theorem div_ok {x y : D} {b : Rat} (hy : L.val y ≠ 0) (hb : Representable b) (h : Bounded b (L.val x / L.val y)) :
    ∃ z, d.div x y = .ok z ∧ Rounded (L.val z) (L.val x / L.val y) ∧ Bounded b (L.val z) := by
  obtain ⟨z, hz, hr⟩ := L.div x y hy (h.max hb)
  exact ⟨z, by simp [Dec.div, Dec.cdiv, hz, Ops.orOverflow, Res.ofOption, Res.unwrapNone], hr, hr.bounded hb h⟩

theorem round_sub (x : D) : Representable (L.val x - L.val (d.round x)) := by
  obtain ⟨n, hn, hb⟩ := L.round x
  rw [hn]
  obtain ⟨s, hs, c, hc, h⟩ := L.range x
  have h0 := ten_pow_pos s
  refine ⟨s, hs, c - n * (10 : Int) ^ s, ?_, by rw [Rat.intCast_sub, Rat.intCast_mul]; grind⟩
  have h1 : (((c - n * (10 : Int) ^ s : Int)) : Rat) = (L.val x - n) * ((10 : Int) ^ s : Int) := by
    rw [Rat.intCast_sub, Rat.intCast_mul]; grind
  have h2 := hb.mul (b := ((10 : Int) ^ s : Int)) (y := ((10 : Int) ^ s : Int)) ⟨by grind, Rat.le_refl⟩
  rw [← h1] at h2
  have h3 : ((10 : Int) ^ s : Int) ≤ (10 : Int) ^ 28 := by
    have := Nat.pow_le_pow_right (n := 10) (by decide) hs
    exact_mod_cast this
  have h4 : (((10 : Int) ^ s : Int) : Rat) ≤ ((10 : Int) ^ 28 : Int) := Rat.intCast_le_intCast.mpr h3
  have h5 : (1 / 2 : Rat) * ((10 : Int) ^ 28 : Int) = (5000000000000000000000000000 : Int) := by decide +kernel
  obtain ⟨h6, h7⟩ := h2
  have h8 : ((c - n * (10 : Int) ^ s : Int) : Rat) ≤ (5000000000000000000000000000 : Int) := by grind
  have h9 : ((-5000000000000000000000000000 : Int) : Rat) ≤ ((c - n * (10 : Int) ^ s : Int) : Rat) := by
    rw [Rat.intCast_neg]; grind
  rw [Rat.intCast_le_intCast] at h8 h9
  omega

/-- `approx` always returns a number, and one within the same whole bound. -/
theorem approx_ok (x : D) : ∃ z, d.approx x = .ok z ∧ (∀ n : Nat, Bounded n (L.val x) → Bounded n (L.val z)) ∧
    (L.val z = 0 ∨ L.val d.precision ≤ L.val (d.abs z)) := by
  obtain ⟨n, hn, hb⟩ := L.round x
  have hr := L.round_sub x
  obtain ⟨w, hw, hwv⟩ := L.csub hr
  have hs : d.sub x (d.round x) = .ok w := by simp [Dec.sub, hw, Res.unwrapNone]
  unfold Dec.approx Dec.approxEq
  simp only [Res.bind_eq, hs, Res.bind_ok, Res.pure_eq]
  refine ⟨_, rfl, fun m hm => ?_, ?_⟩
  case refine_2 =>
    split
    · rw [hn]
      by_cases h0 : n = 0
      · left; rw [h0]; rfl
      · right
        rw [L.precision, L.abs, hn]
        have h1 : (1 : Rat) ≤ (if (n : Rat) < 0 then -(n : Rat) else (n : Rat)) := by
          by_cases hneg : n < 0
          · have : (n : Rat) < 0 := by exact_mod_cast hneg
            rw [if_pos this]
            have : (n : Rat) ≤ -1 := Rat.intCast_le_intCast.mpr (show n ≤ -1 by omega)
            grind
          · have : ¬ (n : Rat) < 0 := by intro h; exact hneg (by exact_mod_cast h)
            rw [if_neg this]
            exact_mod_cast (show 1 ≤ n by omega)
        grind
    · rename_i hlt
      rw [L.lt, L.abs, hwv, hn, L.precision] at hlt
      right
      rw [L.precision, L.abs]
      by_cases h0 : n = 0
      · subst h0
        have e0 : ((0 : Int) : Rat) = 0 := rfl
        rw [e0] at hlt
        have e1 : L.val x - 0 = L.val x := by grind
        rw [e1] at hlt
        exact Rat.not_lt.mp hlt
      · obtain ⟨h1, h2⟩ := hb
        by_cases hneg : n < 0
        · have : (n : Rat) ≤ -1 := Rat.intCast_le_intCast.mpr (show n ≤ -1 by omega)
          rw [if_pos (by grind)]
          grind
        · have : (1 : Rat) ≤ (n : Rat) := by exact_mod_cast (show 1 ≤ n by omega)
          rw [if_neg (by grind)]
          grind
  split
  · rw [hn]
    obtain ⟨h1, h2⟩ := hb
    obtain ⟨h3, h4⟩ := hm
    have h5 : ((n : Int) : Rat) < ((m + 1 : Int) : Rat) := by
      rw [Rat.intCast_add, Rat.intCast_natCast]; grind
    have h6 : ((-(m : Int) - 1 : Int) : Rat) < ((n : Int) : Rat) := by
      rw [Rat.intCast_sub, Rat.intCast_neg, Rat.intCast_natCast]; grind
    rw [Rat.intCast_lt_intCast] at h5 h6
    rw [← Rat.intCast_natCast]
    constructor
    · rw [← Rat.intCast_neg, Rat.intCast_le_intCast]; omega
    · rw [Rat.intCast_le_intCast]; omega
  · exact hm

theorem approxEq_ok {x y : D} {b : Rat} (hb : Representable b) (h : Bounded b (L.val x - L.val y)) (delta : D) :
    ∃ t, d.approxEq x y delta = .ok t := by
  obtain ⟨z, hz, -⟩ := L.sub_ok hb h
  exact ⟨_, by simp only [Dec.approxEq, Res.bind_eq, hz, Res.bind_ok]; rfl⟩

/-- The value of a whole number. -/
theorem nat_val {n : Nat} (h : n < 2 ^ 96) : L.val (d.nat n) = (n : Rat) := by
  rw [L.nat n h, Rat.intCast_natCast]

/-- One step of the Taylor series. -/
theorem taylor_step {xx factor result : D} {n : Nat} {m : Nat → Nat} {A Q B R : Nat} (hx : Bounded A (L.val xx)) (hm : 0 < m n) (hm' : m n < 2 ^ 96)
    (hQ : A ≤ Q * m n) (hf : Bounded B (L.val factor)) (hr : Bounded R (L.val result)) (hbig : B * Q + R < 2 ^ 96) (hQ' : Q < 2 ^ 96) (k : Nat) :
    ∃ factor' result', d.taylor xx m (k + 1) n factor result = d.taylor xx m k (n + 1) factor' result' ∧
      Bounded (B * Q : Nat) (L.val factor') ∧ Bounded (B * Q + R : Nat) (L.val result') := by
  have hv := L.nat_val hm'
  have hpos : (0 : Rat) < (m n : Rat) := by exact_mod_cast hm
  have hd : Bounded (Q : Rat) (L.val (d.neg xx) / L.val (d.nat (m n))) := by
    rw [hv, L.neg]
    refine Bounded.div hpos ((hx.neg).mono ?_)
    exact_mod_cast hQ
  obtain ⟨q, hq, -, hqb⟩ := L.div_ok (by rw [hv]; grind) (representable_nat hQ') hd
  have h1 := hf.mul hqb
  rw [← Rat.natCast_mul] at h1
  obtain ⟨f', hf', -, hfb⟩ := L.mul_ok (representable_nat (by omega)) h1
  have h2 := hr.add hfb
  rw [← Rat.natCast_add, Nat.add_comm] at h2
  obtain ⟨r', hr', hrb⟩ := L.add_ok (representable_nat hbig) h2
  refine ⟨f', r', ?_, hfb, hrb⟩
  simp only [Dec.taylor, Res.bind_eq, hq, Res.bind_ok, hf', hr']

/-- The rest of the Taylor series, once the terms do not grow any more. -/
theorem taylor_ok {xx : D} {m : Nat → Nat} {A : Nat} (hx : Bounded A (L.val xx)) (k : Nat) : ∀ (n B R : Nat) (factor result : D),
    (∀ i, n ≤ i → i < n + k → A ≤ m i ∧ 0 < m i ∧ m i < 2 ^ 96) → Bounded B (L.val factor) → Bounded R (L.val result) → B * k + R < 2 ^ 96 →
    ∃ z, d.taylor xx m k n factor result = .ok z ∧ Bounded (B * k + R : Nat) (L.val z) := by
  induction k with
  | zero => intro n B R f r _ _ hr _; exact ⟨r, rfl, by rw [Nat.mul_zero, Nat.zero_add]; exact hr⟩
  | succ k ih =>
    intro n B R f r hm hf hr hb
    obtain ⟨h1, h2, h3⟩ := hm n (Nat.le_refl _) (by omega)
    rw [Nat.mul_succ] at hb
    obtain ⟨f', r', he, hf', hr'⟩ := L.taylor_step (Q := 1) hx h2 h3 (by omega) hf hr (by omega) (by decide) k
    rw [he]
    rw [Nat.mul_one] at hf' hr'
    obtain ⟨z, hz, hzb⟩ := ih (n + 1) B (B + R) f' r' (fun i hi hi' => hm i (by omega) (by omega)) hf' hr' (by omega)
    refine ⟨z, hz, ?_⟩
    rw [Nat.mul_succ, Nat.add_assoc]
    exact hzb

theorem pi2_pos : 0 < L.val d.pi2 ∧ L.val d.pi2 ≤ 7 := by
  have h := L.pi2
  have e1 : ((10 ^ 28 : Int) : Rat) = 10000000000000000000000000000 := by decide +kernel
  have e2 : ((62831853071795864769252867666 : Int) : Rat) = 62831853071795864769252867666 := by decide +kernel
  rw [e1, e2] at h
  constructor <;> grind
theorem pi_pos : 0 < L.val d.pi ∧ L.val d.pi ≤ 4 := by
  have h := L.pi
  have e1 : ((10 ^ 28 : Int) : Rat) = 10000000000000000000000000000 := by decide +kernel
  have e2 : ((31415926535897932384626433833 : Int) : Rat) = 31415926535897932384626433833 := by decide +kernel
  rw [e1, e2] at h
  constructor <;> grind
theorem piHalf_pos : 0 < L.val d.piHalf ∧ L.val d.piHalf ≤ 2 := by
  have h := L.piHalf
  have e1 : ((10 ^ 28 : Int) : Rat) = 10000000000000000000000000000 := by decide +kernel
  have e2 : ((15707963267948966192313216916 : Int) : Rat) = 15707963267948966192313216916 := by decide +kernel
  rw [e1, e2] at h
  constructor <;> grind
theorem pi3Half_pos : 0 < L.val d.pi3Half ∧ L.val d.pi3Half ≤ 5 := by
  have h := L.pi3Half
  have e1 : ((10 ^ 28 : Int) : Rat) = 10000000000000000000000000000 := by decide +kernel
  have e2 : ((47123889803846898576939650750 : Int) : Rat) = 47123889803846898576939650750 := by decide +kernel
  rw [e1, e2] at h
  constructor <;> grind

theorem piQuarter_bounded : Bounded 1 (L.val d.piQuarter) := by
  have h := L.piQuarter
  have e1 : ((10 ^ 28 : Int) : Rat) = 10000000000000000000000000000 := by decide +kernel
  have e2 : ((7853981633974483096156608458 : Int) : Rat) = 7853981633974483096156608458 := by decide +kernel
  rw [e1, e2] at h
  constructor <;> grind

theorem rem_pi2 (x : D) : ∃ r, d.rem x d.pi2 = .ok r ∧ Bounded 7 (L.val r) ∧ (L.val x = 0 → L.val r = 0) := by
  obtain ⟨h1, h2⟩ := L.pi2_pos
  obtain ⟨r, hr, hb, h0⟩ := L.remSome x d.pi2 (by grind)
  exact ⟨r, by simp [Dec.rem, Dec.crem, hr, Ops.orOverflow, Res.ofOption, Res.unwrapNone], (hb h1).mono h2, h0⟩

theorem abs_bounded {x : D} {b : Rat} (h : Bounded b (L.val x)) : Bounded b (L.val (d.abs x)) := by
  rw [L.abs]
  split
  · exact h.neg
  · exact h

theorem sin_ok (x : D) : ∃ z, d.sin x = .ok z ∧ Bounded ((100000 : Nat) : Rat) (L.val z) := by
  obtain ⟨r, hr, hb, -⟩ := L.rem_pi2 x
  have ha := L.abs_bounded hb
  have hpi := L.pi_pos
  have hpi2 := L.pi2_pos
  have hph := L.piHalf_pos
  have h3 := L.pi3Half_pos
  have rep : Representable 14 := by decide +kernel
  obtain ⟨t1, e1⟩ := L.approxEq_ok (x := d.abs r) (y := d.pi) rep (by obtain ⟨h, h'⟩ := ha; constructor <;> grind) d.precision
  obtain ⟨t2, e2⟩ := L.approxEq_ok (x := d.abs r) (y := d.pi2) rep (by obtain ⟨h, h'⟩ := ha; constructor <;> grind) d.precision
  obtain ⟨t3, e3⟩ := L.approxEq_ok (x := r) (y := d.piHalf) rep (by obtain ⟨h, h'⟩ := hb; constructor <;> grind) d.precision
  obtain ⟨t4, e4⟩ := L.approxEq_ok (x := r) (y := d.pi3Half) rep (by obtain ⟨h, h'⟩ := hb; constructor <;> grind) d.precision
  obtain ⟨t5, e5⟩ := L.approxEq_ok (x := d.abs r) (y := d.piHalf) rep (by obtain ⟨h, h'⟩ := ha; constructor <;> grind) d.precision
  have hmul := hb.mul hb
  obtain ⟨xx, hxx, -, hxb⟩ := L.mul_ok (by decide +kernel) hmul
  have hxb' : Bounded ((49 : Nat) : Rat) (L.val xx) := by
    have : (7 * 7 : Rat) = ((49 : Nat) : Rat) := by decide +kernel
    rwa [this] at hxb
  have hb' : Bounded ((7 : Nat) : Rat) (L.val r) := hb
  obtain ⟨f1, r1, s1, hf1, hr1⟩ := L.taylor_step (m := fun n => (2 * n + 1) * (2 * n)) (n := 1) (Q := 9) hxb' (by decide) (by decide) (by decide)
    hb' hb' (by decide) (by decide) 98
  obtain ⟨f2, r2, s2, hf2, hr2⟩ := L.taylor_step (m := fun n => (2 * n + 1) * (2 * n)) (n := 2) (Q := 3) hxb' (by decide) (by decide) (by decide)
    hf1 hr1 (by decide) (by decide) 97
  obtain ⟨f3, r3, s3, hf3, hr3⟩ := L.taylor_step (m := fun n => (2 * n + 1) * (2 * n)) (n := 3) (Q := 2) hxb' (by decide) (by decide) (by decide)
    hf2 hr2 (by decide) (by decide) 96
  obtain ⟨z, hz, hzb⟩ := L.taylor_ok (m := fun n => (2 * n + 1) * (2 * n)) hxb' 96 4 _ _ f3 r3 (fun i h1 h2 => by
    have : 9 * 8 ≤ (2 * i + 1) * (2 * i) := Nat.mul_le_mul (by omega) (by omega)
    have : (2 * i + 1) * (2 * i) ≤ 300 * 300 := Nat.mul_le_mul (by omega) (by omega)
    exact ⟨by omega, by omega, by omega⟩) hf3 hr3 (by decide)
  obtain ⟨w, hw, hwb, -⟩ := L.approx_ok z
  have hs : d.taylor xx (fun n => (2 * n + 1) * (2 * n)) (Dec.iterations - 1) 1 r r = .ok z := by
    show d.taylor xx _ (98 + 1) 1 r r = _
    rw [s1, s2, s3, hz]
  unfold Dec.sin
  simp only [Res.bind_eq, hr, Res.bind_ok, Res.pure_eq, e1, e2, e3, e4, e5, hxx, hs, hw]
  have v0 : L.val d.zero = 0 := L.nat_val (n := 0) (by decide)
  have v1 : L.val d.one = 1 := L.nat_val (n := 1) (by decide)
  have vm : L.val d.oneMinus = -1 := L.oneMinus
  have b0 : Bounded ((100000 : Nat) : Rat) (L.val d.zero) := by rw [v0]; constructor <;> decide +kernel
  have b1 : Bounded ((100000 : Nat) : Rat) (L.val d.one) := by rw [v1]; constructor <;> decide +kernel
  have bm : Bounded ((100000 : Nat) : Rat) (L.val d.oneMinus) := by rw [vm]; constructor <;> decide +kernel
  have bw : Bounded ((100000 : Nat) : Rat) (L.val w) := hwb _ (hzb.mono (by decide +kernel))
  repeat' split
  all_goals first | exact ⟨_, rfl, b0⟩ | exact ⟨_, rfl, b1⟩ | exact ⟨_, rfl, bm⟩ | exact ⟨_, rfl, bw⟩

theorem cos_ok (x : D) : ∃ z, d.cos x = .ok z ∧ (L.val z = 0 ∨ L.val d.precision ≤ L.val (d.abs z)) := by
  obtain ⟨r, hr, hb, -⟩ := L.rem_pi2 x
  have hph := L.piHalf_pos
  have rep : Representable 14 := by decide +kernel
  obtain ⟨t3, e3⟩ := L.approxEq_ok (x := r) (y := d.piHalf) rep (by obtain ⟨h, h'⟩ := hb; constructor <;> grind) d.precision
  have hmul := hb.mul hb
  obtain ⟨xx, hxx, -, hxb⟩ := L.mul_ok (by decide +kernel) hmul
  have hxb' : Bounded ((49 : Nat) : Rat) (L.val xx) := by
    have : (7 * 7 : Rat) = ((49 : Nat) : Rat) := by decide +kernel
    rwa [this] at hxb
  have v2 : L.val d.two = 2 := L.nat_val (n := 2) (by decide)
  obtain ⟨f, hf, -, hfb⟩ := L.div_ok (x := d.neg xx) (y := d.two) (b := ((25 : Nat) : Rat)) (by rw [v2]; decide) (by decide +kernel) (by
    rw [v2, L.neg]
    exact Bounded.div (by decide) (hxb'.neg.mono (by decide +kernel)))
  have v1 : L.val d.one = 1 := L.nat_val (n := 1) (by decide)
  obtain ⟨s, hs, hsb⟩ := L.add_ok (x := d.one) (y := f) (b := ((26 : Nat) : Rat)) (by decide +kernel) (by
    rw [v1]
    obtain ⟨h, h'⟩ := hfb
    have e : ((25 : Nat) : Rat) = 25 := rfl
    have e' : ((26 : Nat) : Rat) = 26 := rfl
    rw [e] at h h'
    rw [e']
    constructor <;> grind)
  obtain ⟨f1, r1, s1, hf1, hr1⟩ := L.taylor_step (m := fun n => 2 * n * (2 * n - 1)) (n := 2) (Q := 5) hxb' (by decide) (by decide) (by decide)
    hfb hsb (by decide) (by decide) 97
  obtain ⟨f2, r2, s2, hf2, hr2⟩ := L.taylor_step (m := fun n => 2 * n * (2 * n - 1)) (n := 3) (Q := 2) hxb' (by decide) (by decide) (by decide)
    hf1 hr1 (by decide) (by decide) 96
  obtain ⟨z, hz, -⟩ := L.taylor_ok (m := fun n => 2 * n * (2 * n - 1)) hxb' 96 4 _ _ f2 r2 (fun i h1 h2 => by
    have : 8 * 7 ≤ (2 * i) * (2 * i - 1) := Nat.mul_le_mul (by omega) (by omega)
    have : (2 * i) * (2 * i - 1) ≤ 300 * 300 := Nat.mul_le_mul (by omega) (by omega)
    exact ⟨by omega, by omega, by omega⟩) hf2 hr2 (by decide)
  obtain ⟨w, hw, -, hwb⟩ := L.approx_ok z
  have ht : d.taylor xx (fun n => 2 * n * (2 * n - 1)) (Dec.iterations - 2) 2 f s = .ok z := by
    show d.taylor xx _ (97 + 1) 2 f s = _
    rw [s1, s2, hz]
  unfold Dec.cos
  simp only [Res.bind_eq, hr, Res.bind_ok, Res.pure_eq, e3, hxx, hf, hs, ht, hw]
  split
  · refine ⟨_, rfl, .inr ?_⟩
    rw [L.precision, L.abs, v1, if_neg (by decide)]
    decide +kernel
  split
  · exact ⟨_, rfl, .inl (L.nat_val (n := 0) (by decide))⟩
  · exact ⟨_, rfl, hwb⟩

theorem tan_ne_panic (x : D) : d.tan x ≠ .panic := by
  obtain ⟨c, hc, hcb⟩ := L.cos_ok x
  obtain ⟨s, hs, hsb⟩ := L.sin_ok x
  unfold Dec.tan
  simp only [Res.bind_eq, hc, Res.bind_ok, hs]
  split
  · simp
  · rename_i h0
    rw [L.isZero] at h0
    rcases hcb with hcb | hcb
    · exact absurd hcb h0
    · rw [L.precision, L.abs] at hcb
      have e : ((100000 : Nat) : Rat) = 100000 := rfl
      rw [e] at hsb
      obtain ⟨q, hq, -, -⟩ := L.div_ok (x := s) (y := c) (b := 1000000000000000000000) h0 (by decide +kernel) (by
        obtain ⟨h1, h2⟩ := hsb
        split at hcb
        · have e : L.val s / L.val c = -(L.val s / (- L.val c)) := by grind
          rw [e]
          exact (Bounded.div (by grind) ⟨by grind, by grind⟩).neg
        · exact Bounded.div (by grind) ⟨by grind, by grind⟩)
      obtain ⟨w, hw, -⟩ := L.approx_ok q
      rw [hq, Res.bind_ok, hw]
      simp

theorem toRadians_ok (x : D) : ∃ z, d.toRadians x = .ok z := by
  have hpi := L.pi_pos
  have v : L.val (d.nat 180) = 180 := L.nat_val (n := 180) (by decide)
  obtain ⟨k, hk, -, hkb⟩ := L.div_ok (x := d.pi) (y := d.nat 180) (b := 1) (by rw [v]; decide) (by decide +kernel) (by
    rw [v]
    exact Bounded.div (by decide) ⟨by grind, by grind⟩)
  have h := (representable_bounded (L.range x)).mul hkb
  rw [Rat.mul_one] at h
  obtain ⟨y, hy, -, -⟩ := L.mul_ok (by decide +kernel) h
  obtain ⟨w, hw, -⟩ := L.approx_ok y
  exact ⟨w, by simp only [Dec.toRadians, Res.bind_eq, hk, Res.bind_ok, hy, hw]⟩

theorem atanLoop_ok {x : D} (hx : Bounded 1 (L.val x)) (k : Nat) : ∀ (result : D), k < 100 → 1 ≤ L.val result →
    ∃ z, d.atanLoop x k result = .ok z ∧ 1 ≤ L.val z := by
  induction k with
  | zero => intro r _ h; exact ⟨r, rfl, h⟩
  | succ k ih =>
    intro r hk hr
    have v1 := L.nat_val (n := k + 1) (by omega)
    have v2 := L.nat_val (n := k + 2) (by omega)
    have v3 : L.val d.two = 2 := L.nat_val (n := 2) (by decide)
    have v4 : L.val d.three = 3 := L.nat_val (n := 3) (by decide)
    have hk1 : ((k + 1 : Nat) : Rat) ≤ 100 := by exact_mod_cast (show k + 1 ≤ 100 by omega)
    have hk0 : (1 : Rat) ≤ ((k + 1 : Nat) : Rat) := by exact_mod_cast (show 1 ≤ k + 1 by omega)
    obtain ⟨z, hz, -, hzb⟩ := L.mul_ok (x := x) (y := d.nat (k + 1)) (b := 100) (by decide +kernel) (by
      have := hx.mul (b := 100) (y := L.val (d.nat (k + 1))) (by rw [v1]; constructor <;> grind)
      rwa [Rat.one_mul] at this)
    have hzz := hzb.mul hzb
    obtain ⟨z2, hz2, hrd, hz2b⟩ := L.mul_ok (by decide +kernel) hzz
    have hz20 : 0 ≤ L.val z2 := (hrd 0 (by decide +kernel)).1 (by
      by_cases h : 0 ≤ L.val z
      · exact Rat.mul_nonneg h h
      · have := Rat.mul_nonneg (a := - L.val z) (b := - L.val z) (by grind) (by grind)
        grind)
    obtain ⟨q, hq, hrd, hqb⟩ := L.div_ok (x := z2) (y := r) (b := 100 * 100) (by grind) (by decide +kernel) (by
      refine Bounded.div (by grind) (hz2b.mono ?_)
      have := Rat.mul_le_mul_of_nonneg_left hr (c := 100 * 100) (by decide +kernel)
      rwa [Rat.mul_one] at this)
    have hq0 : 0 ≤ L.val q := (hrd 0 (by decide +kernel)).1 (by
      by_cases h : 0 ≤ L.val z2 / L.val r
      · exact h
      · have h5 := Rat.mul_lt_mul_of_pos_right (Rat.not_le.mp h) (c := L.val r) (by grind)
        rw [Rat.div_mul_cancel (by grind), Rat.zero_mul] at h5
        grind)
    obtain ⟨t, ht, htv⟩ := L.cmul (x := d.two) (y := d.nat (k + 2)) (by
      rw [v2, v3]
      have := representable_nat (n := 2 * (k + 2)) (by omega)
      rwa [Rat.natCast_mul] at this)
    have ht' : d.mul d.two (d.nat (k + 2)) = .ok t := by simp [Dec.mul, ht, Res.unwrapNone]
    have htv' : L.val t = ((2 * (k + 2) : Nat) : Rat) := by rw [htv, v2, v3, Rat.natCast_mul]; rfl
    obtain ⟨c, hc, hcv⟩ := L.csub (x := t) (y := d.three) (by
      rw [htv', v4]
      have := representable_nat (n := 2 * k + 1) (by omega)
      have e : ((2 * (k + 2) : Nat) : Rat) - 3 = ((2 * k + 1 : Nat) : Rat) := by push_cast; grind
      rwa [e])
    have hc' : d.sub t d.three = .ok c := by simp [Dec.sub, hc, Res.unwrapNone]
    have hcv' : L.val c = ((2 * k + 1 : Nat) : Rat) := by rw [hcv, htv', v4]; push_cast; grind
    have hc1 : 1 ≤ L.val c := by rw [hcv']; exact_mod_cast (show 1 ≤ 2 * k + 1 by omega)
    have hc2 : L.val c ≤ 300 := by rw [hcv']; exact_mod_cast (show 2 * k + 1 ≤ 300 by omega)
    obtain ⟨h1, h2⟩ := hqb
    obtain ⟨r', hr', -⟩ := L.add_ok (x := q) (y := c) (b := 100 * 100 + 300) (by decide +kernel) (by constructor <;> grind)
    obtain ⟨r'', hr'', hrd⟩ := L.add q c (Bounded.max (b := 100 * 100 + 300) (by decide +kernel) (by constructor <;> grind))
    have he : r' = r'' := by
      simp [Dec.add, Dec.cadd, hr'', Ops.orOverflow, Res.ofOption, Res.unwrapNone] at hr'
      exact hr'.symm
    subst he
    have hr1 : 1 ≤ L.val r' := (hrd 1 (by decide +kernel)).1 (by grind)
    obtain ⟨w, hw, hw1⟩ := ih r' (by omega) hr1
    exact ⟨w, by simp only [Dec.atanLoop, Res.bind_eq, hz, Res.bind_ok, hz2, hq, ht', hc', hr', hw], hw1⟩

/-- The arctangent between -1 and 1. -/
theorem atan_small (depth : Nat) {x : D} (hx : Bounded 1 (L.val x)) :
    ∃ z, d.atanDepth (depth + 1) x = .ok z ∧ Bounded 1 (L.val z) := by
  have v0 : L.val d.zero = 0 := L.nat_val (n := 0) (by decide)
  have v1 : L.val d.one = 1 := L.nat_val (n := 1) (by decide)
  have vm : L.val d.oneMinus = -1 := L.oneMinus
  have hq := L.piQuarter_bounded
  unfold Dec.atanDepth
  split
  · exact ⟨_, rfl, by rw [v0]; constructor <;> decide +kernel⟩
  split
  · exact ⟨_, rfl, hq⟩
  split
  · exact ⟨_, rfl, by rw [L.neg]; exact hq.neg⟩
  obtain ⟨h1, h2⟩ := hx
  split
  · rename_i h
    rw [L.lt, vm] at h
    grind
  split
  · rename_i h
    rw [L.lt, v1] at h
    grind
  have v3 : L.val d.two = 2 := L.nat_val (n := 2) (by decide)
  have v4 : L.val (d.nat Dec.iterations) = 100 := L.nat_val (n := 100) (by decide)
  obtain ⟨t, ht, htv⟩ := L.cmul (x := d.two) (y := d.nat Dec.iterations) (by rw [v3, v4]; decide +kernel)
  rw [v3, v4] at htv
  have ht' : d.mul d.two (d.nat Dec.iterations) = .ok t := by simp [Dec.mul, ht, Res.unwrapNone]
  obtain ⟨c, hc, hcv⟩ := L.csub (x := t) (y := d.one) (by rw [htv, v1]; decide +kernel)
  rw [htv, v1] at hcv
  have hc' : d.sub t d.one = .ok c := by simp [Dec.sub, hc, Res.unwrapNone]
  obtain ⟨r, hr, hr1⟩ := L.atanLoop_ok ⟨h1, h2⟩ (Dec.iterations - 1) c (by decide) (by rw [hcv]; decide +kernel)
  obtain ⟨q, hq, -, hqb⟩ := L.div_ok (x := x) (y := r) (b := 1) (by grind) (by decide +kernel) (by
    exact Bounded.div (by grind) ⟨by grind, by grind⟩)
  obtain ⟨w, hw, hwb, -⟩ := L.approx_ok q
  refine ⟨w, ?_, hwb 1 hqb⟩
  simp only [Res.bind_eq, ht', Res.bind_ok, hc', hr, hq, hw]

theorem atan_ok (x : D) : ∃ z, d.atan x = .ok z := by
  have v1 : L.val d.one = 1 := L.nat_val (n := 1) (by decide)
  have vm : L.val d.oneMinus = -1 := L.oneMinus
  have hph := L.piHalf_pos
  by_cases hx : Bounded 1 (L.val x)
  · obtain ⟨z, hz, -⟩ := L.atan_small 2 hx
    exact ⟨z, hz⟩
  · have hx' : L.val x < -1 ∨ 1 < L.val x := by
      by_cases h : L.val x < -1
      · exact .inl h
      · by_cases h' : 1 < L.val x
        · exact .inr h'
        · exact absurd ⟨by grind, by grind⟩ hx
    obtain ⟨y, hy, -, hyb⟩ := L.div_ok (x := d.one) (y := x) (b := 1) (by grind) (by decide +kernel) (by
      rw [v1]
      rcases hx' with h | h
      · have e : (1 : Rat) / L.val x = -(1 / (- L.val x)) := by grind
        rw [e]
        exact (Bounded.div (by grind) ⟨by grind, by grind⟩).neg
      · exact Bounded.div (by grind) ⟨by grind, by grind⟩)
    obtain ⟨a, ha, hab⟩ := L.atan_small 1 hyb
    obtain ⟨h1, h2⟩ := hab
    obtain ⟨u, hu, -⟩ := L.sub_ok (x := d.neg d.piHalf) (y := a) (b := 3) (by decide +kernel) (by rw [L.neg]; constructor <;> grind)
    obtain ⟨v, hv, -⟩ := L.sub_ok (x := d.piHalf) (y := a) (b := 3) (by decide +kernel) (by constructor <;> grind)
    unfold Dec.atan Dec.atanDepth
    simp only [Res.bind_eq, hy, Res.bind_ok, ha, hu, hv]
    split
    · exact ⟨_, rfl⟩
    split
    · exact ⟨_, rfl⟩
    split
    · exact ⟨_, rfl⟩
    split
    · exact ⟨_, rfl⟩
    split
    · exact ⟨_, rfl⟩
    rename_i h3 h4
    rw [L.lt, vm] at h3
    rw [L.lt, v1] at h4
    rcases hx' with h | h
    · exact absurd h h3
    · exact absurd h h4

end Dec.Laws

namespace Dec

theorem orOverflow_ne_panic {α : Type} (x : Option α) : Ops.orOverflow x ≠ .panic := by
  cases x <;> simp [Ops.orOverflow, Res.ofOption]

theorem cadd_ne_panic (d : Dec D F) (x y : D) : d.cadd x y ≠ .panic := orOverflow_ne_panic _
theorem csub_ne_panic (d : Dec D F) (x y : D) : d.csub x y ≠ .panic := orOverflow_ne_panic _
theorem cmul_ne_panic (d : Dec D F) (x y : D) : d.cmul x y ≠ .panic := orOverflow_ne_panic _
theorem cdiv_ne_panic (d : Dec D F) (x y : D) : d.cdiv x y ≠ .panic := orOverflow_ne_panic _
theorem crem_ne_panic (d : Dec D F) (x y : D) : d.crem x y ≠ .panic := orOverflow_ne_panic _

theorem Laws.approx_ne_panic (L : d.Laws) (x : D) : d.approx x ≠ .panic := by
  obtain ⟨z, hz, -⟩ := L.approx_ok x
  rw [hz]; simp

theorem cbrt_ne_panic (d : Dec D F) (x : D) : d.cbrt x ≠ .panic := by
  have : ∀ n y, d.cbrtLoop x n y ≠ .panic := by
    intro n
    induction n with
    | zero => intro y; simp [Dec.cbrtLoop]
    | succ n ih =>
      intro y
      unfold Dec.cbrtLoop
      exact Res.bind_ne_panic (d.cmul_ne_panic _ _) fun _ _ => Res.bind_ne_panic (d.cmul_ne_panic _ _) fun _ _ =>
        Res.bind_ne_panic (d.cdiv_ne_panic _ _) fun _ _ => Res.bind_ne_panic (d.cadd_ne_panic _ _) fun _ _ =>
        Res.bind_ne_panic (d.cmul_ne_panic _ _) fun _ _ => ih _
  unfold Dec.cbrt
  split
  · simp
  · exact this _ _

theorem Laws.exp_ne_panic (L : d.Laws) (x : D) : d.exp x ≠ .panic := by
  have hloop : ∀ a0 k b r, d.expLoop a0 k b r ≠ .panic := by
    intro a0 k
    induction k with
    | zero => intro b r; simp [Dec.expLoop]
    | succ k ih =>
      intro b r
      unfold Dec.expLoop
      exact Res.bind_ne_panic (d.cdiv_ne_panic _ _) fun _ _ => Res.bind_ne_panic (d.cadd_ne_panic _ _) fun _ _ => ih _ _
  unfold Dec.exp
  split
  · simp
  split
  · simp
  · exact Res.bind_ne_panic (d.cmul_ne_panic _ _) fun _ _ => Res.bind_ne_panic (hloop _ _ _ _) fun _ _ =>
      Res.bind_ne_panic (d.csub_ne_panic _ _) fun _ _ => Res.bind_ne_panic (d.cdiv_ne_panic _ _) fun _ _ =>
      Res.bind_ne_panic (d.cadd_ne_panic _ _) fun _ _ => Res.bind_ne_panic (d.cmul_ne_panic _ _) fun _ _ =>
      Res.bind_ne_panic (d.cdiv_ne_panic _ _) fun _ _ => Res.bind_ne_panic (d.cadd_ne_panic _ _) fun _ _ => L.approx_ne_panic _

theorem powiNat_ne_panic (d : Dec D F) (x : D) (e : Nat) (h : e < 2 ^ 64) : d.powiNat x e ≠ .panic := by
  have hloop : ∀ fuel r b e, e < 2 ^ fuel → d.powiLoop fuel r b e ≠ .panic := by
    intro fuel
    induction fuel with
    | zero => intro r b e h; simp at h; simp [Dec.powiLoop, h]
    | succ fuel ih =>
      intro r b e h
      unfold Dec.powiLoop
      split
      · have h2 : e < 2 ^ fuel * 2 := by rw [← Nat.pow_succ]; exact h
        by_cases ho : e % 2 ≠ 0
        · rw [if_pos ho]
          simp only [Res.bind_eq, Res.pure_eq, Res.bind_assoc, Res.bind_ok]
          exact Res.bind_ne_panic (d.cmul_ne_panic _ _) fun _ _ => Res.bind_ne_panic (d.cmul_ne_panic _ _) fun _ _ => ih _ _ _ (by omega)
        · rw [if_neg ho]
          simp only [Res.bind_eq, Res.pure_eq, Res.bind_ok]
          exact Res.bind_ne_panic (d.cmul_ne_panic _ _) fun _ _ => ih _ _ _ (by omega)
      · simp
  unfold Dec.powiNat
  split
  · simp
  split
  · simp
  · exact hloop _ _ _ _ h

theorem powi_ne_panic (d : Dec D F) (x : D) (e : Nat) (h : e < 2 ^ 64) : d.powi x (e : Nat) ≠ .panic := by
  unfold Dec.powi
  rw [if_neg (by omega), Int.natAbs_natCast]
  exact d.powiNat_ne_panic x e h

theorem lnSeries_ne_panic (d : Dec D F) (x : D) (k : Nat) : ∀ (n : Nat) (r : D), n + k < 2 ^ 63 → d.lnSeries x k n r ≠ .panic := by
  induction k with
  | zero => intro n r _; simp [Dec.lnSeries]
  | succ k ih =>
    intro n r h
    unfold Dec.lnSeries
    exact Res.bind_ne_panic (d.powi_ne_panic _ _ (by omega)) fun _ _ => Res.bind_ne_panic (d.csub_ne_panic _ _) fun _ _ =>
      Res.bind_ne_panic (d.powi_ne_panic _ _ (by omega)) fun _ _ => Res.bind_ne_panic (d.cdiv_ne_panic _ _) fun _ _ =>
      Res.bind_ne_panic (d.cmul_ne_panic _ _) fun _ _ => Res.bind_ne_panic (d.cadd_ne_panic _ _) fun _ _ => ih _ _ (by omega)

/-- The scaling loop of the logarithm ends, with a number that is at most one. -/
theorem Laws.lnScale_ok (L : d.Laws) (fuel : Nat) : ∀ (j : Nat) (a : D) (n : Nat), j ≤ fuel → j ≤ 29 → L.val a ≤ ((10 ^ j : Nat) : Rat) →
    ∃ r, d.lnScale fuel a n = .ok r ∧ L.val r.1 ≤ 1 := by
  have v1 : L.val d.one = 1 := L.nat_val (n := 1) (by decide)
  have v10 : L.val d.ten = 10 := L.nat_val (n := 10) (by decide)
  induction fuel with
  | zero =>
    intro j a n hj _ ha
    have : j = 0 := by omega
    subst this
    have ha' : L.val a ≤ 1 := ha
    have hl : ¬ d.lt d.one a = true := by rw [L.lt, v1]; grind
    exact ⟨(a, n), by simp [Dec.lnScale, hl], ha'⟩
  | succ fuel ih =>
    intro j a n hj hj' ha
    unfold Dec.lnScale
    by_cases hl : d.lt d.one a = true
    · rw [if_pos hl]
      rw [L.lt, v1] at hl
      cases j with
      | zero =>
        have ha' : L.val a ≤ 1 := ha
        grind
      | succ j =>
        have hrep : Representable ((10 ^ j : Nat) : Rat) := by
          have : (10 : Nat) ^ j ≤ 10 ^ 28 := Nat.pow_le_pow_right (by decide) (by omega)
          exact representable_nat (by omega)
        have hb : Bounded ((10 ^ j : Nat) : Rat) (L.val a / L.val d.ten) := by
          rw [v10]
          rw [Nat.pow_succ, Rat.natCast_mul] at ha
          have ha' : L.val a ≤ ((10 ^ j : Nat) : Rat) * 10 := ha
          exact Bounded.div (by decide) ⟨by grind, ha'⟩
        obtain ⟨z, hz, hr⟩ := L.div a d.ten (by rw [v10]; decide) (hb.max hrep)
        have hz' : d.cdiv a d.ten = .ok z := by simp [Dec.cdiv, hz, Ops.orOverflow, Res.ofOption]
        simp only [Res.bind_eq, hz', Res.bind_ok]
        exact ih j z (n + 1) (by omega) (by omega) (hr.bounded hrep hb).2
    · rw [if_neg hl]
      rw [L.lt, v1] at hl
      exact ⟨(a, n), rfl, by show L.val a ≤ 1; grind⟩

theorem Laws.lnSmall_ne_panic (L : d.Laws) (depth : Nat) {x : D} (hx : L.val x ≤ 1) : d.lnDepth (depth + 1) x ≠ .panic := by
  have v1 : L.val d.one = 1 := L.nat_val (n := 1) (by decide)
  unfold Dec.lnDepth
  split
  · simp
  split
  · simp
  rename_i h1
  rw [L.isOne] at h1
  have : d.lt x d.one = true := by rw [L.lt, v1]; grind
  rw [this]
  simp only [Bool.not_true, Bool.false_eq_true, if_false]
  exact Res.bind_ne_panic (d.lnSeries_ne_panic _ _ _ _ (by decide)) fun _ _ => L.approx_ne_panic _

theorem Laws.ln_ne_panic (L : d.Laws) (hfuel : 100 ≤ d.fuel) (x : D) : d.ln x ≠ .panic := by
  have v1 : L.val d.one = 1 := L.nat_val (n := 1) (by decide)
  by_cases hx : L.val x ≤ 1
  · exact L.lnSmall_ne_panic 2 hx
  · unfold Dec.ln Dec.lnDepth
    split
    · simp
    split
    · simp
    split
    · obtain ⟨r, hr, hr1⟩ := L.lnScale_ok d.fuel 29 x 0 (by omega) (by omega) (by
        have := (representable_bounded (L.range x)).2
        have h : maxDecimal ≤ ((10 ^ 29 : Nat) : Rat) := by decide +kernel
        grind)
      simp only [Res.bind_eq, hr, Res.bind_ok]
      exact Res.bind_ne_panic (L.lnSmall_ne_panic 1 hr1) fun _ _ => Res.bind_ne_panic (d.cmul_ne_panic _ _) fun _ _ => d.cadd_ne_panic _ _
    · exact Res.bind_ne_panic (d.lnSeries_ne_panic _ _ _ _ (by decide)) fun _ _ => L.approx_ne_panic _

theorem Laws.log_ne_panic (L : d.Laws) (hfuel : 100 ≤ d.fuel) (x b : D) : d.log x b ≠ .panic := by
  unfold Dec.log
  refine Res.bind_ne_panic (L.ln_ne_panic hfuel _) fun _ _ => ?_
  split
  · exact d.cdiv_ne_panic _ _
  · exact Res.bind_ne_panic (L.ln_ne_panic hfuel _) fun _ _ => d.cdiv_ne_panic _ _

end Dec
end Prexel
