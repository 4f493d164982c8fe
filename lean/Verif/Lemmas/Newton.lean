import Verif.Spec.Rounding
import Verif.Lemmas.DecimalSqrt
import Mathlib.RingTheory.Coprime.Lemmas
/-!
# Heron's method in whole numbers, with rounding half to even
-/

namespace Prexel

/-- One round for the root of `X` from `R`: `Q` is `X / R` rounded, `T` half of `Q + R` rounded. -/
structure Heron (X R Q T : Int) : Prop where
  q1 : 2 * Q * R ≤ 2 * X + R
  q2 : 2 * X - R ≤ 2 * Q * R
  q3 : 2 * Q * R = 2 * X + R ∨ 2 * Q * R = 2 * X - R → Q % 2 = 0
  t1 : 2 * T ≤ Q + R + 1
  t2 : Q + R - 1 ≤ 2 * T
  t3 : 2 * T = Q + R + 1 ∨ 2 * T = Q + R - 1 → T % 2 = 0

namespace Heron
variable {X R Q T a : Int}

/-- Never below the root. -/
theorem lower (h : Heron X R Q T) (hR : 0 < R) (ha : a * a ≤ X) : a ≤ T := by
  by_contra hc
  push Not at hc
  have h1 : 2 * T ≤ 2 * a - 2 := by omega
  have h2 := h.t2
  have h3 : Q + R - 1 ≤ 2 * a - 2 := by omega
  have h4 : 2 * (Q + R - 1) * R ≤ 2 * (2 * a - 2) * R := by nlinarith
  nlinarith [h.q2, sq_nonneg (a - R)]

/-- Above the root the distance is squared, and divided by twice the root. -/
theorem upper (h : Heron X R Q T) (hR : 0 < R) (ha : X < (a + 1) * (a + 1)) :
    4 * R * (T - (a + 1)) ≤ 2 * (R - (a + 1)) ^ 2 + 3 * R := by
  have h1 := h.t1
  have h2 : 2 * (2 * T) * R ≤ 2 * (Q + R + 1) * R := by nlinarith
  nlinarith [h.q1]

/-- No third neighbour. -/
theorem near (h : Heron X R Q T) (hR : 0 < R) (ha : X < (a + 1) * (a + 1)) {k : Int} (h1 : R - (a + 1) ≤ k) (h2 : -k ≤ R - (a + 1))
    (hk : 2 * k ^ 2 < R) : T ≤ a + 1 := by
  by_contra hc
  push Not at hc
  have := h.upper hR ha
  have h3 : (R - (a + 1)) ^ 2 ≤ k ^ 2 := sq_le_sq' h2 h1
  nlinarith

/-- A fixed point is a neighbour of the root. -/
theorem fixed (h : Heron X R Q R) (hR : 2 < R) (h1 : a * a ≤ X) (h2 : X < (a + 1) * (a + 1)) (_ha : 0 ≤ a) : R = a ∨ R = a + 1 := by
  have l := h.lower (by omega) h1
  have u := h.upper (by omega) h2
  have : R ≤ a + 1 := by
    by_contra hc
    push Not at hc
    obtain ⟨k, rfl⟩ : ∃ k, R = a + 1 + k := ⟨R - (a + 1), by ring⟩
    have hk : 1 ≤ k := by omega
    have e : a + 1 + k - (a + 1) = k := by ring
    rw [e] at u
    rcases hk.eq_or_lt with rfl | hk
    · linarith
    · nlinarith
  omega

/-- Back and forth happens only here. -/
theorem cycle {Q' : Int} (h1 : Heron X a Q (a + 1)) (h2 : Heron X (a + 1) Q' a) (ha : 0 < a) : a % 2 = 0 ∧ 2 * X = 2 * (a * a) + 3 * a := by
  rcases Int.emod_two_eq_zero_or_one a with he | ho
  · refine ⟨he, ?_⟩
    have q1 : a + 2 ≤ Q := by
      have t := h1.t1
      by_contra hc
      have : Q = a + 1 - 0 := by omega
      have := h1.t3 (.inl (by omega))
      omega
    have q2 : Q' ≤ a := by have := h2.t2; omega
    have e1 : 2 * (a + 2) * a ≤ 2 * X + a := by nlinarith [h1.q1]
    have e2 : 2 * X - (a + 1) ≤ 2 * a * (a + 1) := by nlinarith [h2.q2]
    have hb : ∃ b, a = 2 * b := ⟨a / 2, by omega⟩
    obtain ⟨b, rfl⟩ := hb
    have e3 : 2 * X ≥ 8 * (b * b) + 6 * b := by nlinarith
    have e4 : 2 * X ≤ 8 * (b * b) + 6 * b + 1 := by nlinarith
    have e5 : 2 * (2 * b * (2 * b)) + 3 * (2 * b) = 8 * (b * b) + 6 * b := by ring
    omega
  · exfalso
    have q1 : a + 1 ≤ Q := by have := h1.t1; omega
    have q2 : Q' ≤ a - 1 := by
      have t := h2.t2
      by_contra hc
      have := h2.t3 (.inr (by omega))
      omega
    have e1 : 2 * (a + 1) * a ≤ 2 * X + a := by nlinarith [h1.q1]
    have e2 : 2 * X - (a + 1) ≤ 2 * (a - 1) * (a + 1) := by nlinarith [h2.q2]
    nlinarith

/-- There it does happen: the lower neighbour is followed by the upper one. -/
theorem cycle_up (h : Heron X a Q T) (ha : 0 < a) (he : a % 2 = 0) (hX : 2 * X = 2 * (a * a) + 3 * a) : T = a + 1 := by
  have q1 : a + 1 ≤ Q := by
    by_contra hc
    have : Q ≤ a := by omega
    nlinarith [h.q2]
  have q2 : Q ≤ a + 2 := by
    by_contra hc
    have : a + 3 ≤ Q := by omega
    nlinarith [h.q1]
  have q3 : Q = a + 2 := by
    by_contra hc
    have hq : Q = a + 1 := by omega
    have := h.q3 (.inr (by subst hq; linarith))
    omega
  have := h.t1
  have := h.t2
  by_contra hc
  have : T % 2 = 0 := h.t3 (by omega)
  omega

/-- And the upper one by the lower one. -/
theorem cycle_down (h : Heron X (a + 1) Q T) (ha : 0 < a) (he : a % 2 = 0) (hX : 2 * X = 2 * (a * a) + 3 * a) : T = a := by
  have q1 : a ≤ Q := by
    by_contra hc
    have : Q ≤ a - 1 := by omega
    nlinarith [h.q2]
  have q2 : Q ≤ a := by
    by_contra hc
    have : a + 1 ≤ Q := by omega
    nlinarith [h.q1]
  have q3 : Q = a := by omega
  have := h.t1
  have := h.t2
  by_contra hc
  have : T % 2 = 0 := h.t3 (by omega)
  omega

/-- The root of a square is found exactly. -/
theorem square (h : Heron (a * a) (a + 1) Q (a + 1)) (ha : 1 < a) : False := by
  have q1 : a ≤ Q := by have := h.t1; omega
  nlinarith [h.q1]

end Heron

theorem coprime_five {b : Int} (h : ¬ (5 : Int) ∣ b) : IsCoprime (5 : Int) b := by
  have hb : b % 5 = 1 ∨ b % 5 = 2 ∨ b % 5 = 3 ∨ b % 5 = 4 := by omega
  rcases hb with hb | hb | hb | hb
  · exact ⟨-(b / 5), 1, by omega⟩
  · exact ⟨1 + 2 * (b / 5), -2, by omega⟩
  · exact ⟨-1 - 2 * (b / 5), 2, by omega⟩
  · exact ⟨1 + b / 5, -1, by omega⟩

theorem solve_five {c c₀ : Int} (h : (5 ^ 28 : Int) ∣ 2 ^ 28 * (c - c₀)) : ∃ j, c = c₀ + 37252902984619140625 * j := by
  have h2 : IsCoprime (5 ^ 28 : Int) (2 ^ 28) := IsCoprime.pow ⟨1, -2, by norm_num⟩
  obtain ⟨j, hj⟩ := h2.dvd_of_dvd_mul_left h
  exact ⟨j, by rw [show (37252902984619140625 : Int) = 5 ^ 28 by norm_num, ← hj]; ring⟩

/-- The exceptions, for numbers with 28 digits behind the point and roots below 39 * 10^27: only two. -/
theorem heron_exceptions {a m : Int} (h0 : 0 < a) (h39 : a < 39 * 10 ^ 27) (he : a % 2 = 0) (h : 2 * (m * 10 ^ 28) = 2 * (a * a) + 3 * a) :
    m = 39720354828415177818323744671 ∨ m = 40000000000000000000000000003 := by
  obtain ⟨b, rfl⟩ : ∃ b, a = 2 * b := ⟨a / 2, by omega⟩
  have h1 : m * 10 ^ 28 = b * (4 * b + 3) := by nlinarith
  have hd2 : (2 ^ 28 : Int) ∣ b * (4 * b + 3) := ⟨m * 5 ^ 28, by rw [← h1]; ring⟩
  have c2 : IsCoprime (2 ^ 28 : Int) (4 * b + 3) := by
    refine IsCoprime.pow_left ?_
    exact ⟨-(2 * b + 1), 1, by ring⟩
  have d2 : (2 ^ 28 : Int) ∣ b := c2.dvd_of_dvd_mul_right hd2
  have hd5 : (5 ^ 28 : Int) ∣ b * (4 * b + 3) := ⟨m * 2 ^ 28, by rw [← h1]; ring⟩
  have d5 : (5 ^ 28 : Int) ∣ b ∨ (5 ^ 28 : Int) ∣ 4 * b + 3 := by
    by_cases hb : (5 : Int) ∣ b
    · left
      have : IsCoprime (5 ^ 28 : Int) (4 * b + 3) := by
        refine IsCoprime.pow_left ?_
        obtain ⟨c, rfl⟩ := hb
        exact ⟨-1 - 8 * c, 2, by ring⟩
      exact this.dvd_of_dvd_mul_right hd5
    · right
      exact (IsCoprime.pow_left (coprime_five hb)).dvd_of_dvd_mul_left hd5
  have hb0 : 0 < b := by omega
  have hb1 : b < 195 * 10 ^ 26 := by omega
  obtain ⟨c, rfl⟩ := d2
  have d5' : (∃ j, c = 0 + 37252902984619140625 * j) ∨ ∃ j, c = 37122454658866654853 + 37252902984619140625 * j := by
    rcases d5 with d5 | d5
    · exact .inl (solve_five (by simpa using d5))
    · refine .inr (solve_five ?_)
      have c4 : IsCoprime (5 ^ 28 : Int) 4 := IsCoprime.pow_left ⟨1, -1, by norm_num⟩
      refine c4.dvd_of_dvd_mul_left ?_
      have e : (4 * (2 ^ 28 * (c - 37122454658866654853)) : Int) = (4 * (2 ^ 28 * c) + 3) - 5 ^ 28 * 1069981907 := by ring
      rw [e]
      exact dvd_sub d5 (dvd_mul_right _ _)
  clear h hd2 c2 hd5 he h0 h39 d5
  norm_num at hb0 hb1 h1
  rcases d5' with ⟨j, rfl⟩ | ⟨j, rfl⟩
  · have hj : j = 1 := by clear h1; omega
    subst hj
    right
    norm_num at h1
    omega
  · have hj : j = 0 := by clear h1; omega
    subst hj
    left
    norm_num at h1
    omega

end Prexel
