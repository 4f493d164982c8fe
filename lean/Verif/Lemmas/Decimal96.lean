import Mathlib.Tactic.Linarith
import Mathlib.Tactic.FieldSimp
import Mathlib.Tactic.Positivity
import Verif.Model.Decimal96
import Verif.Lemmas.DecimalSafe
import Verif.Spec.Rounding
/-!
# The model of `rust_decimal` satisfies the contract
-/

namespace Prexel.D96

theorem even_bounds (n : ℕ) {d : ℕ} (hd : 0 < d) : 2 * n ≤ (2 * even n d + 1) * d ∧ 2 * even n d * d ≤ 2 * n + d ∧
    ((2 * n = (2 * even n d + 1) * d ∨ 2 * even n d * d = 2 * n + d) → even n d % 2 = 0) := by
  have h1 := Nat.div_add_mod n d
  have h2 := Nat.mod_lt n hd
  obtain ⟨q, hq⟩ : ∃ q, n / d = q := ⟨_, rfl⟩
  obtain ⟨r, hr⟩ : ∃ r, n % d = r := ⟨_, rfl⟩
  unfold even
  rw [hq, hr] at h1
  rw [hr] at h2
  rw [hq, hr]
  clear hq hr
  subst h1
  have e1 : (2 * (q + 1) + 1) * d = 2 * (d * q) + 3 * d := by ring
  have e2 : (2 * q + 1) * d = 2 * (d * q) + d := by ring
  have e3 : 2 * (q + 1) * d = 2 * (d * q) + 2 * d := by ring
  have e4 : 2 * q * d = 2 * (d * q) := by ring
  split
  · rw [e1, e3]; omega
  · rw [e2, e4]; omega

theorem even_le {n d m : ℕ} (hd : 0 < d) (h : n ≤ m * d) : even n d ≤ m := by
  obtain ⟨-, h2, -⟩ := even_bounds n hd
  by_contra hc
  have : m + 1 ≤ even n d := by omega
  nlinarith

theorem le_even {n d m : ℕ} (hd : 0 < d) (h : m * d ≤ n) : m ≤ even n d := by
  obtain ⟨h1, -, -⟩ := even_bounds n hd
  by_contra hc
  have : even n d + 1 ≤ m := by omega
  nlinarith

theorem even_exact {d m : ℕ} (hd : 0 < d) : even (m * d) d = m := le_antisymm (even_le hd le_rfl) (le_even hd le_rfl)

theorem even_near (n : ℕ) {d : ℕ} (hd : 0 < d) : NearestEven (even n d) ((n : ℚ) / d) := by
  obtain ⟨h1, h2, h3⟩ := even_bounds n hd
  have hd' : (0 : ℚ) < d := by exact_mod_cast hd
  have k1 : 2 * (n : ℚ) ≤ (2 * even n d + 1) * d := by exact_mod_cast h1
  have k2 : 2 * (even n d : ℚ) * d ≤ 2 * n + d := by exact_mod_cast h2
  refine ⟨?_, ?_, ?_⟩
  · rw [sub_le_iff_le_add, div_le_iff₀ hd']; push_cast; linarith
  · rw [← sub_le_iff_le_add, le_div_iff₀ hd']; push_cast; linarith
  · intro h
    have : 2 * n = (2 * even n d + 1) * d ∨ 2 * even n d * d = 2 * n + d := by
      rcases h with h | h
      · left
        have : (n : ℚ) / d = even n d + 1 / 2 := by push_cast at h; linarith
        rw [div_eq_iff hd'.ne'] at this
        have : 2 * (n : ℚ) = (2 * even n d + 1) * d := by linarith
        exact_mod_cast this
      · right
        have : (n : ℚ) / d = even n d - 1 / 2 := by push_cast at h; linarith
        rw [div_eq_iff hd'.ne'] at this
        have : 2 * (even n d : ℚ) * d = 2 * n + d := by linarith
        exact_mod_cast this
    have := h3 this
    omega

theorem fit_spec {neg : Bool} {n d : ℕ} {z : D96} : ∀ {cap : ℕ}, fit neg n d cap = some z →
    z.neg = neg ∧ z.c = even (n * 10 ^ z.s) d ∧ z.s ≤ cap ∧ (z.s = cap ∨ z.s = 28 ∨ 2 ^ 96 ≤ even (n * 10 ^ (z.s + 1)) d)
  | 0, h => by
    unfold fit at h
    split at h
    · cases h; simp
    · cases h
  | s + 1, h => by
    unfold fit at h
    split at h
    · cases h; simp
    · rename_i hn
      obtain ⟨h1, h2, h3, h4⟩ := fit_spec h
      refine ⟨h1, h2, by omega, ?_⟩
      rcases h4 with h4 | h4 | h4
      · rw [not_and_or, not_lt] at hn
        rcases hn with hn | hn
        · right; right; rw [h4]; exact hn
        · right; left; have := z.scale; omega
      · exact .inr (.inl h4)
      · exact .inr (.inr h4)

theorem fit_some {neg : Bool} {n d : ℕ} (h : even n d < 2 ^ 96) : ∀ cap, ∃ z, fit neg n d cap = some z
  | 0 => by unfold fit; rw [dif_pos h]; exact ⟨_, rfl⟩
  | s + 1 => by
    unfold fit
    split
    · exact ⟨_, rfl⟩
    · exact fit_some h s

theorem fit_none {neg : Bool} {n d : ℕ} (hd : 0 < d) (h : 2 ^ 96 * d ≤ n) : ∀ cap, fit neg n d cap = none
  | 0 => by unfold fit; rw [dif_neg (not_lt.2 (le_even hd h))]
  | s + 1 => by
    unfold fit
    rw [dif_neg, fit_none hd h s]
    rintro ⟨h1, -⟩
    have : 2 ^ 96 ≤ even (n * 10 ^ (s + 1)) d := le_even hd (h.trans (Nat.le_mul_of_pos_right _ (by positivity)))
    omega

theorem fit_top {neg : Bool} {n d cap : ℕ} (h : even (n * 10 ^ cap) d < 2 ^ 96) (hc : cap ≤ 28) :
    fit neg n d cap = some ⟨neg, even (n * 10 ^ cap) d, cap, h, hc⟩ := by
  cases cap with
  | zero => unfold fit; simp only [Nat.pow_zero, Nat.mul_one] at h ⊢; rw [dif_pos h]
  | succ s => unfold fit; rw [dif_pos ⟨h, hc⟩]

/-- A representable number that is not negative. -/
theorem representable_nat {r : ℚ} (h : Representable r) (h0 : 0 ≤ r) : ∃ s c : ℕ, s ≤ 28 ∧ c < 2 ^ 96 ∧ r = c / 10 ^ s := by
  obtain ⟨s, hs, c, hc, h⟩ := h
  push_cast at h
  have hp : (0 : ℚ) < 10 ^ s := by positivity
  have h1 : 0 ≤ c := by
    have : (0 : ℚ) ≤ c := by rw [← h]; positivity
    exact_mod_cast this
  refine ⟨s, c.natAbs, hs, hc, ?_⟩
  rw [eq_div_iff hp.ne', h]
  have : ((c.natAbs : ℤ) : ℚ) = c := by rw [Int.natAbs_of_nonneg h1]
  rw [← this, Int.cast_natCast]

/-- The result of `fit` is the exact quotient or one of its neighbours. -/
theorem fit_rounded {neg : Bool} {n d cap : ℕ} {z : D96} (hd : 0 < d) (h : fit neg n d cap = some z) (he : d ∣ n * 10 ^ cap ∨ 28 ≤ cap) :
    Rounded ((z.c : ℚ) / 10 ^ z.s) ((n : ℚ) / d) := by
  obtain ⟨-, hc, hcap, hmax⟩ := fit_spec h
  have hd' : (0 : ℚ) < d := by exact_mod_cast hd
  have hp : (0 : ℚ) < 10 ^ z.s := by positivity
  intro r hr
  by_cases hr0 : r < 0
  · refine ⟨fun _ => hr0.le.trans (by positivity), fun hq => ?_⟩
    have : (0 : ℚ) ≤ (n : ℚ) / d := by positivity
    linarith
  obtain ⟨s, c, hs, hcs, rfl⟩ := representable_nat hr (not_lt.1 hr0)
  have hps : (0 : ℚ) < 10 ^ s := by positivity
  have hd2 := Nat.pos_of_ne_zero hd.ne'
  by_cases hle : s ≤ z.s
  · have e : (10 : ℚ) ^ z.s = 10 ^ s * 10 ^ (z.s - s) := by rw [← pow_add]; congr 1; omega
    have e' : 10 ^ z.s = 10 ^ s * 10 ^ (z.s - s) := by rw [← pow_add]; congr 1; omega
    constructor
    · intro hq
      rw [div_le_div_iff₀ hps hd'] at hq
      have hq' : c * d ≤ n * 10 ^ s := by exact_mod_cast hq
      have : c * 10 ^ (z.s - s) ≤ z.c := by
        rw [hc]
        refine le_even hd ?_
        rw [e']
        calc c * 10 ^ (z.s - s) * d = c * d * 10 ^ (z.s - s) := by ring
          _ ≤ n * 10 ^ s * 10 ^ (z.s - s) := Nat.mul_le_mul_right _ hq'
          _ = _ := by ring
      rw [div_le_div_iff₀ hps hp, e]
      have this : (c : ℚ) * 10 ^ (z.s - s) ≤ z.c := by exact_mod_cast this
      nlinarith
    · intro hq
      rw [div_le_div_iff₀ hd' hps] at hq
      have hq' : n * 10 ^ s ≤ c * d := by exact_mod_cast hq
      have : z.c ≤ c * 10 ^ (z.s - s) := by
        rw [hc]
        refine even_le hd ?_
        rw [e']
        calc n * (10 ^ s * 10 ^ (z.s - s)) = n * 10 ^ s * 10 ^ (z.s - s) := by ring
          _ ≤ c * d * 10 ^ (z.s - s) := Nat.mul_le_mul_right _ hq'
          _ = _ := by ring
      rw [div_le_div_iff₀ hp hps, e]
      have this : (z.c : ℚ) ≤ c * 10 ^ (z.s - s) := by exact_mod_cast this
      nlinarith
  · -- more places than the result has
    have hz := z.scale
    have hbig : 2 ^ 96 ≤ even (n * 10 ^ (z.s + 1)) d ∨ (z.s = cap ∧ d ∣ n * 10 ^ cap) := by
      rcases hmax with h1 | h1 | h1
      · rcases he with he | he
        · exact .inr ⟨h1, he⟩
        · omega
      · omega
      · exact .inl h1
    rcases hbig with hbig | ⟨h1, h2⟩
    · obtain ⟨-, b2, -⟩ := even_bounds (n * 10 ^ (z.s + 1)) hd
      obtain ⟨b1, -, -⟩ := even_bounds (n * 10 ^ z.s) hd
      rw [← hc] at b1
      -- twice the exact result, scaled
      have b3 : (2 ^ 97 - 1) * d ≤ 2 * (n * 10 ^ (z.s + 1)) := by
        have : 2 * 2 ^ 96 * d ≤ 2 * even (n * 10 ^ (z.s + 1)) d * d := Nat.mul_le_mul_right _ (by omega)
        have e : (2 ^ 97 - 1) * d + d = 2 * 2 ^ 96 * d := by rw [show (2 : ℕ) * 2 ^ 96 = 2 ^ 97 - 1 + 1 from by norm_num]; ring
        omega
      have b4 : 7922816251426433759354395034 ≤ z.c := by
        by_contra hcon
        have : 2 * z.c + 1 ≤ 2 * 7922816251426433759354395033 + 1 := by omega
        have h5 := Nat.mul_le_mul_right d this
        have h6 : 2 * (n * 10 ^ (z.s + 1)) = 10 * (2 * (n * 10 ^ z.s)) := by rw [pow_succ]; ring
        have h7 : (2 ^ 97 - 1) * d ≤ 10 * ((2 * 7922816251426433759354395033 + 1) * d) := by omega
        have h8 : (2 ^ 97 - 1 : ℕ) ≤ 10 * (2 * 7922816251426433759354395033 + 1) := by nlinarith
        norm_num at h8
      have e : (10 : ℚ) ^ s = 10 ^ (z.s + 1) * 10 ^ (s - (z.s + 1)) := by rw [← pow_add]; congr 1; omega
      have h1 : (1 : ℚ) ≤ 10 ^ (s - (z.s + 1)) := one_le_pow₀ (by norm_num)
      have hc' : (c : ℚ) ≤ 2 ^ 96 - 1 := by
        have : c ≤ 2 ^ 96 - 1 := by omega
        have : (c : ℚ) ≤ ((2 ^ 96 - 1 : ℕ) : ℚ) := by exact_mod_cast this
        norm_num at this ⊢; exact this
      have hr : (c : ℚ) / 10 ^ s ≤ (2 ^ 96 - 1) / 10 ^ (z.s + 1) := by
        rw [div_le_div_iff₀ hps (by positivity), e]
        have hpp : (0 : ℚ) < 10 ^ (z.s + 1) := by positivity
        nlinarith [mul_le_mul hc' h1 (by norm_num) (by norm_num)]
      constructor
      · intro _
        refine hr.trans ?_
        rw [div_le_div_iff₀ (by positivity) hp]
        have b4' : (7922816251426433759354395034 : ℚ) ≤ z.c := by exact_mod_cast b4
        have : (10 : ℚ) ^ (z.s + 1) = 10 ^ z.s * 10 := pow_succ _ _
        rw [this]
        nlinarith
      · intro hq
        exfalso
        have h2 := hq.trans hr
        rw [div_le_div_iff₀ hd' (by positivity)] at h2
        have b3' : ((2 ^ 97 - 1 : ℕ) : ℚ) * d ≤ 2 * (n * 10 ^ (z.s + 1)) := by exact_mod_cast b3
        norm_num at b3' h2
        linarith
    · obtain ⟨k, hk⟩ := h2
      rw [← h1] at hk
      have : z.c = k := by rw [hc, hk, Nat.mul_comm]; exact even_exact hd
      have h3 : (n : ℚ) / d = z.c / 10 ^ z.s := by
        rw [div_eq_div_iff hd'.ne' hp.ne', this]
        have : (n : ℚ) * 10 ^ z.s = d * k := by exact_mod_cast hk
        linarith
      rw [h3]
      exact ⟨id, id⟩

/-- The other sign. -/
theorem rounded_neg {z q : ℚ} (h : Rounded z q) : Rounded (-z) (-q) := by
  intro r hr
  obtain ⟨h1, h2⟩ := h (-r) (representable_neg hr)
  exact ⟨fun h => by have := h2 (by linarith); linarith, fun h => by have := h1 (by linarith); linarith⟩

theorem val_eq (x : D96) : x.val = (if x.neg then -1 else 1) * ((x.c : ℚ) / 10 ^ x.s) := by
  unfold val int
  split <;> push_cast <;> ring

theorem val_zero_iff (x : D96) : x.val = 0 ↔ x.c = 0 := by
  have hp : (0 : ℚ) < 10 ^ x.s := by positivity
  rw [val_eq]
  constructor
  · intro h
    rcases mul_eq_zero.1 h with h | h
    · split at h <;> norm_num at h
    · rw [div_eq_zero_iff] at h
      rcases h with h | h
      · exact_mod_cast h
      · exact absurd h hp.ne'
  · intro h; rw [h]; simp

theorem val_range (x : D96) : Representable x.val := by
  refine ⟨x.s, x.scale, x.int, ?_, ?_⟩
  · have := x.small; unfold int; split <;> omega
  · unfold val; push_cast; field_simp

theorem val_opp (x : D96) : x.opp.val = -x.val := by
  rw [val_eq, val_eq]
  simp only [opp]
  obtain ⟨b, c, s, h, h'⟩ := x
  cases b <;> simp

theorem mk'_eq {neg : Bool} {c s : ℕ} (h : c < 2 ^ 96) (hs : s ≤ 28) : mk' neg c s = ⟨neg, c, s, h, hs⟩ := by unfold mk'; rw [dif_pos ⟨h, hs⟩]

theorem rounded_self (q : ℚ) : Rounded q q := fun _ _ => ⟨id, id⟩

/-- `fit` with a sign. -/
theorem fit_signed {neg : Bool} {n d cap : ℕ} (hd : 0 < d) (he : d ∣ n * 10 ^ cap ∨ 28 ≤ cap) {q : ℚ}
    (hq : q = (if neg then -1 else 1) * ((n : ℚ) / d)) (hb : Bounded maxDecimal q) :
    ∃ z, fit neg n d cap = some z ∧ Rounded z.val q := by
  have hd' : (0 : ℚ) < d := by exact_mod_cast hd
  have hle : (n : ℚ) / d ≤ maxDecimal := by
    obtain ⟨h1, h2⟩ := hb
    cases neg <;> simp at hq <;> linarith
  have hn : n ≤ (2 ^ 96 - 1) * d := by
    rw [div_le_iff₀ hd', maxDecimal] at hle
    have : (n : ℚ) ≤ (((2 ^ 96 - 1) * d : ℕ) : ℚ) := by push_cast; norm_num at hle ⊢; exact hle
    exact_mod_cast this
  obtain ⟨z, hz⟩ := fit_some (neg := neg) (lt_of_le_of_lt (even_le hd hn) (by norm_num)) cap
  refine ⟨z, hz, ?_⟩
  have := fit_rounded hd hz he
  obtain ⟨h1, -⟩ := fit_spec hz
  rw [val_eq, hq, h1]
  cases neg
  · simpa using this
  · simpa using rounded_neg this

theorem fit_beyond {neg : Bool} {n d cap : ℕ} (hd : 0 < d) {q : ℚ} (hq : q = (if neg then -1 else 1) * ((n : ℚ) / d)) (hb : Beyond q) :
    fit neg n d cap = none := by
  have hd' : (0 : ℚ) < d := by exact_mod_cast hd
  refine fit_none hd ?_ cap
  have hle : (2 ^ 96 : ℚ) ≤ (n : ℚ) / d := by
    have h0 : (0 : ℚ) ≤ (n : ℚ) / d := by positivity
    rcases hb with hb | hb <;> cases neg <;> simp at hq <;> push_cast at hb <;> linarith
  rw [le_div_iff₀ hd'] at hle
  exact_mod_cast hle

theorem at_val (x : D96) {m : ℕ} (h : x.s ≤ m) : x.val = x.at_ m / 10 ^ m := by
  have e : (10 : ℚ) ^ m = 10 ^ x.s * 10 ^ (m - x.s) := by rw [← pow_add]; congr 1; omega
  unfold val at_
  push_cast
  rw [e]
  field_simp

theorem sum_val (x y : D96) : x.val + y.val = ((x.at_ (max x.s y.s) + y.at_ (max x.s y.s) : ℤ) : ℚ) / 10 ^ max x.s y.s := by
  rw [at_val x (le_max_left x.s y.s), at_val y (le_max_right x.s y.s)]
  push_cast
  ring

theorem signed_natAbs (t : ℤ) (b : Bool) (d : ℚ) : (t : ℚ) / d = (if (if t = 0 then b else decide (t < 0)) then -1 else 1) * ((t.natAbs : ℚ) / d) := by
  by_cases h : t = 0
  · subst h; simp
  · rw [if_neg h]
    have : (t.natAbs : ℚ) = ((t.natAbs : ℤ) : ℚ) := (Int.cast_natCast _).symm
    by_cases h1 : t < 0
    · rw [if_pos (by simpa using h1), this, Int.natCast_natAbs, abs_of_neg h1]; push_cast; ring
    · rw [if_neg (by simpa using h1), this, Int.natCast_natAbs, abs_of_nonneg (not_lt.1 h1)]; ring

theorem add_rounded (x y : D96) (h : Bounded maxDecimal (x.val + y.val)) : ∃ z, add x y = some z ∧ Rounded z.val (x.val + y.val) := by
  unfold add
  by_cases hx : x.c = 0
  · rw [if_pos hx, (val_zero_iff x).2 hx, zero_add]; exact ⟨_, rfl, rounded_self _⟩
  by_cases hy : y.c = 0
  · rw [if_neg hx, if_pos hy, (val_zero_iff y).2 hy, add_zero]; exact ⟨_, rfl, rounded_self _⟩
  rw [if_neg hx, if_neg hy]
  refine fit_signed (by positivity) (.inl (Nat.dvd_mul_left _ _)) ?_ h
  rw [sum_val]
  push_cast
  rw [← signed_natAbs]
  push_cast
  rfl

theorem add_beyond (x y : D96) (h : Beyond (x.val + y.val)) : add x y = none := by
  have hmax : ∀ z : D96, ¬ Beyond z.val := by
    intro z hz
    obtain ⟨h1, h2⟩ := representable_bounded (val_range z)
    unfold maxDecimal at h1 h2
    rcases hz with hz | hz <;> push_cast at hz h1 h2 <;> linarith
  unfold add
  by_cases hx : x.c = 0
  · rw [(val_zero_iff x).2 hx, zero_add] at h; exact absurd h (hmax y)
  by_cases hy : y.c = 0
  · rw [(val_zero_iff y).2 hy, add_zero] at h; exact absurd h (hmax x)
  rw [if_neg hx, if_neg hy]
  refine fit_beyond (q := x.val + y.val) (by positivity) ?_ h
  rw [sum_val]
  push_cast
  rw [← signed_natAbs]
  push_cast
  rfl

theorem sub_eq (x y : D96) : (∃ z, sub x y = some z ∧ y.c = 0 ∧ z.val = x.val) ∨ (y.c ≠ 0 ∧ sub x y = add x y.opp) := by
  unfold sub
  by_cases hy : y.c = 0
  · left
    rw [if_pos hy]
    split
    · rename_i hx; exact ⟨_, rfl, hy, by rw [(val_zero_iff x).2 hx, (val_zero_iff y).2 hy]⟩
    · exact ⟨_, rfl, hy, rfl⟩
  · right; rw [if_neg hy]; exact ⟨hy, rfl⟩

theorem signs (a b : Bool) (p q : ℚ) : (if a then (-1 : ℚ) else 1) * p * ((if b then -1 else 1) * q) = (if (a != b) then -1 else 1) * (p * q) := by
  cases a <;> cases b <;> simp

theorem mul_val (x y : D96) : x.val * y.val = (if (x.neg != y.neg) then -1 else 1) * (((x.c * y.c : ℕ) : ℚ) / ((10 ^ (x.s + y.s) : ℕ) : ℚ)) := by
  rw [val_eq, val_eq, signs, div_mul_div_comm]
  push_cast
  rw [pow_add]

theorem div_val (x y : D96) (h : y.c ≠ 0) :
    x.val / y.val = (if (x.neg != y.neg) then -1 else 1) * (((x.c * 10 ^ y.s : ℕ) : ℚ) / ((y.c * 10 ^ x.s : ℕ) : ℚ)) := by
  have hy : (y.c : ℚ) ≠ 0 := by exact_mod_cast h
  rw [val_eq, val_eq]
  push_cast
  cases x.neg <;> cases y.neg <;> simp <;> field_simp

theorem mul_exact (x y : D96) : 10 ^ (x.s + y.s) ∣ x.c * y.c * 10 ^ min (x.s + y.s) 28 ∨ 28 ≤ min (x.s + y.s) 28 := by
  by_cases h : x.s + y.s ≤ 28
  · left; rw [min_eq_left h]; exact Nat.dvd_mul_left _ _
  · right; omega

theorem strip_val (neg : Bool) : ∀ (s c : ℕ) (h : c < 2 ^ 96) (hs : s ≤ 28), (strip neg c s).val = (⟨neg, c, s, h, hs⟩ : D96).val
  | 0, c, h, hs => by unfold strip; rw [mk'_eq h hs]
  | s + 1, c, h, hs => by
    unfold strip
    split
    · rename_i h0
      rw [strip_val neg s (c / 10) (by omega) (by omega), val_eq, val_eq]
      simp only
      have : c = 10 * (c / 10) := by omega
      have e : (c : ℚ) = 10 * ((c / 10 : ℕ) : ℚ) := by exact_mod_cast this
      rw [show ((c : ℚ) / 10 ^ (s + 1)) = ((c / 10 : ℕ) : ℚ) / 10 ^ s by rw [e, pow_succ]; field_simp]
    · rw [mk'_eq h hs]

theorem zero_val : (mk' false 0 0).val = 0 := by rw [val_zero_iff]; rfl

theorem mul_rounded (x y : D96) (h : Bounded maxDecimal (x.val * y.val)) : ∃ z, mul x y = some z ∧ Rounded z.val (x.val * y.val) := by
  unfold mul
  split
  · rename_i h0
    refine ⟨_, rfl, ?_⟩
    have : x.val * y.val = 0 := by rcases h0 with h0 | h0 <;> simp [(val_zero_iff _).2 h0]
    rw [this, zero_val]
    exact rounded_self _
  · exact fit_signed (by positivity) (mul_exact x y) (mul_val x y) h

theorem mul_beyond (x y : D96) (h : Beyond (x.val * y.val)) : mul x y = none := by
  unfold mul
  split
  · rename_i h0
    have : x.val * y.val = 0 := by rcases h0 with h0 | h0 <;> simp [(val_zero_iff _).2 h0]
    rw [this] at h
    rcases h with h | h <;> norm_num at h
  · exact fit_beyond (by positivity) (mul_val x y) h

theorem div_rounded (x y : D96) (h0 : y.val ≠ 0) (h : Bounded maxDecimal (x.val / y.val)) :
    ∃ z, div x y = some z ∧ Rounded z.val (x.val / y.val) := by
  have hy : y.c ≠ 0 := fun h => h0 ((val_zero_iff y).2 h)
  unfold div
  rw [if_neg hy]
  split
  · rename_i hx
    refine ⟨_, rfl, ?_⟩
    rw [(val_zero_iff x).2 hx, zero_div, zero_val]
    exact rounded_self _
  · obtain ⟨z, h1, h2⟩ := fit_signed (cap := 28) (by positivity) (.inr le_rfl) (div_val x y hy) h
    rw [h1]
    exact ⟨_, rfl, by rw [strip_val _ _ _ z.small z.scale]; exact h2⟩

theorem wholePart_signed (neg : Bool) (n : ℕ) {d : ℕ} (hd : 0 < d) :
    wholePart ((if neg then -1 else 1) * ((n : ℚ) / d)) = (if neg then -1 else 1) * ((n / d : ℕ) : ℤ) := by
  have hd' : (0 : ℚ) < d := by exact_mod_cast hd
  have hdm := Nat.div_add_mod n d
  have hml := Nat.mod_lt n hd
  obtain ⟨k, hk⟩ : ∃ k, n / d = k := ⟨_, rfl⟩
  rw [hk] at hdm ⊢
  have h1 : (k : ℚ) ≤ (n : ℚ) / d := by
    rw [le_div_iff₀ hd']
    have : k * d ≤ n := by rw [Nat.mul_comm]; omega
    exact_mod_cast this
  have h2 : (n : ℚ) / d < (k : ℚ) + 1 := by
    rw [div_lt_iff₀ hd']
    have : n < (k + 1) * d := by rw [Nat.add_mul, Nat.mul_comm]; omega
    exact_mod_cast this
  have h3 : (0 : ℚ) ≤ (k : ℚ) := by positivity
  have h0 : (0 : ℚ) ≤ (n : ℚ) / d := by positivity
  generalize hq : (n : ℚ) / d = q at *
  obtain ⟨a, b⟩ := wholePart_bounds ((if neg then -1 else 1) * q)
  have key : ∀ i j : ℤ, (i : ℚ) < j + 1 → (j : ℚ) < i + 1 → i = j := by
    intro i j h h'
    have h : i < j + 1 := by exact_mod_cast h
    have h' : j < i + 1 := by exact_mod_cast h'
    omega
  cases neg
  · simp only [Bool.false_eq_true, if_false, one_mul] at *
    obtain ⟨c1, c2, -⟩ := a h0
    exact key _ _ (by push_cast; linarith) (by push_cast; linarith)
  · simp only [if_true, neg_mul, one_mul] at *
    rcases h0.eq_or_lt with h0 | h0
    · subst h0
      have : (k : ℚ) = 0 := le_antisymm h1 h3
      have : k = 0 := by exact_mod_cast this
      rw [this]
      decide
    · obtain ⟨c1, c2, -⟩ := b (by linarith)
      exact key _ _ (by push_cast; linarith) (by push_cast; linarith)

theorem trunc_parts (x : D96) : x.trunc = ⟨x.neg, x.c / 10 ^ x.s, 0, lt_of_le_of_lt (Nat.div_le_self _ _) x.small, by omega⟩ := mk'_eq _ _

theorem val_eq' (x : D96) : x.val = (if x.neg then -1 else 1) * ((x.c : ℚ) / ((10 ^ x.s : ℕ) : ℚ)) := by rw [val_eq]; push_cast; rfl

theorem trunc_val (x : D96) : x.trunc.val = wholePart x.val := by
  rw [val_eq' x, wholePart_signed _ _ (by positivity), trunc_parts, val_eq]
  simp only [pow_zero, div_one]
  rw [Int.cast_mul, Int.cast_natCast]
  split <;> simp

theorem at_val' (x : D96) {m : ℕ} (h : x.s ≤ m) : x.val = (if x.neg then -1 else 1) * (((x.c * 10 ^ (m - x.s) : ℕ) : ℚ) / 10 ^ m) := by
  have e : (10 : ℚ) ^ m = 10 ^ x.s * 10 ^ (m - x.s) := by rw [← pow_add]; congr 1; omega
  rw [val_eq]
  push_cast
  rw [e]
  congr 1
  field_simp

theorem rem_small (x y : D96) (h : y.c ≠ 0) :
    x.c * 10 ^ (max x.s y.s - x.s) % (y.c * 10 ^ (max x.s y.s - y.s)) < 2 ^ 96 := by
  rcases le_total x.s y.s with hs | hs
  · refine lt_trans (Nat.mod_lt _ (by positivity)) ?_
    rw [max_eq_right hs, Nat.sub_self, pow_zero, mul_one]
    exact y.small
  · refine lt_of_le_of_lt (Nat.mod_le _ _) ?_
    rw [max_eq_left hs, Nat.sub_self, pow_zero, mul_one]
    exact x.small

theorem rem_val (x y : D96) (h : y.val ≠ 0) : ∃ z, rem x y = some z ∧ z.val = x.val - y.val * wholePart (x.val / y.val) := by
  have hy : y.c ≠ 0 := fun h' => h ((val_zero_iff y).2 h')
  unfold rem
  rw [if_neg hy]
  refine ⟨_, rfl, ?_⟩
  have hm : max x.s y.s ≤ 28 := max_le x.scale y.scale
  have hsm := rem_small x y hy
  obtain ⟨m, hm'⟩ : ∃ m, max x.s y.s = m := ⟨_, rfl⟩
  rw [hm'] at hm hsm
  rw [hm', mk'_eq hsm hm, val_eq]
  simp only
  have hx' := at_val' x (le_max_left x.s y.s)
  have hy' := at_val' y (le_max_right x.s y.s)
  rw [hm'] at hx' hy'
  have hb : 0 < y.c * 10 ^ (m - y.s) := by positivity
  generalize x.c * 10 ^ (m - x.s) = a at *
  generalize y.c * 10 ^ (m - y.s) = b at *
  have hp : (0 : ℚ) < 10 ^ m := by positivity
  have hb' : (0 : ℚ) < b := by exact_mod_cast hb
  have hq : x.val / y.val = (if (x.neg != y.neg) then -1 else 1) * ((a : ℚ) / b) := by
    rw [hx', hy']
    obtain ⟨n1, _, _, _, _⟩ := x
    obtain ⟨n2, _, _, _, _⟩ := y
    cases n1 <;> cases n2 <;> simp <;> field_simp
  rw [hq, wholePart_signed _ _ hb, hx', hy']
  have hdm : (b : ℚ) * ((a / b : ℕ) : ℚ) + ((a % b : ℕ) : ℚ) = a := by exact_mod_cast Nat.div_add_mod a b
  have hk : (((a / b : ℕ) : ℤ) : ℚ) = ((a / b : ℕ) : ℚ) := Int.cast_natCast _
  have hmul : ((if (x.neg != y.neg) then -1 else 1 : ℤ) : ℚ) = if (x.neg != y.neg) then -1 else 1 := by split <;> norm_num
  rw [Int.cast_mul, hk, hmul, ← hdm]
  generalize ((a / b : ℕ) : ℚ) = k
  generalize ((a % b : ℕ) : ℚ) = r
  obtain ⟨n1, _, _, _, _⟩ := x
  obtain ⟨n2, _, _, _, _⟩ := y
  cases n1 <;> cases n2 <;> simp <;> field_simp <;> ring

theorem eq_iff (x y : D96) : eq x y = true ↔ x.val = y.val := by
  have h1 : (0 : ℚ) < 10 ^ x.s := by positivity
  have h2 : (0 : ℚ) < 10 ^ y.s := by positivity
  unfold eq val
  rw [decide_eq_true_iff, div_eq_div_iff h1.ne' h2.ne']
  exact_mod_cast Iff.rfl

theorem lt_iff (x y : D96) : lt x y = true ↔ x.val < y.val := by
  have h1 : (0 : ℚ) < 10 ^ x.s := by positivity
  have h2 : (0 : ℚ) < 10 ^ y.s := by positivity
  unfold lt val
  rw [decide_eq_true_iff, div_lt_div_iff₀ h1 h2]
  exact_mod_cast Iff.rfl

theorem val_sign (x : D96) : (x.val < 0 → x.neg = true) ∧ (0 < x.val → x.neg = false) := by
  have h0 : (0 : ℚ) ≤ (x.c : ℚ) / 10 ^ x.s := by positivity
  rw [val_eq]
  obtain ⟨n, c, s, h, h'⟩ := x
  cases n <;> simp at h0 ⊢ <;> positivity

theorem val_abs (x : D96) : x.abs.val = if x.val < 0 then -x.val else x.val := by
  have h0 : (0 : ℚ) ≤ (x.c : ℚ) / 10 ^ x.s := by positivity
  rw [val_eq, val_eq]
  obtain ⟨n, c, s, h, h'⟩ := x
  cases n
  · simp only [abs, Bool.false_eq_true, if_false, one_mul] at *
    rw [if_neg (not_lt.2 h0)]
  · simp only [abs, Bool.false_eq_true, if_false, if_true, one_mul, neg_mul, neg_neg] at *
    split
    · rfl
    · linarith

theorem fract_iff (x : D96) : x.fract.val = 0 ↔ ∃ n : ℤ, x.val = n := by
  have hsm : x.c % 10 ^ x.s < 2 ^ 96 := lt_of_le_of_lt (Nat.mod_le _ _) x.small
  rw [val_zero_iff, fract, mk'_eq hsm x.scale]
  show x.c % 10 ^ x.s = 0 ↔ _
  have hp : (0 : ℚ) < 10 ^ x.s := by positivity
  constructor
  · intro h
    obtain ⟨k, hk⟩ := Nat.dvd_of_mod_eq_zero h
    refine ⟨if x.neg then -k else k, ?_⟩
    rw [val_eq, hk]
    push_cast
    split <;> field_simp
  · rintro ⟨n, h⟩
    rw [val, div_eq_iff hp.ne'] at h
    have h : x.int = n * 10 ^ x.s := by exact_mod_cast h
    have : ((10 ^ x.s : ℕ) : ℤ) ∣ x.int := ⟨n, by rw [h]; push_cast; ring⟩
    have : ((10 ^ x.s : ℕ) : ℤ) ∣ (x.c : ℤ) := by
      unfold int at this
      split at this
      · exact (Int.dvd_neg).1 this
      · exact this
    exact Nat.mod_eq_zero_of_dvd (Int.natCast_dvd_natCast.1 this)

theorem trunc_int (x : D96) {n : ℤ} (h : x.val = n) : x.trunc.int = n := by
  have h1 := trunc_val x
  have h2 : x.trunc.val = x.trunc.int := by rw [val, trunc_parts]; simp
  have h3 : wholePart x.val = n := by
    rw [h]
    have e : (n : ℚ) = (if decide (n < 0) then -1 else 1) * ((n.natAbs : ℚ) / ((1 : ℕ) : ℚ)) := by
      have := signed_natAbs n false 1
      by_cases h0 : n = 0
      · subst h0; simp
      · simpa [h0] using this
    rw [e, wholePart_signed _ _ one_pos]
    rw [Nat.div_one]
    by_cases h0 : n < 0
    · simp only [h0, decide_true, if_true]; omega
    · simp only [h0, decide_false, Bool.false_eq_true, if_false]; omega
  rw [h2, h3] at h1
  exact_mod_cast h1

theorem even_whole {c s : ℕ} (h : 10 ^ s ∣ c) : even c (10 ^ s) = c / 10 ^ s := by
  obtain ⟨k, rfl⟩ := h
  rw [Nat.mul_comm, even_exact (by positivity), Nat.mul_div_cancel _ (by positivity)]

theorem even_small {c d : ℕ} (h : c < 2 ^ 96) (hd : 0 < d) : even c d < 2 ^ 96 := by
  refine lt_of_le_of_lt (even_le hd (m := c) (Nat.le_mul_of_pos_right _ hd)) h

theorem roundDp_parts (k : ℕ) (x : D96) (h : k < x.s) :
    roundDp k x = ⟨x.neg, even x.c (10 ^ (x.s - k)), k, even_small x.small (by positivity), by have := x.scale; omega⟩ := by
  unfold roundDp
  rw [if_neg (by omega)]
  exact mk'_eq _ _

theorem roundDp_whole (k : ℕ) (x : D96) (n : ℤ) (h : x.val = n) : (roundDp k x).val = n := by
  by_cases hk : x.s ≤ k
  · unfold roundDp; rw [if_pos hk]; exact h
  rw [roundDp_parts k x (by omega), ← h, val_eq, val_eq]
  have hw : 10 ^ x.s ∣ x.c := by
    have := (fract_iff x).2 ⟨n, h⟩
    have hsm : x.c % 10 ^ x.s < 2 ^ 96 := lt_of_le_of_lt (Nat.mod_le _ _) x.small
    rw [val_zero_iff, fract, mk'_eq hsm x.scale] at this
    exact Nat.dvd_of_mod_eq_zero this
  have e : 10 ^ x.s = 10 ^ k * 10 ^ (x.s - k) := by rw [← pow_add]; congr 1; omega
  obtain ⟨j, hj⟩ := hw
  have : even x.c (10 ^ (x.s - k)) = j * 10 ^ k := by
    rw [hj, e, show 10 ^ k * 10 ^ (x.s - k) * j = j * 10 ^ k * 10 ^ (x.s - k) by ring, even_exact (by positivity)]
  simp only [this]
  have hq : (x.c : ℚ) / 10 ^ x.s = j := by rw [hj]; push_cast; field_simp
  rw [hq]
  push_cast
  congr 1
  field_simp

theorem whole_val {neg : Bool} {k : ℕ} (h : k < 2 ^ 96) : (mk' neg k 0).val = ((if neg then -(k : ℤ) else k : ℤ) : ℚ) := by
  rw [mk'_eq h (by omega), val, int]; simp

theorem round_near (x : D96) : ∃ n : ℤ, (roundDp 0 x).val = n ∧ Bounded (1 / 2) (x.val - n) := by
  by_cases hk : x.s = 0
  · refine ⟨x.int, ?_, ?_⟩
    · unfold roundDp; rw [if_pos (by omega), val, hk]; simp
    · rw [val, hk]; simp [Bounded]
  · obtain ⟨h1, h2, -⟩ := even_near x.c (d := 10 ^ x.s) (by positivity)
    have h3 := even_small x.small (d := 10 ^ x.s) (by positivity)
    push_cast at h1 h2
    have hv := val_eq x
    unfold roundDp
    rw [if_neg (by omega), Nat.sub_zero]
    generalize even x.c (10 ^ x.s) = k at *
    rw [whole_val h3]
    refine ⟨if x.neg then -k else k, rfl, ?_⟩
    · rw [hv]
      generalize (x.c : ℚ) / 10 ^ x.s = q at *
      split
      · constructor <;> push_cast <;> linarith
      · constructor <;> push_cast <;> linarith

theorem div_bounds (x : D96) : ((x.c / 10 ^ x.s : ℕ) : ℚ) ≤ (x.c : ℚ) / 10 ^ x.s ∧ (x.c : ℚ) / 10 ^ x.s < ((x.c / 10 ^ x.s : ℕ) : ℚ) + 1 ∧
    (x.c % 10 ^ x.s = 0 → ((x.c / 10 ^ x.s : ℕ) : ℚ) = (x.c : ℚ) / 10 ^ x.s) ∧
    (x.c % 10 ^ x.s ≠ 0 → ((x.c / 10 ^ x.s : ℕ) : ℚ) < (x.c : ℚ) / 10 ^ x.s) := by
  have hp : (0 : ℚ) < 10 ^ x.s := by positivity
  have e : (10 ^ x.s : ℚ) * ((x.c / 10 ^ x.s : ℕ) : ℚ) + ((x.c % 10 ^ x.s : ℕ) : ℚ) = x.c := by exact_mod_cast Nat.div_add_mod x.c (10 ^ x.s)
  have hm : ((x.c % 10 ^ x.s : ℕ) : ℚ) < 10 ^ x.s := by exact_mod_cast Nat.mod_lt x.c (by positivity)
  have h0 : (0 : ℚ) ≤ ((x.c % 10 ^ x.s : ℕ) : ℚ) := by positivity
  refine ⟨?_, ?_, fun h => ?_, fun h => ?_⟩
  · rw [le_div_iff₀ hp]; linarith
  · rw [div_lt_iff₀ hp]; linarith
  · rw [eq_div_iff hp.ne']; rw [h] at e; push_cast at e; linarith
  · rw [lt_div_iff₀ hp]
    have : (0 : ℚ) < ((x.c % 10 ^ x.s : ℕ) : ℚ) := by exact_mod_cast Nat.pos_of_ne_zero h
    linarith

theorem whole_small (x : D96) (h : x.c % 10 ^ x.s ≠ 0) : x.c / 10 ^ x.s + 1 < 2 ^ 96 := by
  have hs : x.s ≠ 0 := by intro h0; rw [h0] at h; simp [Nat.mod_one] at h
  have h2 := x.small
  have : x.c / 10 ^ x.s ≤ x.c / 10 := Nat.div_le_div_left (by calc 10 = 10 ^ 1 := rfl
    _ ≤ 10 ^ x.s := Nat.pow_le_pow_right (by norm_num) (by omega)) (by norm_num)
  omega

theorem floor_val (x : D96) : ∃ n : ℤ, x.floor.val = n ∧ n ≤ x.val ∧ x.val < n + 1 := by
  obtain ⟨h1, h2, h3, h4⟩ := div_bounds x
  have hs := whole_small x
  have hs' : x.c / 10 ^ x.s < 2 ^ 96 := lt_of_le_of_lt (Nat.div_le_self _ _) x.small
  have hv := val_eq x
  unfold floor trunc
  generalize x.c / 10 ^ x.s = k at *
  generalize (x.c : ℚ) / 10 ^ x.s = q at *
  split
  · rename_i h
    rw [whole_val (hs h.2)]
    refine ⟨_, rfl, ?_⟩
    rw [h.1, if_pos rfl] at hv
    rw [if_pos rfl]
    have := h4 h.2
    push_cast
    constructor <;> linarith
  · rename_i h
    rw [whole_val hs']
    refine ⟨_, rfl, ?_⟩
    rw [hv]
    split
    · rename_i hn
      have := h3 (by by_contra hc; exact h ⟨hn, hc⟩)
      push_cast
      constructor <;> linarith
    · push_cast
      constructor <;> linarith

theorem ceil_val (x : D96) : ∃ n : ℤ, x.ceil.val = n ∧ n - 1 < x.val ∧ x.val ≤ n := by
  obtain ⟨h1, h2, h3, h4⟩ := div_bounds x
  have hs := whole_small x
  have hs' : x.c / 10 ^ x.s < 2 ^ 96 := lt_of_le_of_lt (Nat.div_le_self _ _) x.small
  have hv := val_eq x
  unfold ceil trunc
  generalize x.c / 10 ^ x.s = k at *
  generalize (x.c : ℚ) / 10 ^ x.s = q at *
  split
  · rename_i h
    rw [whole_val (hs h.2)]
    refine ⟨_, rfl, ?_⟩
    rw [h.1, if_neg (by simp)] at hv
    rw [if_neg (by simp)]
    have := h4 h.2
    push_cast
    constructor <;> linarith
  · rename_i h
    rw [whole_val hs']
    refine ⟨_, rfl, ?_⟩
    rw [hv]
    split
    · push_cast
      constructor <;> linarith
    · rename_i hn
      have := h3 (by by_contra hc; exact h ⟨by simpa using hn, hc⟩)
      push_cast
      constructor <;> linarith

theorem lit_val {neg : Bool} {c s : ℕ} (h : c < 2 ^ 96) (hs : s ≤ 28) : (lit neg c s).val = (if neg then -1 else 1) * ((c : ℚ) / 10 ^ s) := by
  rw [lit, mk'_eq h hs, val_eq]

/-- The model satisfies the contract of `rust_decimal`. -/
def laws {F : Type} (lib : Lib F) : (dec lib).Laws where
  val := val
  range := val_range
  nat n hn := by show (lit false n 0).val = _; rw [lit_val hn (by omega)]; simp
  natSign n := by show (mk' false n 0).neg = false; unfold mk'; split <;> rfl
  add := add_rounded
  sub x y h := by
    rcases sub_eq x y with ⟨z, h1, h2, h3⟩ | ⟨h1, h2⟩
    · refine ⟨z, h1, ?_⟩
      rw [h3, (val_zero_iff y).2 h2, sub_zero]
      exact rounded_self _
    · show ∃ z, sub x y = some z ∧ _
      rw [h2, sub_eq_add_neg, ← val_opp]
      exact add_rounded x y.opp (by rw [val_opp, ← sub_eq_add_neg]; exact h)
  mul := mul_rounded
  div := div_rounded
  addOver := add_beyond
  subOver x y h := by
    show sub x y = none
    rcases sub_eq x y with ⟨z, h1, h2, h3⟩ | ⟨h1, h2⟩
    · rw [(val_zero_iff y).2 h2, sub_zero] at h
      obtain ⟨h4, h5⟩ := representable_bounded (val_range x)
      unfold maxDecimal at h4 h5
      rcases h with h | h <;> push_cast at h h4 h5 <;> linarith
    · rw [h2]
      exact add_beyond x y.opp (by rw [val_opp, ← sub_eq_add_neg]; exact h)
  mulOver := mul_beyond
  divZero x y h := by show div x y = none; unfold div; rw [if_pos ((val_zero_iff y).1 h)]
  remZero x y h := by show rem x y = none; unfold rem; rw [if_pos ((val_zero_iff y).1 h)]
  rem := rem_val
  neg := val_opp
  eq := eq_iff
  lt := lt_iff
  isZero x := by show decide (x.c = 0) = true ↔ _; rw [decide_eq_true_iff, val_zero_iff]
  isOne x := by show eq x (lit false 1 0) = true ↔ _; rw [eq_iff, lit_val (by norm_num) (by omega)]; simp
  sign := val_sign
  fract := fract_iff
  toI64 x n h := by show toI64 x = _; unfold toI64; rw [trunc_int x h]
  abs := val_abs
  round := round_near
  floor := floor_val
  ceil := ceil_val
  trunc := trunc_val
  roundDp := roundDp_whole
  oneMinus := by simp only [dec]; decide +kernel
  pi := by simp only [dec]; decide +kernel
  pi2 := by simp only [dec]; decide +kernel
  pi2Minus := by simp only [dec]; decide +kernel
  piHalf := by simp only [dec]; decide +kernel
  piQuarter := by simp only [dec]; decide +kernel
  precision := by simp only [dec]; decide +kernel
  half := by simp only [dec]; decide +kernel
  third := by simp only [dec]; decide +kernel
  ln10 := by simp only [dec]; decide +kernel
  e := by simp only [dec]; decide +kernel
  pi3Half := by simp only [dec]; decide +kernel

/-- What `fit` gives for numbers up to 7. -/
theorem fit_seven {neg : Bool} {n d cap : ℕ} {z : D96} (hd : 0 < d) (h : fit neg n d cap = some z) (he : d ∣ n * 10 ^ cap ∨ 28 ≤ cap) {q : ℚ}
    (hq : q = (if neg then -1 else 1) * ((n : ℚ) / d)) (hb : Bounded 7 q) : ∃ k : ℤ, z.val * 10 ^ 28 = k ∧ NearestEven k (q * 10 ^ 28) := by
  have hd' : (0 : ℚ) < d := by exact_mod_cast hd
  have hle : (n : ℚ) / d ≤ 7 := by
    obtain ⟨h1, h2⟩ := hb
    cases neg <;> simp at hq <;> linarith
  obtain ⟨h1, h2, h3, h4⟩ := fit_spec h
  have exact_case : ∀ k, n * 10 ^ z.s = d * k → ∃ k : ℤ, z.val * 10 ^ 28 = k ∧ NearestEven k (q * 10 ^ 28) := by
    intro k hk
    have hc : z.c = k := by rw [h2, hk, Nat.mul_comm]; exact even_exact hd
    have e : (10 : ℚ) ^ 28 = 10 ^ z.s * 10 ^ (28 - z.s) := by rw [← pow_add]; congr 1; have := z.scale; omega
    have hzq : z.val = q := by
      rw [val_eq, hq, h1, hc]
      congr 1
      rw [div_eq_div_iff (by positivity) hd'.ne']
      have : (n : ℚ) * 10 ^ z.s = d * k := by exact_mod_cast hk
      linarith
    refine ⟨z.int * 10 ^ (28 - z.s), ?_, ?_⟩
    · rw [val, e]; push_cast; field_simp
    · rw [← hzq, val, e]
      have : (z.int : ℚ) / 10 ^ z.s * (10 ^ z.s * 10 ^ (28 - z.s)) = ((z.int * 10 ^ (28 - z.s) : ℤ) : ℚ) := by push_cast; field_simp
      rw [this]
      refine ⟨by linarith, by linarith, fun h => ?_⟩
      rcases h with h | h <;> linarith
  by_cases h28 : z.s = 28
  · obtain ⟨e1, e2, e3⟩ := even_near (n * 10 ^ 28) hd
    rw [h28] at h2
    rw [← h2] at e1 e2 e3
    have hq' : q * 10 ^ 28 = (if neg then -1 else 1) * (((n * 10 ^ 28 : ℕ) : ℚ) / d) := by rw [hq]; push_cast; ring
    refine ⟨z.int, by rw [val, h28]; field_simp, ?_⟩
    rw [hq']
    generalize (((n * 10 ^ 28 : ℕ) : ℚ) / d) = p at *
    unfold int
    rw [h1]
    cases neg
    · simp only [Bool.false_eq_true, if_false, one_mul]
      exact ⟨e1, e2, e3⟩
    · simp only [if_true, neg_mul, one_mul]
      refine ⟨by push_cast at *; linarith, by push_cast at *; linarith, fun h => ?_⟩
      have := e3 (by push_cast at *; rcases h with h | h <;> [right; left] <;> linarith)
      omega
  · rcases h4 with h4 | h4 | h4
    · rcases he with he | he
      · obtain ⟨k, hk⟩ := he
        rw [← h4] at hk
        exact exact_case k hk
      · exact absurd (le_antisymm z.scale (by omega)) h28
    · exact absurd h4 h28
    · exfalso
      have hn : n ≤ 7 * d := by
        rw [div_le_iff₀ hd'] at hle
        exact_mod_cast hle
      have hs := z.scale
      have : even (n * 10 ^ (z.s + 1)) d ≤ 7 * 10 ^ (z.s + 1) := by
        refine even_le hd ?_
        calc n * 10 ^ (z.s + 1) ≤ 7 * d * 10 ^ (z.s + 1) := Nat.mul_le_mul_right _ hn
          _ = _ := by ring
      have h5 : 10 ^ (z.s + 1) ≤ 10 ^ 28 := Nat.pow_le_pow_right (by norm_num) (by omega)
      have h6 : (7 : ℕ) * 10 ^ 28 < 2 ^ 96 := by norm_num
      omega

/-- It rounds products and quotients half to even. -/
theorem ties {F : Type} (lib : Lib F) : (laws lib).TiesToEven where
  mul x y z hb h := by
    replace h : mul x y = some z := h
    replace hb : Bounded 7 (x.val * y.val) := hb
    show ∃ k : ℤ, z.val * 10 ^ 28 = k ∧ NearestEven k (x.val * y.val * 10 ^ 28)
    unfold mul at h
    split at h
    · rename_i h0
      cases h
      have : x.val * y.val = 0 := by rcases h0 with h0 | h0 <;> simp [(val_zero_iff _).2 h0]
      rw [this, zero_val]
      exact ⟨0, by simp, by norm_num [NearestEven]⟩
    · exact fit_seven (by positivity) h (mul_exact x y) (mul_val x y) hb
  div x y z h0 hb h := by
    replace h0 : y.val ≠ 0 := h0
    replace h : div x y = some z := h
    replace hb : Bounded 7 (x.val / y.val) := hb
    show ∃ k : ℤ, z.val * 10 ^ 28 = k ∧ NearestEven k (x.val / y.val * 10 ^ 28)
    have hy : y.c ≠ 0 := fun h => h0 ((val_zero_iff y).2 h)
    unfold div at h
    rw [if_neg hy] at h
    split at h
    · rename_i hx
      cases h
      rw [(val_zero_iff x).2 hx, zero_div, zero_val]
      exact ⟨0, by simp, by norm_num [NearestEven]⟩
    · rw [Option.map_eq_some_iff] at h
      obtain ⟨w, h1, rfl⟩ := h
      rw [strip_val _ _ _ w.small w.scale]
      exact fit_seven (by positivity) h1 (.inr le_rfl) (div_val x y hy) hb

end Prexel.D96
