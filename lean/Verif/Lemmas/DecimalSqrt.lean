import Verif.Lemmas.DecimalNear
import Mathlib.Analysis.SpecialFunctions.Sqrt
/-!
# The square root of decimals
-/

set_option linter.unusedVariables false

namespace Prexel
variable {D F : Type} {d : Dec D F}

theorem representable_pos {q : Rat} (h : Representable q) (h0 : 0 < q) : 1 / 10 ^ 28 ≤ q := by
  obtain ⟨s, hs, c, hc, h⟩ := h
  push_cast at h
  have hp : (0 : Rat) < 10 ^ s := by positivity
  have hc0 : (0 : Rat) < c := by rw [← h]; positivity
  have hc1 : (1 : Rat) ≤ c := by exact_mod_cast (by exact_mod_cast hc0 : 0 < c)
  have hle : (10 : Rat) ^ s ≤ 10 ^ 28 := pow_le_pow_right₀ (by norm_num) hs
  rw [div_le_iff₀ (by positivity)]
  nlinarith

theorem representable_le {q : Rat} (h : Representable q) : q ≤ 10 ^ 29 := by
  have := (representable_bounded h).2
  rw [maxDecimal_eq] at this
  linarith

namespace Dec.Laws
variable (L : d.Laws)
include L

theorem sqrt_step {x r : D} (hx : 0 < L.val x) (hr : 0 < L.val r) (h4 : L.val x ≤ 4 * L.val r ^ 2) (hr2 : L.val r ≤ 2 * 10 ^ 15) :
    ∃ z1 z2 z3, d.cdiv x r = .ok z1 ∧ d.cadd z1 r = .ok z2 ∧ d.cmul d.half z2 = .ok z3 ∧
      |L.val z3 - (L.val x / L.val r + L.val r) / 2| ≤ 4 * unit * (1 + L.val x / L.val r + L.val r) ∧
      0 < L.val z3 ∧ L.val x ≤ 4 * L.val z3 ^ 2 ∧ L.val z3 ≤ 2 * 10 ^ 15 := by
  have hxl := representable_pos (L.range x) hx
  have hxu := representable_le (L.range x)
  have hq : L.val x / L.val r * L.val r = L.val x := div_mul_cancel₀ _ hr.ne'
  have hq0 : 0 < L.val x / L.val r := div_pos hx hr
  obtain ⟨q, hqd⟩ : ∃ q, L.val x / L.val r = q := ⟨_, rfl⟩
  obtain ⟨X, hX⟩ : ∃ X, L.val x = X := ⟨_, rfl⟩
  obtain ⟨ρ, hρ⟩ : ∃ ρ, L.val r = ρ := ⟨_, rfl⟩
  have hqn : q ≤ 4 * ρ := by
    rw [← hqd, div_le_iff₀ hr, hρ]; rw [hρ] at h4; nlinarith
  have hqs : q ≤ 7 * 10 ^ 14 := by
    by_contra hc
    push Not at hc
    rw [hqd, hρ, hX] at hq
    rw [hX] at hxu
    nlinarith
  have u : unit = 2 / 10 ^ 28 := rfl
  rw [hqd] at hq0
  have ha1 : (1 : Rat) ≤ 1 + q + ρ := by rw [← hρ]; linarith
  have hab : 1 + q + ρ ≤ 3 * 10 ^ 15 := by rw [hρ] at hr2; linarith
  rw [hρ] at hr hr2
  have ue : unit * (1 + q + ρ) ≤ 1 := by rw [u]; linarith
  obtain ⟨z1, e1, n1, -⟩ := L.cdiv_near (x := x) (y := r) (a := 1 + q + ρ) (by rw [hρ]; exact hr.ne') ha1
    (by rw [hqd, abs_of_pos hq0]; linarith) (by linarith)
  rw [hqd, abs_le] at n1
  obtain ⟨z2, e2, n2, -⟩ := L.cadd_near (x := z1) (y := r) (a := 2 * (1 + q + ρ)) (by linarith)
    (by rw [hρ, abs_le]; constructor <;> linarith) (by linarith)
  rw [hρ, abs_le] at n2
  obtain ⟨z3, e3, n3, -⟩ := L.cmul_near (x := d.half) (y := z2) (a := 2 * (1 + q + ρ)) (by linarith)
    (by rw [L.half, abs_le]; constructor <;> linarith) (by linarith)
  rw [L.half, abs_le] at n3
  have hmain : |L.val z3 - (q + ρ) / 2| ≤ 4 * unit * (1 + q + ρ) := by
    rw [abs_le]; constructor <;> linarith
  rw [hqd, hX, hρ] at hq
  rw [hX] at hxl
  have hA : (q + ρ) / 2 ≥ 1 / 10 ^ 14 := by
    by_contra hc
    push Not at hc
    have : ((q + ρ) / 2) ^ 2 < (1 / 10 ^ 14) ^ 2 := pow_lt_pow_left₀ hc (by linarith) (by norm_num)
    nlinarith [sq_nonneg (q - ρ)]
  have hlow : (q + ρ) / 2 / 2 ≤ L.val z3 := by
    rw [abs_le, u] at hmain
    linarith
  refine ⟨z1, z2, z3, e1, e2, e3, ?_, by linarith, ?_, ?_⟩
  · rw [hqd, hρ]; exact hmain
  · rw [hX]
    have : ((q + ρ) / 2 / 2) ^ 2 ≤ L.val z3 ^ 2 := pow_le_pow_left₀ (by linarith) hlow 2
    nlinarith [sq_nonneg (q - ρ)]
  · rw [abs_le, u] at hmain
    linarith

/-- The loop never fails, and what it returns is close. -/
theorem sqrtLoop_near {x : D} (hx : 0 < L.val x) (fuel : Nat) : ∀ (p r : D), 0 < L.val r → L.val x ≤ 4 * L.val r ^ 2 → L.val r ≤ 2 * 10 ^ 15 →
    (L.val p = L.val r → |(L.val x / L.val r - L.val r) / 2| ≤ 4 * unit * (1 + L.val x / L.val r + L.val r)) →
    d.sqrtLoop x fuel p r = .panic ∨
    ∃ z, d.sqrtLoop x fuel p r = .ok z ∧ 0 < L.val z ∧ |(L.val x / L.val z - L.val z) / 2| ≤ 4 * unit * (1 + L.val x / L.val z + L.val z) := by
  induction fuel with
  | zero =>
    intro p r h0 h4 h2 hp
    simp only [Dec.sqrtLoop]
    split
    · next he => exact .inr ⟨r, rfl, h0, hp ((L.eq p r).mp he)⟩
    · exact .inl rfl
  | succ fuel ih =>
    intro p r h0 h4 h2 hp
    simp only [Dec.sqrtLoop]
    split
    · next he => exact .inr ⟨r, rfl, h0, hp ((L.eq p r).mp he)⟩
    · obtain ⟨z1, z2, z3, e1, e2, e3, hn, k0, k4, k2⟩ := L.sqrt_step hx h0 h4 h2
      rw [e1]
      show ((d.cadd z1 r).bind _ = _ ∨ ∃ z, (d.cadd z1 r).bind _ = _ ∧ _)
      rw [e2]
      show ((d.cmul d.half z2).bind _ = _ ∨ ∃ z, (d.cmul d.half z2).bind _ = _ ∧ _)
      rw [e3]
      refine ih r z3 k0 k4 k2 fun he => ?_
      rw [← he] at hn ⊢
      rw [abs_sub_comm] at hn
      have : (L.val x / L.val r - L.val r) / 2 = (L.val x / L.val r + L.val r) / 2 - L.val r := by ring
      rw [this]
      exact hn

end Dec.Laws

/-- Close to the root. -/
theorem sqrt_close {X r : Rat} (hX : 0 < X) (hr : 0 < r) (h : |(X / r - r) / 2| ≤ 4 * unit * (1 + X / r + r)) :
    |(r : ℝ) - Real.sqrt X| ≤ 1 / 10 ^ 26 * max 1 (Real.sqrt X) := by
  have hq : X / r * r = X := div_mul_cancel₀ _ hr.ne'
  have hq0 : 0 < X / r := div_pos hX hr
  obtain ⟨q, hqd⟩ : ∃ q, X / r = q := ⟨_, rfl⟩
  rw [hqd] at h hq hq0
  have h' : |((q : ℝ) - r) / 2| ≤ 4 * (2 / 10 ^ 28) * (1 + q + r) := by
    have := (Rat.cast_le (K := ℝ)).mpr h
    unfold unit at this
    push_cast at this
    exact this
  have hqR : (q : ℝ) * r = X := by exact_mod_cast hq
  have hq0R : (0 : ℝ) < q := by exact_mod_cast hq0
  have hrR : (0 : ℝ) < r := by exact_mod_cast hr
  have hs := Real.sqrt_nonneg (X : ℝ)
  have hss : Real.sqrt X * Real.sqrt X = q * r := by rw [Real.mul_self_sqrt (by exact_mod_cast hX.le), hqR]
  obtain ⟨s, hsd⟩ : ∃ s, Real.sqrt (X : ℝ) = s := ⟨_, rfl⟩
  rw [hsd] at hs hss ⊢
  have hm1 : (1 : ℝ) ≤ max 1 s := le_max_left _ _
  have hm2 : s ≤ max 1 s := le_max_right _ _
  rw [abs_le] at h'
  have key : |(r : ℝ) - s| ≤ |(q : ℝ) - r| := by
    rcases le_total (q : ℝ) r with hle | hle
    · have h1 : s ≤ r := by nlinarith
      have h2 : (q : ℝ) ≤ s := by nlinarith
      rw [abs_of_nonneg (by linarith), abs_of_nonpos (by linarith)]; linarith
    · have h1 : (r : ℝ) ≤ s := by nlinarith
      have h2 : s ≤ q := by nlinarith
      rw [abs_of_nonpos (by linarith), abs_of_nonneg (by linarith)]; linarith
  have hb : |(q : ℝ) - r| ≤ 2 * (4 * (2 / 10 ^ 28) * (1 + q + r)) := by
    rw [abs_le]; constructor <;> linarith
  have hsum : (q : ℝ) + r ≤ 2 * s + 3 * |(q : ℝ) - r| := by
    have h3 := abs_le.mp key
    have h4 := abs_le.mp (le_refl |(q : ℝ) - r|)
    linarith
  linarith

/-- The square root: correct if the iteration ends. -/
theorem Dec.Laws.sqrt_near (L : d.Laws) {f : F64 F} (S : L.SqrtStart f) {x : D} (hx : 0 ≤ L.val x) (hs : d.isSignNegative x = false) :
    d.sqrt f x = .panic ∨
    ∃ z, d.sqrt f x = .ok z ∧ |(L.val z : ℝ) - Real.sqrt (L.val x : ℝ)| ≤ 1 / 10 ^ 26 * max 1 (Real.sqrt (L.val x : ℝ)) := by
  unfold Dec.sqrt
  rw [hs, if_neg (by simp)]
  rcases hx.eq_or_lt with h0 | hpos
  · obtain ⟨v, s, e1, e2, h⟩ := S.zero x h0.symm
    have heq : d.eq d.zero s = true := (L.eq _ _).mpr (by rw [h]; exact L.nat 0 (by decide))
    right
    refine ⟨s, ?_, by rw [h, ← h0]; simp⟩
    simp only [e1, e2, Ops.orOverflow, Res.ofOption, Res.bind_eq, Res.bind_ok]
    cases d.fuel <;> simp [Dec.sqrtLoop, heq]
  · obtain ⟨v, s, e1, e2, s0, s1, s2⟩ := S.pos x hpos
    simp only [e1, e2, Ops.orOverflow, Res.ofOption, Res.bind_eq, Res.bind_ok]
    have hxu := representable_le (L.range x)
    have hz0 : L.val d.zero = 0 := by have := L.nat 0 (by decide); exact_mod_cast this
    rcases L.sqrtLoop_near hpos d.fuel d.zero s s0 s1 (by nlinarith) (fun h => by rw [hz0] at h; rw [← h] at s0; exact absurd s0 (lt_irrefl _))
      with h | ⟨z, hz, z0, zn⟩
    · exact .inl h
    · exact .inr ⟨z, hz, sqrt_close hpos z0 zn⟩

end Prexel
