import Verif.Lemmas.Newton
/-!
# Heron's method on decimals up to 15
-/

set_option linter.unusedVariables false

namespace Prexel
variable {D F : Type} {d : Dec D F}

theorem NearestEven.quotient {Q X R : Int} (hR : 0 < R) (h : NearestEven Q ((X : Rat) / R)) :
    2 * Q * R ≤ 2 * X + R ∧ 2 * X - R ≤ 2 * Q * R ∧ (2 * Q * R = 2 * X + R ∨ 2 * Q * R = 2 * X - R → Q % 2 = 0) := by
  obtain ⟨h1, h2, h3⟩ := h
  have hR' : (0 : Rat) < R := by exact_mod_cast hR
  have e : (X : Rat) / R * R = X := div_mul_cancel₀ _ hR'.ne'
  obtain ⟨q, hq⟩ : ∃ q, (X : Rat) / R = q := ⟨_, rfl⟩
  rw [hq] at h1 h2 h3 e
  refine ⟨?_, ?_, fun h => h3 ?_⟩
  · have : (2 * Q * R : Rat) ≤ 2 * X + R := by nlinarith
    exact_mod_cast this
  · have : (2 * X - R : Rat) ≤ 2 * Q * R := by nlinarith
    exact_mod_cast this
  · rcases h with h | h
    · right
      have : (2 * Q * R : Rat) = 2 * X + R := by exact_mod_cast h
      have : ((Q : Rat) - (q + 1 / 2)) * R = 0 := by linarith
      rcases mul_eq_zero.mp this with h | h
      · linarith
      · exact absurd h hR'.ne'
    · left
      have : (2 * Q * R : Rat) = 2 * X - R := by exact_mod_cast h
      have : ((Q : Rat) - (q - 1 / 2)) * R = 0 := by linarith
      rcases mul_eq_zero.mp this with h | h
      · linarith
      · exact absurd h hR'.ne'

theorem NearestEven.halved {T S : Int} (h : NearestEven T ((S : Rat) / 2)) :
    2 * T ≤ S + 1 ∧ S - 1 ≤ 2 * T ∧ (2 * T = S + 1 ∨ 2 * T = S - 1 → T % 2 = 0) := by
  obtain ⟨h1, h2, h3⟩ := h
  refine ⟨?_, ?_, fun h => h3 ?_⟩
  · have : (2 * T : Rat) ≤ S + 1 := by linarith
    exact_mod_cast this
  · have : (S - 1 : Rat) ≤ 2 * T := by linarith
    exact_mod_cast this
  · rcases h with h | h
    · right
      have : (2 * T : Rat) = S + 1 := by exact_mod_cast h
      linarith
    · left
      have : (2 * T : Rat) = S - 1 := by exact_mod_cast h
      linarith

/-- In the range of the method. -/
structure HeronRange (X a : Int) : Prop where
  low : a * a ≤ X
  high : X < (a + 1) * (a + 1)
  large : 10 ^ 14 ≤ a
  small : a < 39 * 10 ^ 27

/-- Near the root. -/
def NearRoot (a R : Int) : Prop := 999 * a ≤ 1000 * R ∧ 1000 * R ≤ 1001 * (a + 1)

theorem NearRoot.first {X a R Q T : Int} (H : HeronRange X a) (hn : NearRoot a R) (h : Heron X R Q T) :
    3600 * (T - (a + 1)) ≤ 2700 + 2 * (R / 900) := by
  obtain ⟨low, high, large, small⟩ := H
  obtain ⟨h1, h2⟩ := hn
  have hR : 0 < R := by omega
  have u := h.upper hR high
  have h3 : 900 * (R - (a + 1)) ^ 2 ≤ R * (R / 900) := by
    have k1 : R - (a + 1) ≤ R / 900 := by omega
    have k2 : -(R / 900) ≤ R - (a + 1) := by omega
    have : (R - (a + 1)) ^ 2 ≤ (R / 900) ^ 2 := sq_le_sq' k2 k1
    have k4 : 0 ≤ R / 900 := by omega
    have k5 : 900 * (R / 900) ≤ R := by omega
    nlinarith
  have h4 : R * (3600 * (T - (a + 1)) - 2700 - 2 * (R / 900)) ≤ 0 := by nlinarith
  have h5 : 3600 * (T - (a + 1)) - 2700 - 2 * (R / 900) ≤ 0 := by
    by_contra hc2
    push Not at hc2
    nlinarith
  omega

theorem NearRoot.next {X a R Q T : Int} (H : HeronRange X a) (hn : NearRoot a R) (h : Heron X R Q T) : NearRoot a T := by
  have f := hn.first H h
  obtain ⟨low, high, large, small⟩ := H
  obtain ⟨h1, h2⟩ := hn
  have l := h.lower (by omega) low
  exact ⟨by omega, by omega⟩

/-- The distance to the root is squared. -/
theorem heron_shrink {a R k t c : Int} (u : 4 * R * t ≤ 2 * k ^ 2 + 3 * R) (ha : 8 ≤ a) (hR : a ≤ R) (hk : -1 ≤ k) (hc : 2 ≤ c)
    (h : c * k ≤ a + 2 * c) : 2 * c ^ 2 * t ≤ a + 4 * c ^ 2 := by
  have h1 : (c * k) ^ 2 ≤ (a + 2 * c) ^ 2 := sq_le_sq' (by nlinarith) h
  have h2 : c ^ 2 * (4 * R * t) ≤ c ^ 2 * (2 * k ^ 2 + 3 * R) := mul_le_mul_of_nonneg_left u (by positivity)
  have h3 : R * (4 * c ^ 2 * t - (2 * a + 8 * c + 4 * c ^ 2)) ≤ 0 := by
    have e1 : a * a ≤ a * R := by nlinarith
    have e2 : a * c ≤ R * c := by nlinarith
    have e3 : 8 * c ^ 2 ≤ R * c ^ 2 := by nlinarith [sq_nonneg c]
    nlinarith
  have h4 : 4 * c ^ 2 * t - (2 * a + 8 * c + 4 * c ^ 2) ≤ 0 := by
    by_contra hc2
    push Not at hc2
    have : 0 < R := by omega
    nlinarith
  nlinarith

namespace Dec.Laws
variable (L : d.Laws)
include L

theorem heron_step (E : L.TiesToEven) {x r : D} {X R a : Int} (hX : L.val x * 10 ^ 56 = X) (hr : L.val r * 10 ^ 28 = R)
    (H : HeronRange X a) (hn : NearRoot a R) :
    ∃ z1 z2 z3 Q T, d.cdiv x r = .ok z1 ∧ d.cadd z1 r = .ok z2 ∧ d.cmul d.half z2 = .ok z3 ∧ L.val z3 * 10 ^ 28 = (T : Int) ∧ Heron X R Q T := by
  have H0 := H
  have hn0 := hn
  obtain ⟨low, high, large, small⟩ := H
  obtain ⟨h1, h2⟩ := hn
  have hR : 0 < R := by omega
  have hR' : (0 : Rat) < R := by exact_mod_cast hR
  have er : L.val r = R / 10 ^ 28 := by rw [eq_div_iff (by norm_num)]; exact hr
  have ex : L.val x = X / 10 ^ 56 := by rw [eq_div_iff (by norm_num)]; exact hX
  have hr0 : L.val r ≠ 0 := by rw [er]; positivity
  have hX0 : 0 ≤ X := by nlinarith
  have eq : L.val x / L.val r = (X : Rat) / R / 10 ^ 28 := by
    rw [er, ex]; field_simp
  have hXR : X < 391 * 10 ^ 26 * R := by
    have h3 : (a + 1) * (1000 * (a + 1)) ≤ 39 * 10 ^ 27 * (1002 * R) :=
      mul_le_mul (by omega) (by omega) (by omega) (by norm_num)
    nlinarith
  have q0 : 0 ≤ (X : Rat) / R := by positivity
  have q1 : (X : Rat) / R < 391 * 10 ^ 26 := by
    rw [div_lt_iff₀ hR']
    exact_mod_cast hXR
  have b7 : Bounded 7 (L.val x / L.val r) := by
    rw [eq]
    constructor
    · have : 0 ≤ (X : Rat) / R / 10 ^ 28 := by positivity
      linarith
    · rw [div_le_iff₀ (by norm_num)]; linarith
  have bm : ∀ {q : Rat}, Bounded 7 q → Bounded maxDecimal q := fun h => by
    unfold Bounded at *
    rw [maxDecimal_eq]
    constructor <;> linarith [h.1, h.2]
  obtain ⟨z1, e1, -⟩ := L.div x r hr0 (bm b7)
  obtain ⟨Q, hQ, nQ⟩ := E.div x r z1 hr0 b7 e1
  rw [eq, div_mul_cancel₀ _ (by norm_num)] at nQ
  obtain ⟨a1, a2, a3⟩ := nQ.quotient hR
  have Q0 : 0 ≤ Q := by
    by_contra hc
    push Not at hc
    nlinarith
  have Q1 : Q ≤ 3911 * 10 ^ 25 := by
    by_contra hc
    push Not at hc
    nlinarith [hXR]
  have e1' : L.val z1 = Q / 10 ^ 28 := by rw [eq_div_iff (by norm_num)]; exact hQ
  have es : L.val z1 + L.val r = ((Q + R : Int) : Rat) / 10 ^ 28 := by rw [e1', er]; push_cast; ring
  have hrep : Representable (L.val z1 + L.val r) := by
    refine ⟨28, by omega, Q + R, by omega, ?_⟩
    rw [es]
    push_cast
    ring
  obtain ⟨z2, e2, r2⟩ := L.add z1 r (representable_bounded hrep)
  have v2 := r2.eq hrep
  have em : L.val d.half * L.val z2 = ((Q + R : Int) : Rat) / 2 / 10 ^ 28 := by rw [v2, es, L.half]; ring
  have hQR : ((Q + R : Int) : Rat) ≤ 8 * 10 ^ 28 := by
    have : Q + R ≤ 8 * 10 ^ 28 := by omega
    exact_mod_cast this
  have hQR0 : (0 : Rat) ≤ ((Q + R : Int) : Rat) := by
    have : 0 ≤ Q + R := by omega
    exact_mod_cast this
  have b7' : Bounded 7 (L.val d.half * L.val z2) := by
    rw [em]
    constructor
    · have : 0 ≤ ((Q + R : Int) : Rat) / 2 / 10 ^ 28 := by positivity
      linarith
    · rw [div_le_iff₀ (by norm_num)]; linarith
  obtain ⟨z3, e3, -⟩ := L.mul d.half z2 (bm b7')
  obtain ⟨T, hT, nT⟩ := E.mul d.half z2 z3 b7' e3
  rw [em, div_mul_cancel₀ _ (by norm_num)] at nT
  obtain ⟨b1, b2, b3⟩ := nT.halved
  exact ⟨z1, z2, z3, Q, T, by simp [Dec.cdiv, e1, Ops.orOverflow, Res.ofOption], by simp [Dec.cadd, e2, Ops.orOverflow, Res.ofOption],
    by simp [Dec.cmul, e3, Ops.orOverflow, Res.ofOption], hT, ⟨a1, a2, a3, b1, b2, b3⟩⟩

/-- Back and forth for ever. -/
theorem heron_hangs (E : L.TiesToEven) {x : D} {X a : Int} (hX : L.val x * 10 ^ 56 = X) (H : HeronRange X a) (he : a % 2 = 0)
    (h : 2 * X = 2 * (a * a) + 3 * a) (fuel : Nat) : ∀ (p r : D) (R : Int), L.val r * 10 ^ 28 = R → NearRoot a R → L.val p ≠ L.val r →
    d.sqrtLoop x fuel p r = .panic := by
  have large := H.large
  induction fuel with
  | zero =>
    intro p r R hr hn hp
    have : d.eq p r = false := by rw [Bool.eq_false_iff]; exact fun h => hp ((L.eq p r).mp h)
    simp [Dec.sqrtLoop, this]
  | succ fuel ih =>
    intro p r R hr hn hp
    have : d.eq p r = false := by rw [Bool.eq_false_iff]; exact fun h => hp ((L.eq p r).mp h)
    obtain ⟨z1, z2, z3, Q, T, e1, e2, e3, hT, hh⟩ := L.heron_step E hX hr H hn
    simp only [Dec.sqrtLoop, this, Bool.false_eq_true, if_false, Res.bind_eq, e1, e2, e3, Res.bind_ok]
    refine ih r z3 T hT (hn.next H hh) fun hv => ?_
    rw [hv, hT] at hr
    have hTR : T = R := by exact_mod_cast hr
    subst hTR
    have hT2 : 2 < T := by have := hn.1; omega
    rcases hh.fixed hT2 H.low H.high (by omega) with rfl | rfl
    · have := hh.cycle_up (by omega) he h
      omega
    · have := hh.cycle_down (by omega) he h
      omega

/-- The loop returns a neighbour of the root that the next round would not change. -/
def _root_.Prexel.Settles (L : d.Laws) (x : D) (X a : Int) (P : Int → Prop) (n : Nat) : Prop :=
  ∀ fuel, n ≤ fuel → ∀ (p r : D) (R : Int), L.val r * 10 ^ 28 = R → NearRoot a R → P R → (L.val p = L.val r → ∃ Q, Heron X R Q R) →
    ∃ z Z, d.sqrtLoop x fuel p r = .ok z ∧ L.val z * 10 ^ 28 = (Z : Int) ∧ (Z = a ∨ Z = a + 1) ∧ ∃ Q, Heron X Z Q Z

theorem settles_lift (E : L.TiesToEven) {x : D} {X a : Int} (hX : L.val x * 10 ^ 56 = X) (H : HeronRange X a) {P P' : Int → Prop} {n : Nat}
    (hs : ∀ R Q T, NearRoot a R → P' R → Heron X R Q T → P T) (hP : Settles L x X a P n) : Settles L x X a P' (n + 1) := by
  intro fuel hf p r R hr hn hR hp
  have large := H.large
  obtain ⟨fuel, rfl⟩ : ∃ m, fuel = m + 1 := ⟨fuel - 1, by omega⟩
  by_cases he : d.eq p r = true
  · obtain ⟨Q, hQ⟩ := hp ((L.eq p r).mp he)
    exact ⟨r, R, by simp [Dec.sqrtLoop, he], hr, hQ.fixed (by have := hn.1; omega) H.low H.high (by omega), Q, hQ⟩
  · obtain ⟨z1, z2, z3, Q, T, e1, e2, e3, hT, hh⟩ := L.heron_step E hX hr H hn
    simp only [Dec.sqrtLoop, he, Bool.false_eq_true, if_false, Res.bind_eq, e1, e2, e3, Res.bind_ok]
    refine hP fuel (by omega) r z3 T hT (hn.next H hh) (hs R Q T hn hR hh) fun hv => ?_
    rw [hv, hT] at hr
    have hTR : T = R := by exact_mod_cast hr
    subst hTR
    exact ⟨Q, hh⟩

/-- At the root, the loop ends unless it goes back and forth. -/
theorem settles_zero (E : L.TiesToEven) {x : D} {X a : Int} (hX : L.val x * 10 ^ 56 = X) (H : HeronRange X a)
    (h : ¬ (a % 2 = 0 ∧ 2 * X = 2 * (a * a) + 3 * a)) : Settles L x X a (fun R => R = a ∨ R = a + 1) 2 := by
  intro fuel hf p r R hr hn hR hp
  have large := H.large
  obtain ⟨fuel, rfl⟩ : ∃ m, fuel = m + 2 := ⟨fuel - 2, by omega⟩
  have next : ∀ {R Q T}, (R = a ∨ R = a + 1) → Heron X R Q T → T = a ∨ T = a + 1 := by
    intro R Q T hR hh
    have l := hh.lower (by omega) H.low
    have u := hh.near (k := 1) (by omega) H.high (by omega) (by omega) (by omega)
    omega
  by_cases he : d.eq p r = true
  · exact ⟨r, R, by simp [Dec.sqrtLoop, he], hr, hR, hp ((L.eq p r).mp he)⟩
  · obtain ⟨z1, z2, z3, Q, T, e1, e2, e3, hT, hh⟩ := L.heron_step E hX hr H hn
    have hTa := next hR hh
    rw [show d.sqrtLoop x (fuel + 2) p r = d.sqrtLoop x (fuel + 1) r z3 by
      rw [Dec.sqrtLoop]
      simp only [he, Bool.false_eq_true, if_false, Res.bind_eq, e1, e2, e3, Res.bind_ok]]
    by_cases he : d.eq r z3 = true
    · refine ⟨z3, T, by simp [Dec.sqrtLoop, he], hT, hTa, Q, ?_⟩
      have : R = T := by
        have hv := (L.eq r z3).mp he
        rw [hv, hT] at hr
        exact_mod_cast hr.symm
      exact this ▸ hh
    · obtain ⟨z1', z2', z3', Q', T', e1', e2', e3', hT', hh'⟩ := L.heron_step E hX hT H (hn.next H hh)
      have hTa' := next hTa hh'
      rw [show d.sqrtLoop x (fuel + 1) r z3 = d.sqrtLoop x fuel z3 z3' by
        rw [Dec.sqrtLoop]
        simp only [he, Bool.false_eq_true, if_false, Res.bind_eq, e1', e2', e3', Res.bind_ok]]
      have hne : R ≠ T := by
        rintro rfl
        refine he ((L.eq _ _).mpr ?_)
        rw [← hT] at hr
        exact mul_right_cancel₀ (by norm_num) hr
      have hTT : T' = T := by
        by_contra hc
        rcases hR with rfl | rfl <;> rcases hTa with rfl | rfl
        · omega
        · obtain rfl : T' = R := by omega
          exact h (hh.cycle hh' (by omega))
        · obtain rfl : T' = T + 1 := by omega
          exact h (hh'.cycle hh (by omega))
        · omega
      subst hTT
      have heq : d.eq z3 z3' = true := by
        refine (L.eq _ _).mpr ?_
        rw [← hT] at hT'
        exact (mul_right_cancel₀ (by norm_num) hT').symm
      refine ⟨z3', T', ?_, hT', hTa', Q', hh'⟩
      cases fuel <;> simp [Dec.sqrtLoop, heq]

/-- The loop ends after at most six rounds, unless it goes back and forth. -/
theorem heron_ends (E : L.TiesToEven) {x : D} {X a : Int} (hX : L.val x * 10 ^ 56 = X) (H : HeronRange X a)
    (h : ¬ (a % 2 = 0 ∧ 2 * X = 2 * (a * a) + 3 * a)) : Settles L x X a (fun _ => True) 6 := by
  have large := H.large
  have small := H.small
  have s0 := L.settles_zero E hX H h
  have s1 : Settles L x X a (fun R => a ≤ R ∧ R - (a + 1) ≤ 40000) 3 := by
    refine L.settles_lift E hX H (fun R Q T hn hR hh => ?_) s0
    have l := hh.lower (by omega) H.low
    have u := hh.near (k := 40000) (by omega) H.high hR.2 (by omega) (by omega)
    omega
  have s2 : Settles L x X a (fun R => a ≤ R ∧ 10 ^ 12 * (R - (a + 1)) ≤ a + 2 * 10 ^ 12) 4 := by
    refine L.settles_lift E hX H (fun R Q T hn hR hh => ?_) s1
    obtain ⟨h1, h2⟩ := hR
    have hR0 : 0 < R := by omega
    refine ⟨hh.lower hR0 H.low, ?_⟩
    have := heron_shrink (hh.upper hR0 H.high) (by omega) h1 (by omega) (by norm_num) h2
    omega
  have s3 : Settles L x X a (fun R => a ≤ R ∧ 10 ^ 6 * (R - (a + 1)) ≤ a + 2 * 10 ^ 6) 5 := by
    refine L.settles_lift E hX H (fun R Q T hn hR hh => ?_) s2
    obtain ⟨h1, h2⟩ := hR
    have hR0 : 0 < R := by omega
    refine ⟨hh.lower hR0 H.low, ?_⟩
    have := heron_shrink (hh.upper hR0 H.high) (by omega) h1 (by omega) (by norm_num) h2
    omega
  refine L.settles_lift E hX H (fun R Q T hn hR hh => ?_) s3
  have hR0 : 0 < R := by have := hn.1; omega
  refine ⟨hh.lower hR0 H.low, ?_⟩
  have := hn.first H hh
  have := hn.2
  omega

end Dec.Laws
end Prexel
