import Verif.Spec.Decimal
import Verif.Spec.Integer
/-!
# Lemmas about decimals
-/

set_option linter.unusedVariables false
set_option linter.unusedSimpArgs false

namespace Prexel
variable {D F : Type} {d : Dec D F}

theorem representable_int {n : Int} : Representable (n : Rat) ↔ n.natAbs < 2 ^ 96 := by
  constructor
  · rintro ⟨s, -, c, hc, h⟩
    have h' : n * (10 : Int) ^ s = c := by exact_mod_cast h
    have h1 : n.natAbs * (10 ^ s) = c.natAbs := by
      rw [← h', Int.natAbs_mul, Int.natAbs_pow]; rfl
    have h2 : 1 ≤ 10 ^ s := Nat.one_le_pow _ _ (by decide)
    have h3 : n.natAbs * 1 ≤ n.natAbs * 10 ^ s := Nat.mul_le_mul_left _ h2
    omega
  · intro h
    exact ⟨0, by omega, n, h, by simp⟩

/-- Whether a number is representable, as a program. -/
def representable (q : Rat) : Bool :=
  (List.range 29).any fun s => (q * ((10 : Int) ^ s : Int)).den == 1 && decide ((q * ((10 : Int) ^ s : Int)).num.natAbs < 2 ^ 96)

theorem eq_num {t : Rat} (h : t.den = 1) : t = (t.num : Rat) := by
  apply Rat.ext
  · rfl
  · simpa using h

theorem representable_iff (q : Rat) : representable q = true ↔ Representable q := by
  simp only [representable, Representable, List.any_eq_true, Bool.and_eq_true, List.mem_range, beq_iff_eq, decide_eq_true_eq]
  constructor
  · rintro ⟨s, hs, hd, hn⟩
    exact ⟨s, by omega, _, hn, eq_num hd⟩
  · rintro ⟨s, hs, c, hc, h⟩
    refine ⟨s, by omega, ?_, ?_⟩ <;> rw [h]
    · rfl
    · simpa using hc

instance (q : Rat) : Decidable (Representable q) := decidable_of_iff _ (representable_iff q)

theorem rat_pow_add (q : Rat) (i j : Nat) : q ^ (i + j) = q ^ i * q ^ j := by
  induction j with
  | zero => simp
  | succ j ih => rw [← Nat.add_assoc, Rat.pow_succ, ih, Rat.pow_succ, Rat.mul_assoc]

theorem ten_pow_pos (s : Nat) : (1 : Rat) ≤ ((10 : Int) ^ s : Int) := by
  have h : (1 : Int) ≤ (10 : Int) ^ s := by
    have := Nat.one_le_pow s 10 (by decide)
    exact_mod_cast this
  exact_mod_cast h

theorem le_of_mul_pow {a b : Rat} {s : Nat} (h : a * ((10 : Int) ^ s : Int) ≤ b * ((10 : Int) ^ s : Int)) : a ≤ b := by
  have h1 := ten_pow_pos s
  by_cases hab : a ≤ b
  · exact hab
  · have h2 := Rat.mul_lt_mul_of_pos_right (Rat.not_le.mp hab) (c := ((10 : Int) ^ s : Int)) (by grind)
    grind

theorem representable_bounded {q : Rat} (h : Representable q) : Bounded maxDecimal q := by
  obtain ⟨s, -, c, hc, h⟩ := h
  have h1 := ten_pow_pos s
  have hm : (0 : Rat) ≤ maxDecimal := by decide +kernel
  have h2 : maxDecimal ≤ maxDecimal * ((10 : Int) ^ s : Int) := by
    have := Rat.mul_le_mul_of_nonneg_left h1 hm
    rwa [Rat.mul_one] at this
  have h3 : (c : Rat) ≤ maxDecimal := by
    have : c ≤ 2 ^ 96 - 1 := by omega
    unfold maxDecimal
    exact Rat.intCast_le_intCast.mpr this
  have h4 : -maxDecimal ≤ (c : Rat) := by
    have : -(2 ^ 96 - 1) ≤ c := by omega
    unfold maxDecimal
    rw [← Rat.intCast_neg]
    exact Rat.intCast_le_intCast.mpr this
  constructor <;> apply le_of_mul_pow (s := s) <;> rw [h]
  · rw [Rat.neg_mul]; grind
  · grind

theorem Rounded.eq {z q : Rat} (h : Rounded z q) (hq : Representable q) : z = q :=
  Rat.le_antisymm ((h q hq).2 Rat.le_refl) ((h q hq).1 Rat.le_refl)

theorem beyond_int {n : Int} (h : 2 ^ 96 ≤ n.natAbs) : Beyond (n : Rat) := by
  unfold Beyond
  by_cases h0 : n < 0
  · left
    have : n ≤ - 2 ^ 96 := by omega
    exact_mod_cast this
  · right
    have : (2 ^ 96 : Int) ≤ n := by omega
    exact_mod_cast this

namespace Dec

theorem Laws.cadd (L : d.Laws) {x y : D} (h : Representable (L.val x + L.val y)) : ∃ z, d.cadd x y = .ok z ∧ L.val z = L.val x + L.val y := by
  obtain ⟨z, hz, hv⟩ := L.add x y (representable_bounded h)
  exact ⟨z, by simp [Dec.cadd, hz, Ops.orOverflow, Res.ofOption], hv.eq h⟩
theorem Laws.csub (L : d.Laws) {x y : D} (h : Representable (L.val x - L.val y)) : ∃ z, d.csub x y = .ok z ∧ L.val z = L.val x - L.val y := by
  obtain ⟨z, hz, hv⟩ := L.sub x y (representable_bounded h)
  exact ⟨z, by simp [Dec.csub, hz, Ops.orOverflow, Res.ofOption], hv.eq h⟩
theorem Laws.cmul (L : d.Laws) {x y : D} (h : Representable (L.val x * L.val y)) : ∃ z, d.cmul x y = .ok z ∧ L.val z = L.val x * L.val y := by
  obtain ⟨z, hz, hv⟩ := L.mul x y (representable_bounded h)
  exact ⟨z, by simp [Dec.cmul, hz, Ops.orOverflow, Res.ofOption], hv.eq h⟩
theorem Laws.cdiv (L : d.Laws) {x y : D} (h0 : L.val y ≠ 0) (h : Representable (L.val x / L.val y)) :
    ∃ z, d.cdiv x y = .ok z ∧ L.val z = L.val x / L.val y := by
  obtain ⟨z, hz, hv⟩ := L.div x y h0 (representable_bounded h)
  exact ⟨z, by simp [Dec.cdiv, hz, Ops.orOverflow, Res.ofOption], hv.eq h⟩
theorem Laws.cdiv_zero (L : d.Laws) {x y : D} (h : L.val y = 0) : d.cdiv x y = .err .overflow := by
  simp [Dec.cdiv, L.divZero x y h, Ops.orOverflow, Res.ofOption]
theorem Laws.crem_zero (L : d.Laws) {x y : D} (h : L.val y = 0) : d.crem x y = .err .overflow := by
  simp [Dec.crem, L.remZero x y h, Ops.orOverflow, Res.ofOption]

/-- Products of whole numbers. -/
theorem Laws.cmul_int (L : d.Laws) {x y : D} {a b : Int} (ha : L.val x = a) (hb : L.val y = b) :
    ((a * b).natAbs < 2 ^ 96 → ∃ z, d.cmul x y = .ok z ∧ L.val z = (a * b : Int)) ∧
    (2 ^ 96 ≤ (a * b).natAbs → d.cmul x y = .err .overflow) := by
  constructor
  · intro h
    obtain ⟨z, h1, h2⟩ := L.cmul (x := x) (y := y) (by rw [ha, hb, ← Rat.intCast_mul]; exact representable_int.mpr h)
    exact ⟨z, h1, by rw [h2, ha, hb, Rat.intCast_mul]⟩
  · intro h
    simp [Dec.cmul, L.mulOver x y (by rw [ha, hb, ← Rat.intCast_mul]; exact beyond_int h), Ops.orOverflow, Res.ofOption]

/-- Differences of whole numbers. -/
theorem Laws.sub_int (L : d.Laws) {x y : D} {a b : Int} (ha : L.val x = a) (hb : L.val y = b) (h : (a - b).natAbs < 2 ^ 96) :
    ∃ z, d.sub x y = .ok z ∧ L.val z = (a - b : Int) := by
  obtain ⟨z, h1, h2⟩ := L.csub (x := x) (y := y) (by rw [ha, hb, ← Rat.intCast_sub]; exact representable_int.mpr h)
  exact ⟨z, by simp [Dec.sub, h1, Res.unwrapNone], by rw [h2, ha, hb, Rat.intCast_sub]⟩

/-! ## Powers -/

theorem bitlen_half {e : Nat} (h : 2 ≤ e) : Nat.log2 e = Nat.log2 (e / 2) + 1 := by
  rw [Nat.log2_def e, if_pos h]

/-- The loop of `checked_powi` on any decimal: exact if all the powers up to the last square are representable. -/
theorem Laws.powiLoop (L : d.Laws) {q : Rat} (fuel : Nat) : ∀ (i j e : Nat) (r b : D), L.val r = q ^ i → L.val b = q ^ j → i < j →
    e < 2 ^ fuel → 0 < e → (∀ k, k ≤ j * 2 ^ (Nat.log2 e + 1) → Representable (q ^ k)) →
    ∃ z, d.powiLoop fuel r b e = .ok z ∧ L.val z = q ^ (i + j * e) := by
  induction fuel with
  | zero => intro i j e r b _ _ _ he h0; simp at he; omega
  | succ fuel ih =>
    intro i j e r b hr hb hij he h0 hk
    have h2j : 2 * j ≤ j * 2 ^ (Nat.log2 e + 1) := by
      rw [Nat.mul_comm 2 j]
      exact Nat.mul_le_mul_left _ (by rw [Nat.pow_succ]; have := Nat.one_le_two_pow (n := Nat.log2 e); omega)
    have hbb : ∃ z, d.cmul b b = .ok z ∧ L.val z = q ^ (2 * j) := by
      have hp : L.val b * L.val b = q ^ (2 * j) := by
        rw [hb, Nat.two_mul]
        exact (rat_pow_add q j j).symm
      obtain ⟨z, h1, h2⟩ := L.cmul (x := b) (y := b) (by rw [hp]; exact hk _ h2j)
      exact ⟨z, h1, by rw [h2, hp]⟩
    obtain ⟨b2, hb2, hb2v⟩ := hbb
    have hnext : ∀ (i' : Nat) (r' : D), L.val r' = q ^ i' → i' < 2 * j → i' + 2 * j * (e / 2) = i + j * e →
        ∃ z, d.powiLoop fuel r' b2 (e / 2) = .ok z ∧ L.val z = q ^ (i + j * e) := by
      intro i' r' hr' hi' hsum
      by_cases h1 : e / 2 = 0
      · have : d.powiLoop fuel r' b2 0 = .ok r' := by cases fuel <;> simp [Dec.powiLoop]
        rw [h1] at hsum ⊢
        exact ⟨r', this, by rw [hr', ← hsum]; simp⟩
      · have he2 : 2 ≤ e := by omega
        rw [← hsum]
        refine ih i' (2 * j) (e / 2) r' b2 hr' hb2v hi' (by rw [Nat.pow_succ] at he; omega) (by omega) ?_
        intro k hkk
        refine hk k (Nat.le_trans hkk ?_)
        rw [bitlen_half he2, Nat.pow_succ 2 (Nat.log2 (e / 2) + 1), Nat.mul_comm 2 j, Nat.mul_assoc]
        exact Nat.le_of_eq (by rw [Nat.mul_comm 2])
    unfold Dec.powiLoop
    rw [if_pos h0]
    by_cases ho : e % 2 ≠ 0
    · have hp : L.val r * L.val b = q ^ (i + j) := by rw [hr, hb]; exact (rat_pow_add q i j).symm
      obtain ⟨r', h1, h2⟩ := L.cmul (x := r) (y := b) (by rw [hp]; exact hk _ (by omega))
      obtain ⟨z, hz⟩ := hnext (i + j) r' (by rw [h2, hp]) (by omega) (by
        have he' : e = 2 * (e / 2) + 1 := by omega
        rw [he'] 
        have : (2 * (e / 2) + 1) / 2 = e / 2 := by omega
        rw [this, Nat.mul_add, Nat.mul_one, Nat.mul_comm 2 j, Nat.mul_assoc]; omega)
      refine ⟨z, ?_, hz.2⟩
      have : (e - 1) / 2 = e / 2 := by omega
      simp [ho, h1, hb2, this, hz.1]
    · obtain ⟨z, hz⟩ := hnext i r hr (by omega) (by
        have he' : e = 2 * (e / 2) := by omega
        rw [he']
        have : 2 * (e / 2) / 2 = e / 2 := by omega
        rw [this, Nat.mul_comm 2 j, Nat.mul_assoc])
      refine ⟨z, ?_, hz.2⟩
      simp only [ne_eq, Classical.not_not] at ho
      simp [ho, hb2, hz.1]

/-- The loop of `checked_powi` on a whole number: an overflow if the last square does not fit. -/
theorem Laws.powiLoop_over (L : d.Laws) {a : Int} (fuel : Nat) : ∀ (i j e : Nat) (r b : D), L.val r = (a ^ i : Int) → L.val b = (a ^ j : Int) →
    e < 2 ^ fuel → 0 < e → 2 ^ 96 ≤ a.natAbs ^ (j * 2 ^ (Nat.log2 e + 1)) → d.powiLoop fuel r b e = .err .overflow := by
  induction fuel with
  | zero => intro i j e r b _ _ he h0; simp at he; omega
  | succ fuel ih =>
    intro i j e r b hr hb he h0 hk
    have hcont : ∀ (i' : Nat) (r' : D), L.val r' = (a ^ i' : Int) →
        ((d.cmul b b).bind fun b2 => d.powiLoop fuel r' b2 (e / 2)) = .err .overflow := by
      intro i' r' hr'
      have hm := L.cmul_int hb hb
      rw [← Int.pow_add, ← Nat.two_mul] at hm
      by_cases hlt : (a ^ (2 * j)).natAbs < 2 ^ 96
      · obtain ⟨b2, h1, h2⟩ := hm.1 hlt
        rw [h1]
        by_cases h1 : e / 2 = 0
        · exfalso
          have : e = 1 := by omega
          subst this
          have hl : Nat.log2 1 = 0 := by decide
          rw [hl, Nat.zero_add, Nat.pow_one, Nat.mul_comm] at hk
          rw [Int.natAbs_pow] at hlt
          omega
        · refine ih i' (2 * j) (e / 2) r' b2 hr' h2 (by rw [Nat.pow_succ] at he; omega) (by omega) ?_
          rw [bitlen_half (by omega), Nat.pow_succ 2 (Nat.log2 (e / 2) + 1), ← Nat.mul_assoc, Nat.mul_right_comm, Nat.mul_comm j 2] at hk
          exact hk
      · rw [hm.2 (by omega)]; rfl
    unfold Dec.powiLoop
    rw [if_pos h0]
    by_cases ho : e % 2 ≠ 0
    · have hm := L.cmul_int hr hb
      rw [← Int.pow_add] at hm
      by_cases hlt : (a ^ (i + j)).natAbs < 2 ^ 96
      · obtain ⟨r', h1, h2⟩ := hm.1 hlt
        have : (e - 1) / 2 = e / 2 := by omega
        have := hcont (i + j) r' h2
        simp [ho, h1]
        rw [show (e - 1) / 2 = e / 2 by omega]
        exact this
      · simp [ho, hm.2 (by omega)]
    · have := hcont i r hr
      simp only [ne_eq, Classical.not_not] at ho
      simp [ho]
      exact this

/-! ## Factorials -/

theorem fact_pos (n : Nat) : 0 < fact n := by
  induction n with
  | zero => decide
  | succ n ih => exact Nat.mul_pos (by omega) ih

/-- The loop of `checked_factorial` on whole numbers: exact, or an overflow. Every factor but the last is at least 2, so 97 iterations are
enough. -/
theorem Laws.factorialLoop (L : d.Laws) (fuel : Nat) : ∀ (s R m : Nat) (r n : D), L.val r = (R : Int) → L.val n = (m : Int) → 2 ^ s ≤ R →
    R < 2 ^ 96 → m < 2 ^ 96 → 97 ≤ fuel + s →
    (R * fact m < 2 ^ 96 → ∃ z n', d.factorialLoop fuel r n = .ok (z, n') ∧ L.val z = ((R * fact m : Nat) : Int) ∧ L.val n' = (0 : Int)) ∧
    (2 ^ 96 ≤ R * fact m → d.factorialLoop fuel r n = .err .overflow) := by
  induction fuel with
  | zero =>
    intro s R m r n hr hn hs hR hm hf
    exfalso
    have : 2 ^ 96 ≤ 2 ^ s := Nat.pow_le_pow_right (by decide) (by omega)
    omega
  | succ fuel ih =>
    intro s R m r n hr hn hs hR hm hf
    have h0 : L.val d.zero = (0 : Int) := L.nat 0 (by decide)
    have h1 : L.val d.one = (1 : Int) := L.nat 1 (by decide)
    have hlt : d.lt d.zero n = decide (0 < m) := by
      rw [Bool.eq_iff_iff, L.lt, h0, hn, Rat.intCast_lt_intCast]; simp
    unfold Dec.factorialLoop
    cases m with
    | zero =>
      rw [hlt]
      simp only [fact, Nat.mul_one]
      exact ⟨fun _ => ⟨r, n, rfl, hr, hn⟩, fun h => by omega⟩
    | succ m =>
      rw [hlt]
      simp only [Nat.zero_lt_succ, decide_true, if_true]
      have hm1 := L.cmul_int hr hn
      have hRm : (R : Int) * ((m + 1 : Nat) : Int) = ((R * (m + 1) : Nat) : Int) := by simp
      rw [hRm, Int.natAbs_natCast] at hm1
      have hprod : R * fact (m + 1) = R * (m + 1) * fact m := by rw [fact, Nat.mul_assoc]
      by_cases hov : R * (m + 1) < 2 ^ 96
      · obtain ⟨r', hr1, hr2⟩ := hm1.1 hov
        obtain ⟨n', hn1, hn2⟩ := L.sub_int hn h1 (by omega)
        have hn2' : L.val n' = (m : Int) := by rw [hn2]; congr 1; omega
        rw [hprod]
        simp only [Res.bind_eq, hr1, hn1, Res.bind_ok]
        by_cases hm0 : m = 0
        · subst hm0
          have hz : d.factorialLoop fuel r' n' = .ok (r', n') := by
            have hlt' : d.lt d.zero n' = false := by
              rw [Bool.eq_false_iff, ne_eq, L.lt, h0, hn2', Rat.intCast_lt_intCast]; simp
            cases fuel <;> simp [Dec.factorialLoop, hlt']
          rw [hz]
          simp only [fact, Nat.mul_one]
          refine ⟨fun _ => ⟨r', n', rfl, hr2, hn2'⟩, fun h => ?_⟩
          omega
        · refine ih (s + 1) (R * (m + 1)) m r' n' hr2 hn2' ?_ hov (by omega) (by omega)
          rw [Nat.pow_succ]
          exact Nat.mul_le_mul hs (by omega)
      · rw [hm1.2 (by omega)]
        have : R * (m + 1) ≤ R * (m + 1) * fact m := Nat.le_mul_of_pos_right _ (fact_pos m)
        rw [hprod]
        exact ⟨fun h => by omega, fun _ => rfl⟩

end Dec
end Prexel
