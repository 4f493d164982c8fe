import Verif.Lemmas.ExpFraction
import Verif.Lemmas.DecimalTrig
/-!
# The exponential function of decimals
-/

set_option linter.unusedVariables false

namespace Prexel
variable {D F : Type} {d : Dec D F}

namespace Dec.Laws
variable (L : d.Laws)
include L

omit L in
theorem cast_abs_le {q b : Rat} (h : |(q : ℝ)| ≤ b) : |q| ≤ b := by
  have h2 : ((|q| : Rat) : ℝ) ≤ (b : ℝ) := by push_cast; exact h
  exact (Rat.cast_le (K := ℝ)).mp h2

theorem cadd_real {x y : D} {a : Rat} (h1 : 1 ≤ a) (ha : |(L.val x + L.val y : ℝ)| ≤ a) (hm : a ≤ 79 * 10 ^ 27) :
    ∃ z, d.cadd x y = .ok z ∧ |(L.val z - (L.val x + L.val y) : ℝ)| ≤ 2 / 10 ^ 28 * a := by
  obtain ⟨z, e, n, -⟩ := L.cadd_near h1 (cast_abs_le (by push_cast; exact ha)) hm
  have := (Rat.cast_le (K := ℝ)).mpr n
  rw [show unit = 2 / 10 ^ 28 from rfl] at this
  push_cast at this
  exact ⟨z, e, this⟩

theorem csub_real {x y : D} {a : Rat} (h1 : 1 ≤ a) (ha : |(L.val x - L.val y : ℝ)| ≤ a) (hm : a ≤ 79 * 10 ^ 27) :
    ∃ z, d.csub x y = .ok z ∧ |(L.val z - (L.val x - L.val y) : ℝ)| ≤ 2 / 10 ^ 28 * a := by
  obtain ⟨z, e, n, -⟩ := L.csub_near h1 (cast_abs_le (by push_cast; exact ha)) hm
  have := (Rat.cast_le (K := ℝ)).mpr n
  rw [show unit = 2 / 10 ^ 28 from rfl] at this
  push_cast at this
  exact ⟨z, e, this⟩

theorem cmul_real {x y : D} {a : Rat} (h1 : 1 ≤ a) (ha : |(L.val x * L.val y : ℝ)| ≤ a) (hm : a ≤ 79 * 10 ^ 27) :
    ∃ z, d.cmul x y = .ok z ∧ |(L.val z - L.val x * L.val y : ℝ)| ≤ 2 / 10 ^ 28 * a ∧ Rounded (L.val z) (L.val x * L.val y) := by
  obtain ⟨z, e, n, hr⟩ := L.cmul_near h1 (cast_abs_le (by push_cast; exact ha)) hm
  have := (Rat.cast_le (K := ℝ)).mpr n
  rw [show unit = 2 / 10 ^ 28 from rfl] at this
  push_cast at this
  exact ⟨z, e, this, hr⟩

theorem cdiv_real {x y : D} {a : Rat} (h0 : (L.val y : ℝ) ≠ 0) (h1 : 1 ≤ a) (ha : |(L.val x / L.val y : ℝ)| ≤ a) (hm : a ≤ 79 * 10 ^ 27) :
    ∃ z, d.cdiv x y = .ok z ∧ |(L.val z - L.val x / L.val y : ℝ)| ≤ 2 / 10 ^ 28 * a := by
  obtain ⟨z, e, n, -⟩ := L.cdiv_near (by exact_mod_cast h0) h1 (cast_abs_le (by push_cast; exact ha)) hm
  have := (Rat.cast_le (K := ℝ)).mpr n
  rw [show unit = 2 / 10 ^ 28 from rfl] at this
  push_cast at this
  exact ⟨z, e, this⟩

end Dec.Laws

/-- A bound for the error of the `n`-th denominator. -/
noncomputable def fracErr (n : Nat) : ℝ :=
  if 50 ≤ n then 1 / 100 ^ (100 - n) + 2 * (2 / 10 ^ 25) else if 4 ≤ n then 7 * (2 / 10 ^ 25) else (15 - 2 * n) * (2 / 10 ^ 25)

theorem fracErr_pos (n : Nat) (h : n ≤ 100) : 0 ≤ fracErr n ∧ fracErr n ≤ 1 + 1 / 10 ^ 20 ∧ (n < 50 → fracErr n ≤ 1 / 10 ^ 20) := by
  unfold fracErr
  split
  · have : (1 : ℝ) / 100 ^ (100 - n) ≤ 1 := by
      rw [div_le_one (by positivity)]
      exact one_le_pow₀ (by norm_num)
    refine ⟨by positivity, by linarith, fun h => by omega⟩
  · split
    · norm_num
    · have : (n : ℝ) ≤ 3 := by exact_mod_cast (show n ≤ 3 by omega)
      have h0 : (0 : ℝ) ≤ n := by positivity
      refine ⟨?_, ?_, fun _ => ?_⟩ <;> nlinarith

/-- One step of the error. -/
theorem fracErr_step {x r : ℝ} {n : Nat} (hn : n < 100) (hx : |x| ≤ 20) (hr : |r - expFrac x (n + 1)| ≤ fracErr (n + 1)) :
    5 ≤ r ∧ x ^ 2 / (r * expFrac x (n + 1)) * fracErr (n + 1) + 2 / 10 ^ 25 ≤ fracErr n := by
  obtain ⟨e0, e1, e2⟩ := fracErr_pos (n + 1) (by omega)
  have hge := expFrac_ge x (n + 1)
  have hab := expFrac_abs x (n + 1)
  have hn1 : (1 : ℝ) ≤ (n + 1 : ℕ) := by exact_mod_cast (show 1 ≤ n + 1 by omega)
  have hx2 : x ^ 2 ≤ 400 := by rw [← sq_abs]; nlinarith [abs_nonneg x]
  rw [abs_le] at hr
  have hr1 : (4 : ℝ) * (n + 1 : ℕ) + 2 - fracErr (n + 1) ≤ r := by linarith [hr.1]
  have hr5 : 5 ≤ r := by
    by_cases h : n + 1 < 50
    · have := e2 h; linarith
    · have : (50 : ℝ) ≤ (n + 1 : ℕ) := by exact_mod_cast (show 50 ≤ n + 1 by omega)
      linarith
  refine ⟨hr5, ?_⟩
  have hR := expFrac_pos x (n + 1)
  generalize expFrac x (n + 1) = R at *
  by_cases h50 : 50 ≤ n + 1
  · have h50R : (50 : ℝ) ≤ (n + 1 : ℕ) := by exact_mod_cast h50
    have hth : x ^ 2 / (r * R) ≤ 1 / 100 := by
      rw [div_le_div_iff₀ (by positivity) (by norm_num)]
      have : (200 : ℝ) * 200 ≤ r * R := mul_le_mul (by linarith) (by linarith) (by norm_num) (by linarith)
      linarith
    have h1 := mul_le_mul_of_nonneg_right hth e0
    have e : fracErr (n + 1) = 1 / 100 ^ (100 - (n + 1)) + 2 * (2 / 10 ^ 25) := by unfold fracErr; rw [if_pos h50]
    have ep : (1 : ℝ) / 100 ^ (100 - n) = 1 / 100 * (1 / 100 ^ (100 - (n + 1))) := by
      rw [show 100 - n = (100 - (n + 1)) + 1 by omega, pow_succ]
      field_simp
    by_cases h49 : 50 ≤ n
    · have e' : fracErr n = 1 / 100 ^ (100 - n) + 2 * (2 / 10 ^ 25) := by unfold fracErr; rw [if_pos h49]
      rw [e', ep]
      rw [e] at h1 ⊢
      linarith
    · have : n = 49 := by omega
      subst this
      unfold fracErr at h1 ⊢
      norm_num at h1 ⊢
      linarith
  · have heps := e2 (by omega)
    by_cases h4 : 4 ≤ n
    · have h5R : (5 : ℝ) ≤ (n + 1 : ℕ) := by exact_mod_cast (show 5 ≤ n + 1 by omega)
      have hth : x ^ 2 / (r * R) ≤ 84 / 100 := by
        rw [div_le_div_iff₀ (by positivity) (by norm_num)]
        have : (219 / 10 : ℝ) * 22 ≤ r * R := mul_le_mul (by linarith) (by linarith) (by norm_num) (by linarith)
        linarith
      have h1 := mul_le_mul_of_nonneg_right hth e0
      have e : fracErr (n + 1) = 7 * (2 / 10 ^ 25) := by unfold fracErr; rw [if_neg h50, if_pos (by omega)]
      have e' : fracErr n = 7 * (2 / 10 ^ 25) := by unfold fracErr; rw [if_neg (by omega), if_pos h4]
      rw [e'] 
      rw [e] at h1 ⊢
      linarith
    · have hth : x ^ 2 / (r * R) ≤ 101 / 100 := by
        rw [div_le_div_iff₀ (by positivity) (by norm_num), ← sq_abs]
        have h0 := abs_nonneg x
        have hxr : |x| ≤ 101 / 100 * r := by
          by_cases h : |x| ≤ 5
          · linarith
          · linarith
        nlinarith [mul_le_mul hxr hab h0 (by linarith)]
      have h1 := mul_le_mul_of_nonneg_right hth e0
      have e' : fracErr n = (15 - 2 * n) * (2 / 10 ^ 25) := by unfold fracErr; rw [if_neg (by omega), if_neg h4]
      rw [e']
      by_cases h3 : n = 3
      · subst h3
        unfold fracErr at h1 ⊢
        norm_num at h1 ⊢
        linarith
      · have e : fracErr (n + 1) = (15 - 2 * (n + 1 : ℕ)) * (2 / 10 ^ 25) := by unfold fracErr; rw [if_neg h50, if_neg (by omega)]
        have h3R : (n : ℝ) ≤ 2 := by exact_mod_cast (show n ≤ 2 by omega)
        rw [e] at h1 ⊢
        push_cast at h1 ⊢
        nlinarith

/-- The last division. -/
theorem exp_quot {X E V0 V T : ℝ} (hid : V0 * (E - 1) = 2 * X) (hX0 : X ≠ 0) (hE : 0 < E) (hE20 : E ≤ 49 * 10 ^ 7) (hEs : E - 1 ≤ X * E)
    (hE1 : X + 1 ≤ E) (hE10 : X ≤ 10 → E ≤ 23 * 10 ^ 3) (hneg : X < 0 → 2 ≤ V0) (hV : |V - V0| ≤ 31 / 10 ^ 25) (hT : |T - 2 * X| ≤ 8 / 10 ^ 27) :
    0 < V ∧ |T / V - (E - 1)| ≤ 8 / 10 ^ 17 * E + 1 / 10 ^ 20 := by
  have hpos : 0 < X → 2 ≤ V0 * E ∧ 0 < V0 := by
    intro h
    have hE' : 0 < E - 1 := by linarith
    have hV0 : 0 < V0 := by
      by_contra hn
      nlinarith
    refine ⟨?_, hV0⟩
    have : V0 * (E - 1) ≤ V0 * (X * E) := mul_le_mul_of_nonneg_left hEs hV0.le
    rw [hid] at this
    have h2 : 2 * X ≤ (V0 * E) * X := by linarith
    exact le_of_mul_le_mul_right h2 h
  have hV0 : 0 < V0 ∧ 2 ≤ V0 * (1 + E) := by
    rcases lt_or_gt_of_ne hX0 with h | h
    · have := hneg h
      exact ⟨by linarith, by nlinarith⟩
    · obtain ⟨h1, h2⟩ := hpos h
      exact ⟨h2, by linarith⟩
  obtain ⟨hV0, hVE⟩ := hV0
  have hV0b : 4 / 10 ^ 9 ≤ V0 := by
    have : V0 * (1 + E) ≤ V0 * (5 * 10 ^ 8) := mul_le_mul_of_nonneg_left (by linarith) hV0.le
    linarith
  have hVs := abs_le.mp hV
  have hVlow : 99 / 100 * V0 ≤ V := by linarith [hVs.1]
  have hVp : 0 < V := by linarith
  refine ⟨hVp, ?_⟩
  have e : T / V - (E - 1) = (T - 2 * X) / V + (E - 1) * (V0 - V) / V := by
    rw [← hid]; field_simp; ring
  rw [e]
  refine (abs_add_le _ _).trans ?_
  have h1 : |(T - 2 * X) / V| ≤ 5 / 10 ^ 27 * (1 + E) := by
    rw [abs_div, abs_of_pos hVp, div_le_iff₀ hVp]
    refine hT.trans ?_
    have : 5 / 10 ^ 27 * (1 + E) * (99 / 100 * V0) ≤ 5 / 10 ^ 27 * (1 + E) * V := mul_le_mul_of_nonneg_left hVlow (by positivity)
    linarith
  have h2 : |(E - 1) * (V0 - V) / V| ≤ 79 / 10 ^ 18 * E + 1 / 10 ^ 21 := by
    rw [abs_div, abs_of_pos hVp, div_le_iff₀ hVp, abs_mul, abs_sub_comm V0]
    have h3 : |E - 1| ≤ V0 * (245 * 10 ^ 5 * E + 1) := by
      rcases lt_or_gt_of_ne hX0 with h | h
      · have := hneg h
        have h4 : |E - 1| ≤ 1 := by
          have : E ≤ 1 := by
            by_contra hn
            have : 0 < V0 * (E - 1) := mul_pos hV0 (by linarith)
            linarith
          rw [abs_le]; constructor <;> linarith
        have h5 : 1 * 1 ≤ V0 * (245 * 10 ^ 5 * E + 1) := mul_le_mul (by linarith) (by nlinarith) (by norm_num) hV0.le
        linarith
      · obtain ⟨h4, -⟩ := hpos h
        rw [abs_of_pos (by linarith)]
        by_cases h10 : X ≤ 10
        · have := hE10 h10
          nlinarith
        · have h6 : 20 ≤ V0 * (E - 1) := by linarith
          have h7 : V0 * (E - 1) ≤ V0 * E := mul_le_mul_of_nonneg_left (by linarith) hV0.le
          nlinarith
    calc |E - 1| * |V - V0| ≤ (V0 * (245 * 10 ^ 5 * E + 1)) * (31 / 10 ^ 25) := mul_le_mul h3 hV (abs_nonneg _) (by positivity)
      _ ≤ (79 / 10 ^ 18 * E + 1 / 10 ^ 21) * (99 / 100 * V0) := by nlinarith [mul_pos hV0 hE]
      _ ≤ _ := mul_le_mul_of_nonneg_left hVlow (by positivity)
  linarith

namespace Dec.Laws
variable (L : d.Laws)
include L

/-- One step of the continued fraction, where `b` is any number. -/
theorem expStep_near {a0 r : D} {x : ℝ} {n : Nat} (hn : n < 100) (hx : |x| ≤ 20) (ha : |(L.val a0 : ℝ) - x ^ 2| ≤ 8 / 10 ^ 26)
    (hr : |(L.val r : ℝ) - expFrac x (n + 1)| ≤ fracErr (n + 1)) :
    ∃ q, d.cdiv a0 r = .ok q ∧ |(L.val q : ℝ)| ≤ 82 ∧
      |(L.val q : ℝ) - x ^ 2 / expFrac x (n + 1)| ≤ x ^ 2 / (L.val r * expFrac x (n + 1)) * fracErr (n + 1) + 1 / 10 ^ 25 := by
  obtain ⟨h5, -⟩ := fracErr_step hn hx hr
  have hx2 : x ^ 2 ≤ 400 := by rw [← sq_abs]; nlinarith [abs_nonneg x]
  have hx0 := sq_nonneg x
  have hR := expFrac_pos x (n + 1)
  have hr0 : (0 : ℝ) < L.val r := by linarith
  have hq : |(L.val a0 / L.val r : ℝ)| ≤ ((81 : Rat) : ℝ) := by
    rw [abs_div, abs_of_pos hr0, div_le_iff₀ hr0]
    push_cast
    rw [abs_le] at ha ⊢
    constructor <;> linarith [ha.1, ha.2]
  obtain ⟨q, e, nq⟩ := L.cdiv_real hr0.ne' (by norm_num) hq (by norm_num)
  push_cast at hq nq
  refine ⟨q, e, ?_, ?_⟩
  · rw [abs_le] at hq nq ⊢
    constructor <;> linarith [hq.1, hq.2, nq.1, nq.2]
  · generalize expFrac x (n + 1) = R at *
    have e1 : (L.val q : ℝ) - x ^ 2 / R = (L.val q - L.val a0 / L.val r) + (L.val a0 - x ^ 2) / L.val r + x ^ 2 / (L.val r * R) * (R - L.val r) := by
      field_simp
      ring
    have h2 : |(L.val a0 - x ^ 2) / (L.val r : ℝ)| ≤ 8 / 10 ^ 26 / 5 := by
      rw [abs_div, abs_of_pos hr0]
      exact div_le_div₀ (by norm_num) ha (by norm_num) h5
    have h3 : |x ^ 2 / (L.val r * R) * (R - L.val r)| ≤ x ^ 2 / (L.val r * R) * fracErr (n + 1) := by
      rw [abs_mul, abs_sub_comm, abs_of_nonneg (show (0 : ℝ) ≤ x ^ 2 / (L.val r * R) by positivity)]
      exact mul_le_mul_of_nonneg_left hr (by positivity)
    rw [e1]
    refine (abs_add_le _ _).trans ?_
    have := abs_add_le ((L.val q : ℝ) - L.val a0 / L.val r) ((L.val a0 - x ^ 2) / L.val r)
    linarith

theorem expLoop_near {a0 : D} {x : ℝ} (hx : |x| ≤ 20) (ha : |(L.val a0 : ℝ) - x ^ 2| ≤ 8 / 10 ^ 26) : ∀ (k : Nat) (r : D), k < 100 →
    |(L.val r : ℝ) - expFrac x (k + 1)| ≤ fracErr (k + 1) →
    ∃ z, d.expLoop a0 k (4 * k + 2) r = .ok z ∧ |(L.val z : ℝ) - expFrac x 1| ≤ fracErr 1 := by
  intro k
  induction k with
  | zero => exact fun r _ h => ⟨r, rfl, h⟩
  | succ k ih =>
    intro r hk hr
    obtain ⟨q, e1, b1, n1⟩ := L.expStep_near hk hx ha hr
    have hs := (fracErr_step hk hx hr).2
    have v : (L.val (d.nat (4 * (k + 1) + 2)) : ℝ) = 4 * (k + 1 : ℕ) + 2 := by
      rw [L.nat_val (lt_of_le_of_lt (show 4 * (k + 1) + 2 ≤ 500 by omega) (by decide))]
      push_cast
      ring
    have hk' : ((k + 1 : ℕ) : ℝ) ≤ 99 := by exact_mod_cast (show k + 1 ≤ 99 by omega)
    have hk0 : (0 : ℝ) ≤ ((k + 1 : ℕ) : ℝ) := by positivity
    obtain ⟨z, e2, n2⟩ := L.cadd_real (x := d.nat (4 * (k + 1) + 2)) (y := q) (a := 500) (by norm_num) (by
      rw [v]
      push_cast at hk' hk0 ⊢
      rw [abs_le] at b1 ⊢
      constructor <;> linarith [b1.1, b1.2]) (by norm_num)
    have n3 : |(L.val z : ℝ) - expFrac x (k + 1)| ≤ fracErr (k + 1) := by
      rw [expFrac_rec x (k + 1)]
      rw [v] at n2
      refine le_trans ?_ hs
      push_cast at n2
      have e3 : (L.val z : ℝ) - (4 * (k + 1 : ℕ) + 2 + x ^ 2 / expFrac x (k + 1 + 1)) =
          (L.val z - (4 * (k + 1 : ℝ) + 2 + L.val q)) + (L.val q - x ^ 2 / expFrac x (k + 1 + 1)) := by push_cast; ring
      rw [e3]
      refine (abs_add_le _ _).trans ?_
      push_cast
      push_cast at n1
      linarith
    obtain ⟨w, e4, n4⟩ := ih z (by omega) n3
    refine ⟨w, ?_, n4⟩
    rw [← e4]
    simp only [Dec.expLoop, Res.bind_eq, e1, e2, Res.bind_ok]
    rfl

theorem exp_near_ne {x : D} (hx : |L.val x| ≤ 20) (h0 : L.val x ≠ 0) (h1 : L.val x ≠ 1) : ∃ z, d.exp x = .ok z ∧
    |(L.val z : ℝ) - Real.exp (L.val x)| ≤ 2 / 10 ^ 16 * (1 + Real.exp (L.val x)) := by
  have hX : |(L.val x : ℝ)| ≤ 20 := by
    have := (Rat.cast_le (K := ℝ)).mpr hx
    push_cast at this
    exact this
  have v2 : (L.val d.two : ℝ) = 2 := by rw [show L.val d.two = 2 from L.nat_val (n := 2) (by decide)]; norm_num
  have v1 : (L.val d.one : ℝ) = 1 := by rw [show L.val d.one = 1 from L.nat_val (n := 1) (by decide)]; norm_num
  have hxs := abs_le.mp hX
  obtain ⟨a0, ea, na, -⟩ := L.cmul_real (x := x) (y := x) (a := 400) (by norm_num) (by
    rw [abs_mul]
    push_cast
    nlinarith [abs_nonneg (L.val x : ℝ)]) (by norm_num)
  have na' : |(L.val a0 : ℝ) - (L.val x : ℝ) ^ 2| ≤ 8 / 10 ^ 26 := by
    rw [sq]
    refine na.trans ?_
    norm_num
  have hX0 : (L.val x : ℝ) ≠ 0 := by exact_mod_cast h0
  obtain ⟨w, ew, nw⟩ := L.expLoop_near hX na' 99 (d.nat 402) (by omega) (by
    have v : (L.val (d.nat 402) : ℝ) = 402 := by rw [L.nat_val (n := 402) (by decide)]; norm_num
    rw [v, expFrac_rec]
    have hge := expFrac_ge (L.val x : ℝ) (99 + 1 + 1)
    have hp := expFrac_pos (L.val x : ℝ) (99 + 1 + 1)
    have hq : (L.val x : ℝ) ^ 2 / expFrac (L.val x) (99 + 1 + 1) ≤ 1 := by
      rw [div_le_one hp]
      push_cast at hge
      have : (L.val x : ℝ) ^ 2 ≤ 400 := by rw [← sq_abs]; nlinarith [abs_nonneg (L.val x : ℝ)]
      linarith
    have hq0 : 0 ≤ (L.val x : ℝ) ^ 2 / expFrac (L.val x) (99 + 1 + 1) := by positivity
    have : fracErr (99 + 1) = 1 + 2 * (2 / 10 ^ 25) := by unfold fracErr; norm_num
    rw [this, abs_le]
    push_cast
    constructor <;> linarith)
  obtain ⟨q, eq, bq, nq⟩ := L.expStep_near (n := 0) (by omega) hX na' nw
  have nq' := nq.trans (show _ ≤ (3 : ℝ) / 10 ^ 24 by
    have := (fracErr_step (n := 0) (by omega) hX nw).2
    have e0 : fracErr 0 = 15 * (2 / 10 ^ 25) := by unfold fracErr; norm_num
    rw [e0] at this
    linarith)
  obtain ⟨s, es, ns⟩ := L.csub_real (x := d.two) (y := x) (a := 22) (by norm_num) (by
    rw [v2, abs_le]
    push_cast
    constructor <;> linarith [hxs.1, hxs.2]) (by norm_num)
  rw [v2] at ns
  push_cast at ns
  have nss := abs_le.mp ns
  have bqs := abs_le.mp bq
  obtain ⟨V, eV, nV⟩ := L.cadd_real (x := s) (y := q) (a := 105) (by norm_num) (by
    rw [abs_le]
    push_cast
    constructor <;> linarith [hxs.1, hxs.2, nss.1, nss.2, bqs.1, bqs.2]) (by norm_num)
  push_cast at nV
  have hrec := expFrac_rec (L.val x : ℝ) 0
  have hid := expFrac_zero hX0
  have hge0 := expFrac_ge (L.val x : ℝ) 0
  have hEpos := Real.exp_pos (L.val x : ℝ)
  have hE1 : (L.val x : ℝ) + 1 ≤ Real.exp (L.val x) := Real.add_one_le_exp _
  have hEm : 1 ≤ Real.exp (L.val x) * (1 - L.val x) ∨ True := .inr trivial
  have hneg : -(L.val x : ℝ) + 1 ≤ Real.exp (-(L.val x : ℝ)) := Real.add_one_le_exp _
  rw [Real.exp_neg] at hneg
  have hE20 : Real.exp (L.val x) ≤ 49 * 10 ^ 7 := by
    have h : Real.exp (L.val x) ≤ Real.exp 20 := Real.exp_le_exp.mpr hxs.2
    have e20 : Real.exp 20 = Real.exp 1 ^ 20 := by rw [← Real.exp_nat_mul]; norm_num
    have h1 := Real.exp_one_lt_d9
    have : Real.exp 1 ^ 20 ≤ 2.7182818286 ^ 20 := pow_le_pow_left₀ (Real.exp_pos 1).le h1.le 20
    rw [e20] at h
    refine h.trans (this.trans (by norm_num))
  have hEs : Real.exp (L.val x) - 1 ≤ L.val x * Real.exp (L.val x) := by
    have := mul_le_mul_of_nonneg_left hneg hEpos.le
    rw [mul_inv_cancel₀ hEpos.ne'] at this
    linarith
  have hE10 : (L.val x : ℝ) ≤ 10 → Real.exp (L.val x) ≤ 23 * 10 ^ 3 := fun h10 => by
    have h : Real.exp (L.val x) ≤ Real.exp 10 := Real.exp_le_exp.mpr h10
    have e20 : Real.exp 10 = Real.exp 1 ^ 10 := by rw [← Real.exp_nat_mul]; norm_num
    have h1 := Real.exp_one_lt_d9
    have : Real.exp 1 ^ 10 ≤ 2.7182818286 ^ 10 := pow_le_pow_left₀ (Real.exp_pos 1).le h1.le 10
    rw [e20] at h
    refine h.trans (this.trans (by norm_num))
  have nV0 : |(L.val V : ℝ) - (expFrac (L.val x) 0 - L.val x)| ≤ 31 / 10 ^ 25 := by
    rw [hrec]
    rw [abs_le] at nq' nV ⊢
    push_cast
    constructor <;> linarith [nss.1, nss.2, nq'.1, nq'.2, nV.1, nV.2]
  obtain ⟨t, et, nt, -⟩ := L.cmul_real (x := d.two) (y := x) (a := 40) (by norm_num) (by
    rw [v2, abs_mul, abs_of_pos (show (0 : ℝ) < 2 by norm_num)]
    push_cast
    linarith) (by norm_num)
  rw [v2] at nt
  push_cast at nt
  obtain ⟨hVp, nQ⟩ := exp_quot hid hX0 hEpos hE20 hEs hE1 hE10 (fun h => by push_cast at hge0; linarith) nV0 (T := L.val t) (nt.trans (by norm_num))
  have nQs := abs_le.mp nQ
  obtain ⟨p, ep, np⟩ := L.cdiv_real (x := t) (y := V) (a := 5 * 10 ^ 8) hVp.ne' (by norm_num) (by
    push_cast
    rw [abs_le]
    constructor <;> linarith [nQs.1, nQs.2]) (by norm_num)
  push_cast at np
  have nps := abs_le.mp np
  obtain ⟨y, ey, ny⟩ := L.cadd_real (x := d.one) (y := p) (a := 5 * 10 ^ 8) (by norm_num) (by
    push_cast
    rw [v1, abs_le]
    constructor <;> linarith [nQs.1, nQs.2, nps.1, nps.2]) (by norm_num)
  push_cast at ny
  rw [v1] at ny
  have nys := abs_le.mp ny
  obtain ⟨z, ez, nz, -⟩ := L.approx_near y
  have nzR := (Rat.cast_le (K := ℝ)).mpr nz
  push_cast at nzR
  have nzs := abs_le.mp nzR
  refine ⟨z, ?_, ?_⟩
  · have c0 : ¬ d.isZero x = true := by rw [L.isZero]; exact h0
    have c1 : ¬ d.isOne x = true := by rw [L.isOne]; exact h1
    have ew' : d.expLoop a0 (Dec.iterations - 1) (4 * Dec.iterations - 2) (d.nat (4 * Dec.iterations + 2)) = .ok w := ew
    unfold Dec.exp
    rw [if_neg c0, if_neg c1]
    simp only [Res.bind_eq, ea, ew', es, eq, eV, et, ep, ey, ez, Res.bind_ok]
  · rw [abs_le]
    constructor <;> linarith [nQs.1, nQs.2, nps.1, nps.2, nys.1, nys.2, nzs.1, nzs.2]

/-- The exponential function. -/
theorem exp_near {x : D} (hx : |L.val x| ≤ 20) : ∃ z, d.exp x = .ok z ∧
    |(L.val z : ℝ) - Real.exp (L.val x)| ≤ 2 / 10 ^ 16 * (1 + Real.exp (L.val x)) := by
  by_cases h0 : L.val x = 0
  · refine ⟨d.one, ?_, ?_⟩
    · unfold Dec.exp
      rw [if_pos ((L.isZero x).mpr h0)]
    · rw [h0, show L.val d.one = 1 from L.nat_val (n := 1) (by decide)]
      norm_num
  by_cases h1 : L.val x = 1
  · refine ⟨d.e, ?_, ?_⟩
    · unfold Dec.exp
      have : ¬ d.isZero x = true := by rw [L.isZero]; exact h0
      rw [if_neg this, if_pos ((L.isOne x).mpr h1)]
    · have he : L.val d.e = 27182818284590452353602874714 / 10 ^ 28 := by
        have := L.e
        rw [eq_div_iff (by norm_num)]
        push_cast at this
        exact this
      have h2 := Real.exp_one_near_20
      have h3 := Real.exp_one_gt_d9
      rw [h1, he]
      push_cast
      rw [abs_le] at h2 ⊢
      constructor <;> linarith [h2.1, h2.2]
  · exact L.exp_near_ne hx h0 h1

end Dec.Laws
end Prexel
