import Verif.Props.DoubleAngles
import Mathlib.Analysis.SpecialFunctions.Complex.Arg
/-!
# Arcsine, arccosine and arctangent over `f64` (C163)
-/

namespace Prexel
open B64

/-- The contract of `f64::asin`, `acos`, `atan` and `atan2`: an error of at most 2^-51; NaN where there is no angle. `atan2(y, x)` is the angle of the
point (x, y); on the axis to the left the sign of the zero tells the side. -/
structure Libm.Arcs (lib : Libm) : Prop where
  asin : ∀ x : B64, x.isFin → |x.val| ≤ 1 → (lib.asin x).isFin ∧ |((lib.asin x).val : ℝ) - Real.arcsin x.val| ≤ 1 / 2 ^ 51
  acos : ∀ x : B64, x.isFin → |x.val| ≤ 1 → (lib.acos x).isFin ∧ |((lib.acos x).val : ℝ) - Real.arccos x.val| ≤ 1 / 2 ^ 51
  outside : ∀ x : B64, x.isFin → 1 < |x.val| → lib.asin x = .nan ∧ lib.acos x = .nan
  atan : ∀ x : B64, x.isFin → (lib.atan x).isFin ∧ |((lib.atan x).val : ℝ) - Real.arctan x.val| ≤ 1 / 2 ^ 51
  atan2 : ∀ y x : B64, y.isFin → x.isFin → (y.val ≠ 0 ∨ x.val ≠ 0) → (lib.atan2 y x).isFin ∧
    |((lib.atan2 y x).val : ℝ) - if y.val = 0 ∧ x.val < 0 ∧ y.sign then -Real.pi else Complex.arg ⟨x.val, y.val⟩| ≤ 1 / 2 ^ 51

/-- So many degrees are this angle. -/
noncomputable def inDegrees (a : ℝ) : ℝ := a * (180 / Real.pi)

namespace B64

theorem toDegrees_near {a : B64} (ha : a.isFin) {t : ℝ} (h : |(a.val : ℝ) - t| ≤ 1 / 2 ^ 51) (ht : |t| ≤ Real.pi) :
    (mul a (div (lit 180) pi)).isFin ∧ |((mul a (div (lit 180) pi)).val : ℝ) - inDegrees t| ≤ 1 / 10 ^ 13 := by
  obtain ⟨k1, k2⟩ := degree_val
  have kb : |(div (lit 180) pi).val| ≤ 58 := by decide +kernel
  obtain ⟨p1, p2⟩ := pi_bounds
  rw [mul_fin ha k1]
  generalize hk : (div (lit 180) pi).val = k at *
  generalize hv : a.val = v at *
  have hvb : |(v : ℝ)| ≤ 315 / 100 := by
    have := abs_sub_abs_le_abs_sub (v : ℝ) t
    have h2 : (1 : ℝ) / 2 ^ 51 ≤ 1 / 1000 := by norm_num
    linarith
  have hvq : |v| ≤ 315 / 100 := by
    have : ((|v| : ℚ) : ℝ) ≤ ((315 / 100 : ℚ) : ℝ) := by rw [Rat.cast_abs]; push_cast; exact hvb
    exact Rat.cast_le.mp this
  have hsmall : |v * k| ≤ 183 := by
    rw [abs_mul]
    calc |v| * |k| ≤ 315 / 100 * 58 := mul_le_mul hvq kb (abs_nonneg _) (by norm_num)
      _ ≤ _ := by norm_num
  have hnl : ¬ TooLarge (v * k) := by
    have : IsDouble 183 := by have := isDouble_int (n := 183) (by norm_num); push_cast at this; exact this
    exact small_between this (by rwa [abs_of_pos (by norm_num : (0 : ℚ) < 183)])
  obtain ⟨f1, f2⟩ := of_fin (a.sign ^^ (div (lit 180) pi).sign) hnl
  refine ⟨f1, ?_⟩
  rw [f2]
  have hm := rnd_moves (q := v * k) (hsmall.trans (le_trans (by norm_num) (pow_le_pow_right₀ (by norm_num : (1 : ℚ) ≤ 2) (by norm_num : 20 ≤ 1000))))
  have tiny : (1 : ℚ) / 2 ^ 1022 ≤ 1 / 10 ^ 15 := by
    apply one_div_le_one_div_of_le (by positivity)
    calc (10 : ℚ) ^ 15 ≤ 16 ^ 15 := pow_le_pow_left₀ (by norm_num) (by norm_num) _
      _ = 2 ^ 60 := by rw [show (16 : ℚ) = 2 ^ 4 by norm_num, ← pow_mul]
      _ ≤ _ := pow_le_pow_right₀ (by norm_num) (by norm_num)
  have hm2 : |rnd (v * k) - v * k| ≤ 22 / 10 ^ 15 := by
    have h5 := mul_le_mul_of_nonneg_right hsmall (by norm_num : (0 : ℚ) ≤ 112 / 10 ^ 18)
    have h6 : (183 : ℚ) * (112 / 10 ^ 18) + 1 / 10 ^ 15 ≤ 22 / 10 ^ 15 := by norm_num
    exact hm.trans ((add_le_add h5 tiny).trans h6)
  have e1 := cast_near hm2
  push_cast at e1
  have e2 : |(v : ℝ) * k - v * (180 / Real.pi)| ≤ 945 / 10 ^ 17 := by
    rw [← mul_sub, abs_mul]
    calc _ ≤ 315 / 100 * (3 / 10 ^ 15) := mul_le_mul hvb k2 (abs_nonneg _) (by norm_num)
      _ ≤ _ := by norm_num
  have e3 : |(v : ℝ) * (180 / Real.pi) - inDegrees t| ≤ 27 / 10 ^ 15 := by
    unfold inDegrees
    rw [← sub_mul, abs_mul]
    have h6 : |180 / Real.pi| ≤ 60 := by
      rw [abs_of_pos (by positivity), div_le_iff₀ Real.pi_pos]
      linarith
    calc _ ≤ 1 / 2 ^ 51 * 60 := mul_le_mul h h6 (abs_nonneg _) (by norm_num)
      _ ≤ _ := by norm_num
  have e4 := abs_sub_le ((rnd (v * k) : ℚ) : ℝ) ((v : ℝ) * k) (v * (180 / Real.pi))
  have e5 := abs_sub_le ((rnd (v * k) : ℚ) : ℝ) ((v : ℝ) * (180 / Real.pi)) (inDegrees t)
  norm_num at e1 e2 e3 ⊢
  linarith

end B64

section
variable {K : Keys} {debug docs : Bool} {lib : Libm} {draw : B64} {ctx : Ctx B64}

/-- C163, arcsine and arccosine. -/
theorem C163_arcs (A : lib.Arcs) (h : BuiltIn K debug docs (f64 lib draw) ((f64 lib draw).num B64.num) ctx) (x : B64) (hx : x.isFin)
    (h1 : |x.val| ≤ 1) :
    (∃ y, evalTokens ctx (callTokens (str "asin") [x]) = .ok y ∧ y.isFin ∧ Meets y.val (inDegrees (Real.arcsin x.val)) (1 / 10 ^ 13)) ∧
    (∃ y, evalTokens ctx (callTokens (str "acos") [x]) = .ok y ∧ y.isFin ∧ Meets y.val (inDegrees (Real.arccos x.val)) (1 / 10 ^ 13)) := by
  have tables := (C82_one_argument h x x rfl).2.2.2.1
  have hp := Real.pi_pos
  constructor
  · obtain ⟨a1, a2⟩ := A.asin x hx h1
    obtain ⟨d1, d2⟩ := toDegrees_near a1 a2 (by
      have := Real.neg_pi_div_two_le_arcsin (x.val : ℝ)
      have := Real.arcsin_le_pi_div_two (x.val : ℝ)
      rw [abs_le]; constructor <;> linarith)
    obtain ⟨f1, f2⟩ := snap_meets (lib := lib) (draw := draw) d1 d2
    exact ⟨_, (tables (str "asin", lib.asin) (by simp [arcTable, f64])).1 f1, f1, f2⟩
  · obtain ⟨a1, a2⟩ := A.acos x hx h1
    obtain ⟨d1, d2⟩ := toDegrees_near a1 a2 (by
      rw [abs_of_nonneg (Real.arccos_nonneg _)]
      exact Real.arccos_le_pi _)
    obtain ⟨f1, f2⟩ := snap_meets (lib := lib) (draw := draw) d1 d2
    exact ⟨_, (tables (str "acos", lib.acos) (by simp [arcTable, f64])).1 f1, f1, f2⟩

/-- C163: there is no angle with a sine or cosine above 1. -/
theorem C163_outside (A : lib.Arcs) (h : BuiltIn K debug docs (f64 lib draw) ((f64 lib draw).num B64.num) ctx) (x : B64) (hx : x.isFin)
    (h1 : 1 < |x.val|) :
    evalTokens ctx (callTokens (str "asin") [x]) = .err .nan ∧ evalTokens ctx (callTokens (str "acos") [x]) = .err .nan := by
  have tables := (C82_one_argument h x x rfl).2.2.2.1
  obtain ⟨a1, a2⟩ := A.outside x hx h1
  have bad : ¬ (f64 lib draw).Finite (snap (f64 lib draw) ((f64 lib draw).toDegrees .nan)) := by
    rintro ⟨h, -⟩
    have e : (f64 lib draw).toDegrees .nan = .nan := rfl
    rw [e] at h
    have e2 : snap (f64 lib draw) .nan = .nan := by unfold snap; split <;> rfl
    rw [e2] at h
    exact absurd h (by simp [f64, isNan])
  constructor
  · have := (tables (str "asin", lib.asin) (by simp [arcTable, f64])).2
    simp only [a1] at this
    exact this bad
  · have := (tables (str "acos", lib.acos) (by simp [arcTable, f64])).2
    simp only [a2] at this
    exact this bad

/-- C163, arctangent. -/
theorem C163_arctangent (A : lib.Arcs) (h : BuiltIn K debug docs (f64 lib draw) ((f64 lib draw).num B64.num) ctx) (x : B64) (hx : x.isFin) :
    ∃ y, evalTokens ctx (callTokens (str "atan") [x]) = .ok y ∧ y.isFin ∧ |(y.val : ℝ) - inDegrees (Real.arctan x.val)| ≤ 1 / 10 ^ 13 := by
  have table := (C82_one_argument h x x rfl).2.2.2.2.2.1
  obtain ⟨a1, a2⟩ := A.atan x hx
  obtain ⟨d1, d2⟩ := toDegrees_near a1 a2 (by
    have := Real.neg_pi_div_two_lt_arctan (x.val : ℝ)
    have := Real.arctan_lt_pi_div_two (x.val : ℝ)
    have := Real.pi_pos
    rw [abs_le]; constructor <;> linarith)
  exact ⟨_, table.1 d1, d1, d2⟩

/-- C163, the angle of a point: `atan(y, x)`. -/
theorem C163_angle (A : lib.Arcs) (h : BuiltIn K debug docs (f64 lib draw) ((f64 lib draw).num B64.num) ctx) (x y : B64) (hx : x.isFin)
    (hy : y.isFin) :
    (y.val = 0 ∧ x.val = 0 → evalTokens ctx (callTokens (str "atan") [y, x]) = .err .nan) ∧
    (y.val ≠ 0 ∨ x.val ≠ 0 → ∃ z, evalTokens ctx (callTokens (str "atan") [y, x]) = .ok z ∧ z.isFin ∧
      |(z.val : ℝ) - if y.val = 0 ∧ x.val < 0 ∧ y.sign then -180 else inDegrees (Complex.arg ⟨x.val, y.val⟩)| ≤ 1 / 10 ^ 13) := by
  obtain ⟨-, t1, t2, -⟩ := C82_two_arguments h y x y x rfl rfl
  have zero : ∀ {u : B64}, u.isFin → ((f64 lib draw).isZero u = true ↔ u.val = 0) := by
    intro u hu
    obtain ⟨a, k, hk, rfl⟩ := isFin_fin hu
    rw [val_zero_iff]
    exact beq_iff_eq
  refine ⟨fun h0 => t1 ⟨(zero hy).mpr h0.1, (zero hx).mpr h0.2⟩, fun h0 => ?_⟩
  obtain ⟨a1, a2⟩ := A.atan2 y x hy hx h0
  have hp := Real.pi_pos
  obtain ⟨d1, d2⟩ := toDegrees_near a1 a2 (by
    split
    · rw [abs_neg, abs_of_pos hp]
    · exact Complex.abs_arg_le_pi _)
  refine ⟨_, (t2 ?_).1 d1, d1, ?_⟩
  · rcases h0 with h0 | h0
    · exact .inl (by rw [← Bool.not_eq_true, zero hy]; exact h0)
    · exact .inr (by rw [← Bool.not_eq_true, zero hx]; exact h0)
  · refine le_trans (le_of_eq ?_) d2
    congr 2
    split
    · unfold inDegrees
      field_simp
    · rfl

/-- C163: the angles of 30, 45, 60 and 90 degrees. -/
theorem C163_known (A : lib.Arcs) (h : BuiltIn K debug docs (f64 lib draw) ((f64 lib draw).num B64.num) ctx) (x : B64) (hx : x.isFin) :
    (x.val = 1 / 2 → ∃ y z, evalTokens ctx (callTokens (str "asin") [x]) = .ok y ∧ y.val = 30 ∧
      evalTokens ctx (callTokens (str "acos") [x]) = .ok z ∧ z.val = 60) ∧
    (x.val = 1 → ∃ y z, evalTokens ctx (callTokens (str "asin") [x]) = .ok y ∧ y.val = 90 ∧
      evalTokens ctx (callTokens (str "acos") [x]) = .ok z ∧ z.val = 0) ∧
    (x.val = -1 → ∃ y z, evalTokens ctx (callTokens (str "asin") [x]) = .ok y ∧ y.val = -90 ∧
      evalTokens ctx (callTokens (str "acos") [x]) = .ok z ∧ z.val = 180) := by
  have hp := Real.pi_pos
  have small : (1 : ℝ) / 10 ^ 13 ≤ 1 / 10 ^ 10 := by norm_num
  have key : ∀ (v : ℚ) (a b : ℤ), x.val = v → |v| ≤ 1 → inDegrees (Real.arcsin v) = a → inDegrees (Real.arccos v) = b →
      ∃ y z, evalTokens ctx (callTokens (str "asin") [x]) = .ok y ∧ y.val = a ∧ evalTokens ctx (callTokens (str "acos") [x]) = .ok z ∧ z.val = b := by
    intro v a b hv h1 ha hb
    obtain ⟨⟨y, y1, -, -, y2⟩, ⟨z, z1, -, -, z2⟩⟩ := C163_arcs A h x hx (by rw [hv]; exact h1)
    rw [hv] at y2 z2
    exact ⟨y, z, y1, y2 small a ha, z1, z2 small b hb⟩
  have s30 : Real.arcsin (1 / 2) = Real.pi / 6 := by
    rw [← Real.sin_pi_div_six]
    exact Real.arcsin_sin (by linarith) (by linarith)
  refine ⟨fun hv => ?_, fun hv => ?_, fun hv => ?_⟩
  · have := key (1 / 2) 30 60 hv (by norm_num)
      (by push_cast; rw [s30]; unfold inDegrees; field_simp; norm_num)
      (by push_cast; rw [Real.arccos, s30]; unfold inDegrees; field_simp; norm_num)
    simpa using this
  · have := key 1 90 0 hv (by norm_num)
      (by push_cast; rw [Real.arcsin_one]; unfold inDegrees; field_simp; norm_num)
      (by push_cast; rw [Real.arccos_one]; unfold inDegrees; norm_num)
    simpa using this
  · have := key (-1) (-90) 180 hv (by norm_num)
      (by push_cast; rw [Real.arcsin_neg_one]; unfold inDegrees; field_simp; norm_num)
      (by push_cast; rw [Real.arccos_neg_one]; unfold inDegrees; field_simp)
    simpa using this

/-! ## Examples -/

namespace B64

open Classical in
/-- Any library, with these functions: the nearest doubles. -/
noncomputable def withArcs (lib : Libm) : Libm :=
  { lib with
    asin := fun x => if |x.val| ≤ 1 then nearestTo (Real.arcsin x.val) else .nan
    acos := fun x => if |x.val| ≤ 1 then nearestTo (Real.arccos x.val) else .nan
    atan := fun x => nearestTo (Real.arctan x.val)
    atan2 := fun y x => nearestTo (if y.val = 0 ∧ x.val < 0 ∧ y.sign then -Real.pi else Complex.arg ⟨x.val, y.val⟩) }

/-- The contract can be met. -/
theorem withArcs_contract (lib : Libm) : (withArcs lib).Arcs := by
  have hp := Real.pi_pos
  have key : ∀ t : ℝ, |t| ≤ Real.pi → (nearestTo t).isFin ∧ |((nearestTo t).val : ℝ) - t| ≤ 1 / 2 ^ 51 := by
    intro t ht
    have h4 : |t| ≤ 3.1416 := ht.trans (pi_bounds.2.trans (by norm_num))
    obtain ⟨h1, h2⟩ := nearestTo_near (h4.trans (le_trans (by norm_num : (3.1416 : ℝ) ≤ 2 ^ 2) (pow_le_pow_right₀ (by norm_num) (by norm_num))))
    refine ⟨h1, h2.trans ?_⟩
    have : |t| / 2 ^ 53 ≤ 3.1416 / 2 ^ 53 := by gcongr
    refine (add_le_add_left this _).trans (by norm_num)
  refine ⟨fun x _ h1 => ?_, fun x _ h1 => ?_, fun x _ h1 => ?_, fun x _ => ?_, fun y x _ _ _ => ?_⟩
  · have e : (withArcs lib).asin x = nearestTo (Real.arcsin x.val) := if_pos h1
    rw [e]
    refine key _ ?_
    have := Real.neg_pi_div_two_le_arcsin (x.val : ℝ)
    have := Real.arcsin_le_pi_div_two (x.val : ℝ)
    rw [abs_le]; constructor <;> linarith
  · have e : (withArcs lib).acos x = nearestTo (Real.arccos x.val) := if_pos h1
    rw [e]
    refine key _ ?_
    rw [abs_of_nonneg (Real.arccos_nonneg _)]
    exact Real.arccos_le_pi _
  · exact ⟨if_neg (not_le.mpr h1), if_neg (not_le.mpr h1)⟩
  · refine key _ ?_
    have := Real.neg_pi_div_two_lt_arctan (x.val : ℝ)
    have := Real.arctan_lt_pi_div_two (x.val : ℝ)
    rw [abs_le]; constructor <;> linarith
  · refine key _ ?_
    split
    · rw [abs_neg, abs_of_pos hp]
    · exact Complex.abs_arg_le_pi _

end B64

/-- The hypotheses are met: some library meets the contract; 1/2 is between -1 and 1, and 2 is not. -/
example (lib : Libm) : (withArcs lib).Arcs ∧ (lit (1 / 2)).isFin ∧ (lit (1 / 2)).val = 1 / 2 ∧ |(lit (1 / 2)).val| ≤ 1 ∧ 1 < |(lit 2).val| :=
  ⟨withArcs_contract lib, ⟨by decide +kernel, by decide +kernel⟩, by decide +kernel, by decide +kernel, by decide +kernel⟩

end

end Prexel
