import Verif.Props.DoubleReciprocals
import Verif.Props.DoubleLogs
import Verif.Lemmas.DecimalArea
import Verif.Lemmas.DecimalAtan
/-!
# Degrees and radians over `f64`, and functions that undo each other (C168, C169)
-/

namespace Prexel
open B64

namespace B64

/-- Radians to degrees, of any number that is not too large. -/
theorem toDegrees_any {x : B64} (hx : x.isFin) (h9 : |x.val| ≤ 10 ^ 9) :
    (mul x (div (lit 180) pi)).isFin ∧ |((mul x (div (lit 180) pi)).val : ℝ) - inDegrees x.val| ≤ |(x.val : ℝ)| * (1 / 10 ^ 14) + 1 / 10 ^ 100 := by
  obtain ⟨k1, k2⟩ := degree_val
  have kb : |(div (lit 180) pi).val| ≤ 58 := by decide +kernel
  rw [mul_fin hx k1]
  generalize hk : (div (lit 180) pi).val = k at *
  generalize hxv : x.val = v at *
  have hsmall : |v * k| ≤ 10 ^ 11 := by
    rw [abs_mul]
    calc |v| * |k| ≤ 10 ^ 9 * 58 := mul_le_mul h9 kb (abs_nonneg _) (by norm_num)
      _ ≤ _ := by norm_num
  have hnl : ¬ TooLarge (v * k) := by
    have : IsDouble (10 ^ 11) := by have := isDouble_int (n := 10 ^ 11) (by norm_num); push_cast at this; exact this
    exact small_between this (by rwa [abs_of_pos (by norm_num : (0 : ℚ) < 10 ^ 11)])
  obtain ⟨f1, f2⟩ := of_fin (x.sign ^^ (div (lit 180) pi).sign) hnl
  refine ⟨f1, ?_⟩
  rw [f2]
  have hm := rnd_moves (q := v * k) (hsmall.trans (le_trans (by norm_num : (10 : ℚ) ^ 11 ≤ 2 ^ 40) (pow_le_pow_right₀ (by norm_num : (1 : ℚ) ≤ 2) (by norm_num : 40 ≤ 1000))))
  have tiny : (1 : ℚ) / 2 ^ 1022 ≤ 1 / 10 ^ 101 := by
    apply one_div_le_one_div_of_le (by positivity)
    calc (10 : ℚ) ^ 101 ≤ 16 ^ 101 := pow_le_pow_left₀ (by norm_num) (by norm_num) _
      _ = 2 ^ 404 := by rw [show (16 : ℚ) = 2 ^ 4 by norm_num, ← pow_mul]
      _ ≤ _ := pow_le_pow_right₀ (by norm_num) (by norm_num)
  have e1 : |rnd (v * k) - v * k| ≤ |v| * (65 / 10 ^ 16) + 1 / 10 ^ 101 := by
    refine hm.trans (add_le_add ?_ tiny)
    rw [abs_mul, mul_assoc]
    apply mul_le_mul_of_nonneg_left _ (abs_nonneg _)
    calc |k| * (112 / 10 ^ 18) ≤ 58 * (112 / 10 ^ 18) := mul_le_mul_of_nonneg_right kb (by norm_num)
      _ ≤ _ := by norm_num
  have e2 := cast_near e1
  push_cast at e2
  have e3 : |(v : ℝ) * k - inDegrees v| ≤ |(v : ℝ)| * (3 / 10 ^ 15) := by
    unfold inDegrees
    rw [← mul_sub, abs_mul]
    exact mul_le_mul_of_nonneg_left k2 (abs_nonneg _)
  have e4 := abs_sub_le ((rnd (v * k) : ℚ) : ℝ) ((v : ℝ) * k) (inDegrees v)
  have e5 : |(v : ℝ)| * (65 / 10 ^ 16) + |(v : ℝ)| * (3 / 10 ^ 15) ≤ |(v : ℝ)| * (1 / 10 ^ 14) := by
    rw [← mul_add]
    exact mul_le_mul_of_nonneg_left (by norm_num) (abs_nonneg _)
  have e6 : (1 : ℝ) / 10 ^ 101 ≤ 1 / 10 ^ 100 := by norm_num
  linarith

end B64

/-- What a number is taken for is close to it. -/
theorem taken_close {q y : ℚ} (h : TakenFor q y) : |(y : ℝ) - q| ≤ 11 / 10 ^ 11 ∧ ((∀ n : ℤ, snapDistance ≤ |q - n|) → y = q) := by
  rcases h with ⟨n, hn, rfl⟩ | ⟨-, rfl⟩
  · refine ⟨?_, fun h => absurd hn (not_lt.mpr (h n))⟩
    have : |((n : ℤ) : ℚ) - q| ≤ 11 / 10 ^ 11 := by rw [abs_sub_comm]; exact hn.le.trans snapDistance_bounds.2.le
    have := cast_near this
    push_cast at this ⊢
    exact this
  · exact ⟨by rw [sub_self, abs_zero]; norm_num, fun _ => rfl⟩

section
variable {K : Keys} {debug docs : Bool} {lib : Libm} {draw : B64} {ctx : Ctx B64}

/-- C168, degrees and radians. -/
theorem C168_units (h : BuiltIn K debug docs (f64 lib draw) ((f64 lib draw).num B64.num) ctx) (x : B64) (hx : x.isFin) (q : ℚ)
    (hq : TakenFor x.val q) (h7 : |q| ≤ 10 ^ 7) :
    (∃ y, evalTokens ctx (callTokens (str "to_radians") [x]) = .ok y ∧ y.isFin ∧ |(y.val : ℝ) - degrees q| ≤ |(q : ℝ)| * (3 / 10 ^ 18) + 1 / 10 ^ 100) ∧
    (∃ y, evalTokens ctx (callTokens (str "to_degrees") [x]) = .ok y ∧ y.isFin ∧ |(y.val : ℝ) - inDegrees q| ≤ |(q : ℝ)| * (1 / 10 ^ 14) + 1 / 10 ^ 100) := by
  have table := fun e he => ((C82_one_argument h x x rfl).1 e he).1 hx
  obtain ⟨s1, s2⟩ := snap_taken (lib := lib) (draw := draw) hx hq
  obtain ⟨r1, r2, -⟩ := toRadians_near s1 (by rw [s2]; exact h7)
  obtain ⟨d1, d2⟩ := toDegrees_any s1 (by rw [s2]; exact h7.trans (by norm_num))
  rw [s2] at r2 d2
  exact ⟨⟨_, table (str "to_radians", (f64 lib draw).toRadians) (by simp [plainTable]), r1, r2⟩,
    ⟨_, table (str "to_degrees", (f64 lib draw).toDegrees) (by simp [plainTable]), d1, d2⟩⟩

/-- C168, there and back: to radians and back to degrees. -/
theorem C168_back (h : BuiltIn K debug docs (f64 lib draw) ((f64 lib draw).num B64.num) ctx) (x : B64) (hx : x.isFin) (q : ℚ)
    (hq : TakenFor x.val q) (h7 : |q| ≤ 10 ^ 7) :
    ∃ r z, evalTokens ctx (callTokens (str "to_radians") [x]) = .ok r ∧ evalTokens ctx (callTokens (str "to_degrees") [r]) = .ok z ∧ z.isFin ∧
      |(z.val : ℝ) - q| ≤ |(q : ℝ)| * (4 / 10 ^ 16) + 7 / 10 ^ 9 ∧
      ((∀ n : ℤ, snapDistance ≤ |r.val - n|) → |(z.val : ℝ) - q| ≤ |(q : ℝ)| * (4 / 10 ^ 16) + 1 / 10 ^ 90) := by
  obtain ⟨⟨r, r1, r2, r3⟩, -⟩ := C168_units h x hx q hq h7
  obtain ⟨p, hp, -⟩ := TakenFor.unique r.val
  obtain ⟨t1, t2⟩ := taken_close hp
  obtain ⟨p1, p2⟩ := pi_bounds
  have pi0 := Real.pi_pos
  have hq7 : |(q : ℝ)| ≤ 10 ^ 7 := by
    have : ((|q| : ℚ) : ℝ) ≤ ((10 ^ 7 : ℚ) : ℝ) := Rat.cast_le.mpr h7
    rw [Rat.cast_abs] at this
    push_cast at this
    exact this
  have hd : |degrees q| ≤ |(q : ℝ)| * (1746 / 10 ^ 5) := by
    unfold degrees
    rw [abs_div, abs_mul, abs_of_pos pi0, abs_of_pos (by norm_num : (0 : ℝ) < 180), div_le_iff₀ (by norm_num), mul_assoc]
    apply mul_le_mul_of_nonneg_left _ (abs_nonneg _)
    norm_num
    linarith
  have hr : |(r.val : ℝ)| ≤ |(q : ℝ)| * (1747 / 10 ^ 5) + 1 / 10 ^ 100 := by
    have := abs_sub_abs_le_abs_sub (r.val : ℝ) (degrees q)
    norm_num at *
    linarith [abs_nonneg (q : ℝ)]
  have hpb : |(p : ℝ)| ≤ |(r.val : ℝ)| + |(p : ℝ) - r.val| := by
    have := abs_sub_abs_le_abs_sub (p : ℝ) r.val
    linarith
  have hp7 : |p| ≤ 10 ^ 7 := by
    have : |(p : ℝ)| ≤ 10 ^ 7 := by
      norm_num at hr hpb t1 hq7 ⊢
      linarith
    have : ((|p| : ℚ) : ℝ) ≤ ((10 ^ 7 : ℚ) : ℝ) := by rw [Rat.cast_abs]; push_cast; exact this
    exact Rat.cast_le.mp this
  obtain ⟨-, ⟨z, z1, z2, z3⟩⟩ := C168_units h r r2 p hp hp7
  have back : inDegrees (degrees q) = q := by unfold inDegrees degrees; field_simp
  have key : |(z.val : ℝ) - q| ≤ |(q : ℝ)| * (4 / 10 ^ 16) + 1 / 10 ^ 90 + 58 * |(p : ℝ) - r.val| := by
    have e1 : |inDegrees p - inDegrees r.val| ≤ 573 / 10 * |(p : ℝ) - r.val| := by
      unfold inDegrees
      rw [← sub_mul, abs_mul, mul_comm]
      apply mul_le_mul_of_nonneg_right _ (abs_nonneg _)
      rw [abs_of_pos (by positivity), div_le_iff₀ pi0]
      linarith
    have e2 : |inDegrees r.val - q| ≤ 573 / 10 * (|(q : ℝ)| * (3 / 10 ^ 18) + 1 / 10 ^ 100) := by
      conv_lhs => rw [← back]
      unfold inDegrees
      rw [← sub_mul, abs_mul, mul_comm]
      refine mul_le_mul ?_ r3 (abs_nonneg _) (by norm_num)
      rw [abs_of_pos (by positivity), div_le_iff₀ pi0]
      linarith
    have e3 := abs_sub_le (z.val : ℝ) (inDegrees p) (inDegrees r.val)
    have e4 := abs_sub_le (z.val : ℝ) (inDegrees r.val) q
    have e5 := abs_nonneg ((p : ℝ) - r.val)
    have e6 := abs_nonneg (q : ℝ)
    have e7 : |(p : ℝ)| * (1 / 10 ^ 14) ≤ (|(q : ℝ)| * (1747 / 10 ^ 5) + 1 / 10 ^ 100 + |(p : ℝ) - r.val|) * (1 / 10 ^ 14) :=
      mul_le_mul_of_nonneg_right (by linarith) (by norm_num)
    clear hd hr hpb t1 t2 hq7 h7
    norm_num at *
    linarith [abs_nonneg ((p : ℝ) - r.val), abs_nonneg (q : ℝ)]
  refine ⟨r, z, r1, z1, z2, ?_, fun hn => ?_⟩
  · refine key.trans ?_
    have : (58 : ℝ) * |(p : ℝ) - r.val| ≤ 58 * (11 / 10 ^ 11) := mul_le_mul_of_nonneg_left t1 (by norm_num)
    norm_num at *
    linarith [abs_nonneg (q : ℝ)]
  · rw [t2 hn, sub_self, abs_zero, mul_zero, add_zero] at key
    exact key

/-- C168, there and back: 57.295779508 degrees come back as 57.29577951308232, because their radians are closer than 1e-10 to 1. -/
theorem C168_back_counterexample (h : BuiltIn K debug docs (f64 lib draw) ((f64 lib draw).num B64.num) ctx) :
    let x := lit (57295779508 / 10 ^ 9)
    x.isFin ∧ |x.val - 57295779508 / 10 ^ 9| ≤ 1 / 10 ^ 14 ∧
    ∃ r z, evalTokens ctx (callTokens (str "to_radians") [x]) = .ok r ∧ evalTokens ctx (callTokens (str "to_degrees") [r]) = .ok z ∧
      5 / 10 ^ 9 ≤ z.val - x.val := by
  have hx : (lit (57295779508 / 10 ^ 9)).isFin := ⟨by decide +kernel, by decide +kernel⟩
  have hv : |(lit (57295779508 / 10 ^ 9)).val - 57295779508 / 10 ^ 9| ≤ 1 / 10 ^ 14 := by decide +kernel
  refine ⟨hx, hv, ?_⟩
  have key : |rnd ((lit (57295779508 / 10 ^ 9)).val * (div pi (lit 180)).val) - 1| < 1 / 10 ^ 10 := by decide +kernel
  have diff : 5 / 10 ^ 9 ≤ rnd (1 * (div (lit 180) pi).val) - (lit (57295779508 / 10 ^ 9)).val := by decide +kernel
  have kb : |(div (lit 180) pi).val| ≤ 58 := by decide +kernel
  have kb2 : |(div pi (lit 180)).val| ≤ 1 := by decide +kernel
  generalize lit (57295779508 / 10 ^ 9) = x at *
  have hv' := abs_le.mp hv
  norm_num at hv'
  have hq : TakenFor x.val x.val := by
    right
    refine ⟨fun n => ?_, rfl⟩
    have b := snapDistance_bounds.2
    norm_num at b
    rw [le_abs]
    rcases le_or_gt n 57 with hn | hn
    · left
      have : (n : ℚ) ≤ 57 := by exact_mod_cast hn
      linarith [hv'.1]
    · right
      have : (58 : ℚ) ≤ n := by exact_mod_cast hn
      linarith [hv'.2]
  have table := fun e he => ((C82_one_argument h x x rfl).1 e he).1 hx
  obtain ⟨s1, s2⟩ := snap_taken (lib := lib) (draw := draw) hx hq
  have rad : evalTokens ctx (callTokens (str "to_radians") [x]) = .ok (mul (snap (f64 lib draw) x) (div pi (lit 180))) :=
    table (str "to_radians", (f64 lib draw).toRadians) (by simp [plainTable])
  have d100 : ∀ {a : ℚ}, |a| ≤ 100 → ¬ TooLarge a := fun {a} ha => by
    have : IsDouble 100 := by have := isDouble_int (n := 100) (by norm_num); push_cast at this; exact this
    exact small_between this (by rwa [abs_of_pos (by norm_num : (0 : ℚ) < 100)])
  have n1 : ¬ TooLarge (x.val * (div pi (lit 180)).val) := d100 (by
    rw [abs_mul]
    refine (mul_le_mul (?_ : |x.val| ≤ 100) kb2 (abs_nonneg _) (by norm_num)).trans (by norm_num)
    rw [abs_le]
    constructor <;> linarith [hv'.1, hv'.2])
  have rv : (mul (snap (f64 lib draw) x) (div pi (lit 180))).isFin ∧
      (mul (snap (f64 lib draw) x) (div pi (lit 180))).val = rnd (x.val * (div pi (lit 180)).val) := by
    rw [mul_fin s1 radian_val.1, s2]
    exact of_fin _ n1
  generalize mul (snap (f64 lib draw) x) (div pi (lit 180)) = r at *
  have hr : TakenFor r.val 1 := by
    left
    refine ⟨1, ?_, by norm_num⟩
    rw [rv.2]
    push_cast
    exact key.trans snapDistance_bounds.1
  obtain ⟨t1, t2⟩ := snap_taken (lib := lib) (draw := draw) rv.1 hr
  have deg : evalTokens ctx (callTokens (str "to_degrees") [r]) = .ok (mul (snap (f64 lib draw) r) (div (lit 180) pi)) :=
    ((C82_one_argument h r r rfl).1 (str "to_degrees", (f64 lib draw).toDegrees) (by simp [plainTable])).1 rv.1
  refine ⟨r, _, rad, deg, ?_⟩
  have n2 : ¬ TooLarge (1 * (div (lit 180) pi).val) := d100 (by rw [one_mul]; exact kb.trans (by norm_num))
  rw [mul_fin t1 degree_val.1, t2, (of_fin _ n2).2]
  exact diff

/-- C169, the logarithm of the exponential. -/
theorem C169_ln_exp (E : lib.Exponentials) (A : lib.Logarithms) (h : BuiltIn K debug docs (f64 lib draw) ((f64 lib draw).num B64.num) ctx) (x : B64)
    (hx : x.isFin) (q : ℚ) (hq : TakenFor x.val q) (h1 : -20 ≤ q) (h2 : q ≤ 600) :
    ∃ r z, evalTokens ctx (callTokens (str "exp") [x]) = .ok r ∧ evalTokens ctx (callTokens (str "ln") [r]) = .ok z ∧ z.isFin ∧
      |(z.val : ℝ) - q| ≤ 3 / 10 ^ 10 + |(q : ℝ)| * (3 / 10 ^ 16) := by
  have q1 : (-20 : ℝ) ≤ q := by exact_mod_cast h1
  obtain ⟨s1, s2⟩ := snap_taken (lib := lib) (draw := draw) hx hq
  obtain ⟨a1, a2⟩ := E.near _ s1 (by rw [s2]; linarith) (by rw [s2]; linarith)
  have hexp : evalTokens ctx (callTokens (str "exp") [x]) = .ok (lib.exp (snap (f64 lib draw) x)) :=
    ((C82_one_argument h x x rfl).1 (str "exp", lib.exp) (by simp [plainTable, f64])).1 hx
  rw [s2] at a2
  generalize lib.exp (snap (f64 lib draw) x) = r at *
  obtain ⟨w, hw, -⟩ := TakenFor.unique r.val
  have e0 := Real.exp_pos (q : ℝ)
  have elow : (2 : ℝ) / 10 ^ 9 ≤ Real.exp q := by
    have h3 : Real.exp (-20) ≤ Real.exp q := Real.exp_le_exp.mpr q1
    refine le_trans ?_ h3
    have h4 : Real.exp 20 ≤ 5 * 10 ^ 8 := by
      have : Real.exp 20 = Real.exp 1 ^ 20 := by rw [← Real.exp_nat_mul]; norm_num
      rw [this]
      calc Real.exp 1 ^ 20 ≤ 2.7182818286 ^ 20 := pow_le_pow_left₀ (Real.exp_pos _).le Real.exp_one_lt_d9.le _
        _ ≤ _ := by norm_num
    rw [Real.exp_neg, le_inv_comm₀ (by norm_num) (Real.exp_pos _)]
    refine h4.trans (by norm_num)
  have hwc : |(w : ℝ) - Real.exp q| ≤ 12 / 10 ^ 11 * Real.exp q ∧ 0 < w := by
    have a3 := abs_le.mp a2
    rcases hw with ⟨n, hn, rfl⟩ | ⟨-, rfl⟩
    · have hn' := cast_near (hn.le.trans snapDistance_bounds.2.le)
      push_cast at hn'
      have hn2 := abs_le.mp hn'
      have hn0 : 0 < n := by
        by_contra hneg
        have : (n : ℝ) ≤ 0 := by exact_mod_cast not_lt.mp hneg
        norm_num at a3 hn2 elow
        linarith [a3.1, hn2.2]
      have hn1 : (1 : ℝ) ≤ n := by exact_mod_cast hn0
      refine ⟨?_, by exact_mod_cast hn0⟩
      push_cast
      have big : (99 : ℝ) / 100 ≤ Real.exp q := by
        norm_num at a3 hn2 ⊢
        linarith [a3.2, hn2.1]
      rw [abs_le]
      norm_num at a3 hn2 ⊢
      constructor <;> linarith [a3.1, a3.2, hn2.1, hn2.2]
    · refine ⟨?_, ?_⟩
      · refine a2.trans ?_
        rw [div_eq_mul_inv, mul_comm]
        exact mul_le_mul_of_nonneg_right (by norm_num) e0.le
      · have : (0 : ℝ) < r.val := by
          norm_num at a3
          linarith [a3.1]
        exact_mod_cast this
  obtain ⟨z, z1, z2, z3⟩ := (C164_ln A h r a1 w hw).1 hwc.2
  have hl := log_close e0 (by norm_num) hwc.1
  rw [Real.log_exp] at hl
  refine ⟨r, z, hexp, z1, z2, ?_⟩
  have e1 := abs_sub_le (z.val : ℝ) (Real.log w) q
  have e2 := abs_sub_abs_le_abs_sub (Real.log w) (q : ℝ)
  have e3 := abs_nonneg (q : ℝ)
  clear hwc a2 elow
  norm_num at *
  linarith [abs_nonneg (q : ℝ)]

/-- C169: below -23.1 the exponential is closer than 1e-10 to zero, and `ln(exp(x))` is minus infinity. -/
theorem C169_ln_exp_counterexample (E : lib.Exponentials) (A : lib.Logarithms) (h : BuiltIn K debug docs (f64 lib draw) ((f64 lib draw).num B64.num) ctx)
    (x : B64) (hx : x.isFin) (hv : x.val = -24) :
    ∃ r, evalTokens ctx (callTokens (str "exp") [x]) = .ok r ∧ evalTokens ctx (callTokens (str "ln") [r]) = .ok (.inf true) := by
  have hq : TakenFor x.val (-24) := by
    rw [hv]
    have := taken_whole (-24)
    push_cast at this
    exact this
  obtain ⟨s1, s2⟩ := snap_taken (lib := lib) (draw := draw) hx hq
  obtain ⟨a1, a2⟩ := E.near _ s1 (by rw [s2]; norm_num) (by rw [s2]; norm_num)
  have hexp : evalTokens ctx (callTokens (str "exp") [x]) = .ok (lib.exp (snap (f64 lib draw) x)) :=
    ((C82_one_argument h x x rfl).1 (str "exp", lib.exp) (by simp [plainTable, f64])).1 hx
  rw [s2] at a2
  generalize lib.exp (snap (f64 lib draw) x) = r at *
  refine ⟨r, hexp, ?_⟩
  have small : Real.exp ((-24 : ℚ) : ℝ) ≤ 5 / 10 ^ 11 := by
    have e : ((-24 : ℚ) : ℝ) = -((24 : ℕ) * 1) := by norm_num
    rw [e, Real.exp_neg, Real.exp_nat_mul, inv_le_comm₀ (by positivity) (by norm_num)]
    refine le_trans ?_ (pow_le_pow_left₀ (by norm_num) Real.exp_one_gt_d9.le 24)
    norm_num
  have pos := Real.exp_pos ((-24 : ℚ) : ℝ)
  refine (C164_ln A h r a1 0 (.inl ⟨0, ?_, by norm_num⟩)).2.1 rfl
  refine lt_of_le_of_lt ?_ snapDistance_bounds.1
  rw [Int.cast_zero, sub_zero]
  have : |(r.val : ℝ)| ≤ 1 / 10 ^ 10 := by
    rw [abs_le] at a2 ⊢
    norm_num at a2 small ⊢
    constructor <;> linarith [a2.1, a2.2]
  have : ((|r.val| : ℚ) : ℝ) ≤ ((1 / 10 ^ 10 : ℚ) : ℝ) := by rw [Rat.cast_abs]; push_cast; exact this
  exact Rat.cast_le.mp this

/-- C169, the exponential of the logarithm. -/
theorem C169_exp_ln (E : lib.Exponentials) (A : lib.Logarithms) (h : BuiltIn K debug docs (f64 lib draw) ((f64 lib draw).num B64.num) ctx) (x : B64)
    (hx : x.isFin) (q : ℚ) (hq : TakenFor x.val q) (h0 : 0 < q) (h2 : q ≤ 2 ^ 800) :
    ∃ r z, evalTokens ctx (callTokens (str "ln") [x]) = .ok r ∧ evalTokens ctx (callTokens (str "exp") [r]) = .ok z ∧ z.isFin ∧
      |(z.val : ℝ) - q| ≤ q * (3 / 10 ^ 10) := by
  have q0 : (0 : ℝ) < q := by exact_mod_cast h0
  obtain ⟨r, r1, r2, r3⟩ := (C164_ln A h x hx q hq).1 h0
  obtain ⟨p, hp, -⟩ := TakenFor.unique r.val
  obtain ⟨t1, -⟩ := taken_close hp
  have hl : |Real.log q| ≤ 600 := by
    have l2 := Real.log_two_lt_d9
    have l0 := Real.log_two_gt_d9
    rw [abs_le]
    constructor
    · have low : (1 : ℝ) / 2 ^ 40 ≤ q := by
        have h1 : (1 : ℚ) / 10 ^ 11 ≤ q := by
          rcases taken_away hq with h | h
          · rw [h] at h0; exact absurd h0 (lt_irrefl _)
          · rwa [abs_of_pos h0] at h
        have h3 : ((1 / 10 ^ 11 : ℚ) : ℝ) ≤ (q : ℝ) := Rat.cast_le.mpr h1
        push_cast at h3
        exact le_trans (by norm_num) h3
      have := Real.log_le_log (by norm_num) low
      rw [one_div, Real.log_inv, Real.log_pow] at this
      push_cast at this
      linarith
    · have high : (q : ℝ) ≤ 2 ^ 800 := by
        have : ((q : ℚ) : ℝ) ≤ ((2 ^ 800 : ℚ) : ℝ) := Rat.cast_le.mpr h2
        rw [Rat.cast_pow] at this
        exact_mod_cast this
      have := Real.log_le_log q0 high
      rw [Real.log_pow] at this
      push_cast at this
      linarith
  have hd : |(p : ℝ) - Real.log q| ≤ 12 / 10 ^ 11 := by
    have e1 := abs_sub_le (p : ℝ) r.val (Real.log q)
    norm_num at *
    linarith
  have hpb : |(p : ℝ)| ≤ 601 := by
    have := abs_sub_abs_le_abs_sub (p : ℝ) (Real.log q)
    norm_num at *
    linarith
  have hpq : |p| ≤ 601 := by
    have : ((|p| : ℚ) : ℝ) ≤ ((601 : ℚ) : ℝ) := by rw [Rat.cast_abs]; push_cast; exact hpb
    exact Rat.cast_le.mp this
  have hpq' := abs_le.mp hpq
  obtain ⟨s1, s2⟩ := snap_taken (lib := lib) (draw := draw) r2 hp
  obtain ⟨a1, a2⟩ := E.near _ s1 (by rw [s2]; linarith [hpq'.1]) (by rw [s2]; linarith [hpq'.2])
  rw [s2] at a2
  have hexp : evalTokens ctx (callTokens (str "exp") [r]) = .ok (lib.exp (snap (f64 lib draw) r)) :=
    ((C82_one_argument h r r rfl).1 (str "exp", lib.exp) (by simp [plainTable, f64])).1 r2
  refine ⟨r, _, r1, hexp, a1, ?_⟩
  generalize ((lib.exp (snap (f64 lib draw) r)).val : ℝ) = z at *
  have he : |Real.exp p - q| ≤ q * (2 / 10 ^ 10 + 4 / 10 ^ 11) := by
    have e1 : Real.exp p = q * Real.exp (p - Real.log q) := by
      rw [Real.exp_sub, Real.exp_log q0]
      field_simp
    have e2 : |Real.exp ((p : ℝ) - Real.log q) - 1| ≤ 2 * |(p : ℝ) - Real.log q| := Real.abs_exp_sub_one_le (hd.trans (by norm_num))
    rw [e1, show (q : ℝ) * Real.exp (p - Real.log q) - q = q * (Real.exp (p - Real.log q) - 1) by ring, abs_mul, abs_of_pos q0]
    apply mul_le_mul_of_nonneg_left _ q0.le
    norm_num at *
    linarith
  have e3 := abs_sub_le z (Real.exp p) q
  have e4 := abs_sub_abs_le_abs_sub (Real.exp p) (q : ℝ)
  rw [abs_of_pos (Real.exp_pos _), abs_of_pos q0] at e4
  clear hd hpb hl r3 t1
  norm_num at *
  linarith [show (0 : ℝ) < q by exact_mod_cast h0]

/-- C169, the angle of the tangent. -/
theorem C169_atan_tan (T : lib.Circular) (A : lib.Arcs) (h : BuiltIn K debug docs (f64 lib draw) ((f64 lib draw).num B64.num) ctx) (x : B64)
    (hx : x.isFin) (h90 : |x.val| < 90) {c : ℝ} (hc : 1 / 1000 ≤ c) (hcos : c ≤ Real.cos (degrees x.val)) :
    ∃ r z, evalTokens ctx (callTokens (str "tan") [x]) = .ok r ∧ evalTokens ctx (callTokens (str "atan") [r]) = .ok z ∧ z.isFin ∧
      |(z.val : ℝ) - x.val| ≤ 7 / 10 ^ 9 + 1 / 10 ^ 13 / c ^ 2 := by
  have pi0 := Real.pi_pos
  obtain ⟨p1, p2⟩ := pi_bounds
  obtain ⟨r, r1, r2, r3, -⟩ := C162_tangent T h x hx (h90.le.trans (by norm_num)) hc (hcos.trans (le_abs_self _))
  obtain ⟨z, z1, z2, z3⟩ := C163_arctangent A h r r2
  refine ⟨r, z, r1, z1, z2, ?_⟩
  have hxr : |(x.val : ℝ)| < 90 := by
    have : ((|x.val| : ℚ) : ℝ) < ((90 : ℚ) : ℝ) := Rat.cast_lt.mpr h90
    rw [Rat.cast_abs] at this
    push_cast at this
    exact this
  have hx2 := abs_lt.mp hxr
  have back : inDegrees (Real.arctan (Real.tan (degrees x.val))) = x.val := by
    rw [Real.arctan_tan]
    · unfold inDegrees degrees; field_simp
    · unfold degrees
      rw [lt_div_iff₀ (by norm_num)]
      nlinarith [hx2.1]
    · unfold degrees
      rw [div_lt_iff₀ (by norm_num)]
      nlinarith [hx2.2]
  have c2 : 0 < c ^ 2 := by positivity
  have he : (|(x.val : ℝ)| * (4 / 10 ^ 18) + 1 / 10 ^ 15) / c ^ 2 ≤ 14 / 10 ^ 16 / c ^ 2 := by
    apply div_le_div_of_nonneg_right _ c2.le
    norm_num at *
    linarith
  have ht : |(r.val : ℝ) - Real.tan (degrees x.val)| ≤ 14 / 10 ^ 16 / c ^ 2 + 11 / 10 ^ 11 := by
    rcases r3 with h | ⟨n, -, h⟩
    · refine (h.trans he).trans ?_
      norm_num
    · linarith
  have hl := (Dec.Laws.arctan_lipschitz (r.val : ℝ) (Real.tan (degrees x.val))).trans ht
  have e1 : |inDegrees (Real.arctan r.val) - x.val| ≤ 573 / 10 * (14 / 10 ^ 16 / c ^ 2 + 11 / 10 ^ 11) := by
    conv_lhs => rw [← back]
    unfold inDegrees
    rw [← sub_mul, abs_mul, mul_comm]
    refine mul_le_mul ?_ hl (abs_nonneg _) (by norm_num)
    rw [abs_of_pos (by positivity), div_le_iff₀ pi0]
    linarith
  have e2 := abs_sub_le (z.val : ℝ) (inDegrees (Real.arctan r.val)) x.val
  have e3 : (14 : ℝ) / 10 ^ 16 / c ^ 2 = 14 / 10 ^ 16 * (1 / c ^ 2) := by ring
  have e4 : (1 : ℝ) / 10 ^ 13 / c ^ 2 = 1 / 10 ^ 13 * (1 / c ^ 2) := by ring
  rw [e3] at e1
  rw [e4]
  have e5 : 0 < 1 / c ^ 2 := by positivity
  generalize 1 / c ^ 2 = u at *
  clear hl ht he r3
  norm_num at *
  linarith

/-- The hypotheses are met: -24, 3 and 45 are taken for themselves and within the bounds. -/
example : TakenFor (-24) (-24) ∧ TakenFor 3 3 ∧ (lit 45).val = 45 ∧ (1 : ℝ) / 1000 ≤ 1 / 2 ∧ 1 / 2 ≤ Real.cos (degrees 45) := by
  refine ⟨by simpa using taken_whole (-24), by simpa using taken_whole 3, by decide +kernel, by norm_num, ?_⟩
  have : degrees 45 = Real.pi / 4 := by unfold degrees; push_cast; ring
  rw [this, Real.cos_pi_div_four]
  have : (1 : ℝ) ≤ √2 := by rw [Real.one_le_sqrt]; norm_num
  linarith

end

end Prexel
