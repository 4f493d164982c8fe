import Verif.Props.DoubleInverse
import Verif.Props.DoubleReciprocals
import Verif.Props.Area
import Mathlib.Analysis.SpecialFunctions.Arsinh
import Mathlib.Analysis.SpecialFunctions.Arcosh
import Mathlib.Analysis.SpecialFunctions.Artanh
/-!
# Area functions over `f64` (C173)
-/

namespace Prexel
open B64

/-- The contract of `f64::asinh`, `acosh` and `atanh`: an error of at most 2^-51 of the result (plus 2^-200), and no finite result where there is none. -/
structure Libm.Areas (lib : Libm) : Prop where
  asinh : ∀ x : B64, x.isFin → (lib.asinh x).isFin ∧ |((lib.asinh x).val : ℝ) - Real.arsinh x.val| ≤ |Real.arsinh x.val| / 2 ^ 51 + 1 / 2 ^ 200
  acosh : ∀ x : B64, x.isFin → 1 ≤ x.val → (lib.acosh x).isFin ∧ |((lib.acosh x).val : ℝ) - Real.arcosh x.val| ≤ |Real.arcosh x.val| / 2 ^ 51 + 1 / 2 ^ 200
  atanh : ∀ x : B64, x.isFin → |x.val| < 1 → (lib.atanh x).isFin ∧ |((lib.atanh x).val : ℝ) - Real.artanh x.val| ≤ |Real.artanh x.val| / 2 ^ 51 + 1 / 2 ^ 200
  below : ∀ x : B64, x.isFin → x.val < 1 → ¬ (lib.acosh x).isFin
  outside : ∀ x : B64, x.isFin → 1 ≤ |x.val| → ¬ (lib.atanh x).isFin
  infinite : ∀ s, ¬ (lib.asinh (.inf s)).isFin ∧ ¬ (lib.acosh (.inf s)).isFin ∧ ¬ (lib.atanh (.inf s)).isFin

namespace B64

/-- Nothing infinite becomes finite in degrees. -/
theorem toDegrees_only {a : B64} (h : (mul a (div (lit 180) pi)).isFin) : a.isFin := by
  obtain ⟨k1, -⟩ := degree_val
  have k0 : (div (lit 180) pi).val ≠ 0 := by decide +kernel
  obtain ⟨b, j, hj, e⟩ := isFin_fin k1
  rw [e] at h k0
  rcases a with - | a | ⟨a, k, hk⟩
  · exact absurd h.1 (by simp [mul, isNan])
  · have hj0 : j ≠ 0 := fun h0 => k0 ((val_zero_iff _ _ _).mpr h0)
    have : mul (.inf a) (.fin b j hj) = .inf (a ^^ b) := if_neg hj0
    rw [this] at h
    exact absurd h.2 (by simp [isInf])
  · exact ⟨rfl, rfl⟩

/-- In degrees and taken for a whole number if it is close to one. -/
theorem area_near {lib : Libm} {draw : B64} {a : B64} (ha : a.isFin) {t : ℝ} (h : |(a.val : ℝ) - t| ≤ |t| / 2 ^ 51 + 1 / 2 ^ 200) (ht : |t| ≤ 1000) :
    (snap (f64 lib draw) (mul a (div (lit 180) pi))).isFin ∧
      Meets (snap (f64 lib draw) (mul a (div (lit 180) pi))).val (inDegrees t) (|t| * (4 / 10 ^ 14) + 1 / 10 ^ 50) := by
  have hv : |(a.val : ℝ)| ≤ |t| * (1 + 1 / 2 ^ 51) + 1 / 2 ^ 200 := by
    have := abs_sub_abs_le_abs_sub (a.val : ℝ) t
    rw [div_eq_mul_one_div] at h
    linarith
  have hv9 : |(a.val : ℝ)| ≤ 10 ^ 9 := by
    refine hv.trans ((add_le_add_left (mul_le_mul_of_nonneg_right ht (by norm_num)) _).trans (by norm_num))
  have hq : |a.val| ≤ 10 ^ 9 := by
    have : ((|a.val| : ℚ) : ℝ) ≤ ((10 ^ 9 : ℚ) : ℝ) := by rw [Rat.cast_abs]; push_cast; exact hv9
    exact Rat.cast_le.mp this
  obtain ⟨d1, d2⟩ := toDegrees_any ha hq
  refine snap_meets d1 ?_
  obtain ⟨p1, p2⟩ := pi_bounds
  have pi0 := Real.pi_pos
  have e1 : |inDegrees a.val - inDegrees t| ≤ 573 / 10 * (|t| / 2 ^ 51 + 1 / 2 ^ 200) := by
    unfold inDegrees
    rw [← sub_mul, abs_mul, mul_comm]
    refine mul_le_mul ?_ h (abs_nonneg _) (by norm_num)
    rw [abs_of_pos (by positivity), div_le_iff₀ pi0]
    linarith
  have e2 := abs_sub_le ((mul a (div (lit 180) pi)).val : ℝ) (inDegrees a.val) (inDegrees t)
  have e3 := abs_nonneg t
  norm_num at e1 d2 hv ⊢
  linarith

/-- Areas of doubles are small. -/
theorem area_bounds {x : B64} (hx : x.isFin) :
    |Real.arsinh x.val| ≤ 1000 ∧ (1 ≤ x.val → |Real.arcosh x.val| ≤ 1000) ∧ (|x.val| < 1 → |Real.artanh x.val| ≤ 1000) := by
  have l3 : Real.log 3 ≤ 2 := by
    rw [Real.log_le_iff_le_exp (by norm_num)]
    have := Real.add_one_le_exp (2 : ℝ)
    linarith
  have large : ∀ u : ℝ, 1 ≤ u → |Real.log u| ≤ 800 → Real.log (3 * u) ≤ 802 := by
    intro u hu hl
    rw [Real.log_mul (by norm_num) (by linarith)]
    linarith [le_abs_self (Real.log u)]
  refine ⟨?_, fun h1 => ?_, fun h1 => ?_⟩
  · have key : ∀ y : B64, y.isFin → 0 ≤ y.val → |Real.arsinh y.val| ≤ 1000 := by
      intro y hy h0
      have y0 : (0 : ℝ) ≤ y.val := by exact_mod_cast h0
      rw [abs_of_nonneg (Real.arsinh_nonneg_iff.mpr y0)]
      have hs : √(1 + (y.val : ℝ) ^ 2) ≤ 1 + y.val := by
        rw [Real.sqrt_le_left (by linarith)]
        nlinarith
      unfold Real.arsinh
      have hp : 0 < (y.val : ℝ) + √(1 + (y.val : ℝ) ^ 2) := by
        have : 0 < √(1 + (y.val : ℝ) ^ 2) := Real.sqrt_pos.mpr (by positivity)
        linarith
      rcases le_total y.val 1 with h | h
      · have y1 : (y.val : ℝ) ≤ 1 := by exact_mod_cast h
        have := Real.log_le_log hp (show _ ≤ (3 : ℝ) by linarith)
        linarith
      · have y1 : (1 : ℝ) ≤ y.val := by exact_mod_cast h
        have := Real.log_le_log hp (show _ ≤ 3 * (y.val : ℝ) by linarith)
        have := large _ y1 (log_bounds hy (by linarith)).1
        linarith
    rcases le_total 0 x.val with h | h
    · exact key x hx h
    · obtain ⟨n1, n2⟩ : (neg x).isFin ∧ (neg x).val = -x.val := by
        obtain ⟨a, k, hk, rfl⟩ := isFin_fin hx
        exact ⟨⟨rfl, rfl⟩, by cases a <;> simp [neg, val, neg_div]⟩
      have := key (neg x) n1 (by rw [n2]; linarith)
      rw [n2] at this
      push_cast at this
      rwa [Real.arsinh_neg, abs_neg] at this
  · have x1 : (1 : ℝ) ≤ x.val := by exact_mod_cast h1
    rw [abs_of_nonneg (Real.arcosh_nonneg x1)]
    unfold Real.arcosh
    have hs : √((x.val : ℝ) ^ 2 - 1) ≤ x.val := by
      rw [Real.sqrt_le_left (by linarith)]
      linarith
    have hp : 0 < (x.val : ℝ) + √((x.val : ℝ) ^ 2 - 1) := by have := Real.sqrt_nonneg ((x.val : ℝ) ^ 2 - 1); linarith
    have := Real.log_le_log hp (show _ ≤ 3 * (x.val : ℝ) by linarith)
    have := large _ x1 (log_bounds hx (by linarith)).1
    linarith
  · have hx1 := abs_lt.mp h1
    have d1 := double_near_one (isDouble_val hx) (by linarith : x.val ≠ 1)
    have hn : IsDouble (-x.val) := by
      have := isDouble_val (x := neg x) (by obtain ⟨a, k, hk, rfl⟩ := isFin_fin hx; exact ⟨rfl, rfl⟩)
      have e : (neg x).val = -x.val := by
        obtain ⟨a, k, hk, rfl⟩ := isFin_fin hx
        cases a <;> simp [neg, val, neg_div]
      rwa [e] at this
    have d2 := double_near_one hn (by linarith : -x.val ≠ 1)
    rw [abs_of_neg (by linarith)] at d1 d2
    have c1 : ((1 / 2 ^ 53 : ℚ) : ℝ) ≤ ((-(x.val - 1) : ℚ) : ℝ) := Rat.cast_le.mpr d1
    have c2 : ((1 / 2 ^ 53 : ℚ) : ℝ) ≤ ((-(-x.val - 1) : ℚ) : ℝ) := Rat.cast_le.mpr d2
    push_cast at c1 c2
    have b1 : (x.val : ℝ) < 1 := by exact_mod_cast hx1.2
    have b2 : (-1 : ℝ) < x.val := by exact_mod_cast hx1.1
    rw [Real.artanh_eq_half_log ⟨b2.le, b1.le⟩]
    have l2 := Real.log_two_lt_d9
    have r1 : (1 + (x.val : ℝ)) / (1 - x.val) ≤ 2 ^ 54 := by
      rw [div_le_iff₀ (by linarith)]
      norm_num at c1 ⊢
      linarith
    have r2 : (1 : ℝ) / 2 ^ 54 ≤ (1 + (x.val : ℝ)) / (1 - x.val) := by
      rw [le_div_iff₀ (by linarith)]
      norm_num at c2 ⊢
      linarith
    have g1 := Real.log_le_log (lt_of_lt_of_le (by norm_num) r2) r1
    have g2 := Real.log_le_log (by norm_num) r2
    rw [one_div, Real.log_inv, Real.log_pow] at g2
    rw [Real.log_pow] at g1
    rw [abs_le]
    norm_num at g1 g2 l2 ⊢
    constructor <;> linarith

end B64

section
variable {K : Keys} {debug docs : Bool} {lib : Libm} {draw : B64} {ctx : Ctx B64}

/-- C173: the area functions give the area in degrees. -/
theorem C173_areas (A : lib.Areas) (h : BuiltIn K debug docs (f64 lib draw) ((f64 lib draw).num B64.num) ctx) (x : B64) (hx : x.isFin) :
    let call := fun name => evalTokens ctx (callTokens (str name) [x])
    let gives := fun name (t : ℝ) => ∃ y, call name = .ok y ∧ y.isFin ∧ Meets y.val (inDegrees t) (|t| * (4 / 10 ^ 14) + 1 / 10 ^ 50)
    gives "asinh" (Real.arsinh x.val) ∧ (1 ≤ x.val → gives "acosh" (Real.arcosh x.val)) ∧ (x.val < 1 → call "acosh" = .err .nan) ∧
    (|x.val| < 1 → gives "atanh" (Real.artanh x.val)) ∧ (1 ≤ |x.val| → call "atanh" = .err .nan) := by
  intro call gives
  have table := (C89_area_degrees h x x rfl).1
  obtain ⟨b1, b2, b3⟩ := area_bounds hx
  have t1 := table (str "asinh", lib.asinh) (by simp [areaTable, f64])
  have t2 := table (str "acosh", lib.acosh) (by simp [areaTable, f64])
  have t3 := table (str "atanh", lib.atanh) (by simp [areaTable, f64])
  have bad : ∀ {a : B64}, ¬ a.isFin → ¬ (f64 lib draw).Finite (snap (f64 lib draw) (mul a (div (lit 180) pi))) :=
    fun ha hf => ha (toDegrees_only (snap_only hf))
  refine ⟨?_, fun h1 => ?_, fun h1 => t2.2 (bad (A.below x hx h1)), fun h1 => ?_, fun h1 => t3.2 (bad (A.outside x hx h1))⟩
  · obtain ⟨a1, a2⟩ := A.asinh x hx
    obtain ⟨s1, s2⟩ := area_near (lib := lib) (draw := draw) a1 a2 b1
    exact ⟨_, t1.1 s1, s1, s2⟩
  · obtain ⟨a1, a2⟩ := A.acosh x hx h1
    obtain ⟨s1, s2⟩ := area_near (lib := lib) (draw := draw) a1 a2 (b2 h1)
    exact ⟨_, t2.1 s1, s1, s2⟩
  · obtain ⟨a1, a2⟩ := A.atanh x hx h1
    obtain ⟨s1, s2⟩ := area_near (lib := lib) (draw := draw) a1 a2 (b3 h1)
    exact ⟨_, t3.1 s1, s1, s2⟩

/-- C173: those of the reciprocal. -/
theorem C173_reciprocals (A : lib.Areas) (h : BuiltIn K debug docs (f64 lib draw) ((f64 lib draw).num B64.num) ctx) (x : B64) (hx : x.isFin) :
    let call := fun name y => evalTokens ctx (callTokens (str name) [y])
    ∀ p ∈ [("asinh", "acsch"), ("acosh", "asech"), ("atanh", "acoth")],
      (x.val = 0 → call p.2 x = .err .nan) ∧
      (x.val ≠ 0 → ∃ r, evalTokens ctx (infixTokens (lit 1) (str "/") x) = .ok r ∧ call p.2 x = call p.1 r) := by
  intro call p hp
  have table := (C89_area_degrees h x x rfl).2
  have bad : ∀ {a : B64}, ¬ a.isFin → ¬ (f64 lib draw).Finite (snap (f64 lib draw) (mul a (div (lit 180) pi))) :=
    fun ha hf => ha (toDegrees_only (snap_only hf))
  have both : ∀ {v : B64} {r s : Res B64}, FiniteOr (f64 lib draw) ((f64 lib draw).num B64.num) v r →
      FiniteOr (f64 lib draw) ((f64 lib draw).num B64.num) v s → r = s := by
    intro v r s hr hs
    by_cases hf : (f64 lib draw).Finite v
    · rw [hr.1 hf, hs.1 hf]
    · rw [hr.2 hf, hs.2 hf]
  constructor
  · intro h0
    obtain ⟨s, hs⟩ := reciprocal_zero hx h0
    obtain ⟨i1, i2, i3⟩ := A.infinite s
    have hs' : (f64 lib draw).inv x = .inf s := hs
    simp only [List.mem_cons, List.not_mem_nil, or_false] at hp
    rcases hp with rfl | rfl | rfl
    · have t := table (str "acsch", lib.asinh) (by simp [areaInvTable, f64])
      rw [hs'] at t
      exact t.2 (bad i1)
    · have t := table (str "asech", lib.acosh) (by simp [areaInvTable, f64])
      rw [hs'] at t
      exact t.2 (bad i2)
    · have t := table (str "acoth", lib.atanh) (by simp [areaInvTable, f64])
      rw [hs'] at t
      exact t.2 (bad i3)
  · intro h0
    have hdiv : evalTokens ctx (infixTokens (lit 1) (str "/") x) = .ok (div (lit 1) x) := by
      refine (double_tree h (.bin .div (.num (lit 1)) (.num x))).trans ?_
      show (if _ then _ else _) = _
      rw [if_neg (by rw [isZero_iff hx]; exact h0)]
    refine ⟨_, hdiv, ?_⟩
    have table' := (C89_area_degrees h (div (lit 1) x) (div (lit 1) x) rfl).1
    simp only [List.mem_cons, List.not_mem_nil, or_false] at hp
    rcases hp with rfl | rfl | rfl
    · exact both (table (str "acsch", lib.asinh) (by simp [areaInvTable, f64])) (table' (str "asinh", lib.asinh) (by simp [areaTable, f64]))
    · exact both (table (str "asech", lib.acosh) (by simp [areaInvTable, f64])) (table' (str "acosh", lib.acosh) (by simp [areaTable, f64]))
    · exact both (table (str "acoth", lib.atanh) (by simp [areaInvTable, f64])) (table' (str "atanh", lib.atanh) (by simp [areaTable, f64]))

/-! ## Examples -/

namespace B64

/-- Any library, with these area functions: the nearest doubles. -/
noncomputable def withAreas (lib : Libm) : Libm :=
  { lib with
    asinh := fun x => match x with | .fin a k h => nearestTo (Real.arsinh (B64.fin a k h).val) | y => y
    acosh := fun x => if x.isFin ∧ 1 ≤ x.val then nearestTo (Real.arcosh x.val) else .nan
    atanh := fun x => if x.isFin ∧ |x.val| < 1 then nearestTo (Real.artanh x.val) else .nan }

/-- The contract can be met. -/
theorem withAreas_contract (lib : Libm) : (withAreas lib).Areas := by
  have key : ∀ t : ℝ, |t| ≤ 1000 → (nearestTo t).isFin ∧ |((nearestTo t).val : ℝ) - t| ≤ |t| / 2 ^ 51 + 1 / 2 ^ 200 := by
    intro t ht
    obtain ⟨h1, h2⟩ := nearestTo_near (ht.trans (le_trans (by norm_num : (1000 : ℝ) ≤ 2 ^ 10) (pow_le_pow_right₀ (by norm_num) (by norm_num))))
    refine ⟨h1, h2.trans (add_le_add_left (div_le_div_of_nonneg_left (abs_nonneg _) (by norm_num) (by norm_num)) _)⟩
  have nan : ¬ B64.nan.isFin := fun h => absurd h.1 (by simp [isNan])
  have inf : ∀ s, ¬ (B64.inf s).isFin := fun s h => absurd h.2 (by simp [isInf])
  refine ⟨fun x hx => ?_, fun x hx h1 => ?_, fun x hx h1 => ?_, fun x hx h1 => ?_, fun x hx h1 => ?_, fun s => ⟨inf s, ?_, ?_⟩⟩
  · obtain ⟨a, k, hk, rfl⟩ := isFin_fin hx
    exact key _ (area_bounds hx).1
  · have e : (withAreas lib).acosh x = nearestTo (Real.arcosh x.val) := if_pos ⟨hx, h1⟩
    rw [e]
    exact key _ ((area_bounds hx).2.1 h1)
  · have e : (withAreas lib).atanh x = nearestTo (Real.artanh x.val) := if_pos ⟨hx, h1⟩
    rw [e]
    exact key _ ((area_bounds hx).2.2 h1)
  · have e : (withAreas lib).acosh x = .nan := if_neg fun h => absurd h.2 (not_le.mpr h1)
    rw [e]; exact nan
  · have e : (withAreas lib).atanh x = .nan := if_neg fun h => absurd h.2 (not_lt.mpr h1)
    rw [e]; exact nan
  · have e : (withAreas lib).acosh (.inf s) = .nan := if_neg (t := nearestTo (Real.arcosh (B64.inf s).val)) (c := (B64.inf s).isFin ∧ 1 ≤ (B64.inf s).val) fun h => inf s h.1
    rw [e]; exact nan
  · have e : (withAreas lib).atanh (.inf s) = .nan := if_neg (t := nearestTo (Real.artanh (B64.inf s).val)) (c := (B64.inf s).isFin ∧ |(B64.inf s).val| < 1) fun h => inf s h.1
    rw [e]; exact nan

end B64

/-- The hypotheses are met: some library meets the contract; 2 has an area cosine and 1/2 an area tangent. -/
example (lib : Libm) : (withAreas lib).Areas ∧ (lit 2).isFin ∧ 1 ≤ (lit 2).val ∧ (lit (1 / 2)).isFin ∧ |(lit (1 / 2)).val| < 1 ∧ (lit (1 / 2)).val ≠ 0 :=
  ⟨withAreas_contract lib, ⟨by decide +kernel, by decide +kernel⟩, by decide +kernel, ⟨by decide +kernel, by decide +kernel⟩, by decide +kernel, by decide +kernel⟩

end

end Prexel
