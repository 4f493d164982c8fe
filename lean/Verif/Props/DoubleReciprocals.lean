import Verif.Props.DoubleArcs
import Verif.Props.DoubleHyperbolic
/-!
# Reciprocal angle functions over `f64` (C166)
-/

namespace Prexel
open B64

/-- The contract of `f64::asin`, `acos` and `atan` at infinity. -/
structure Libm.ArcsFar (lib : Libm) : Prop where
  asin : ∀ s, lib.asin (.inf s) = .nan
  acos : ∀ s, lib.acos (.inf s) = .nan
  atan : ∀ s, (lib.atan (.inf s)).isFin ∧ |((lib.atan (.inf s)).val : ℝ) - if s then -(Real.pi / 2) else Real.pi / 2| ≤ 1 / 2 ^ 51

namespace B64

/-- The reciprocal of a double is rounded once. -/
theorem reciprocal_near {g : B64} (hg : g.isFin) (lo : 1 / 2 ^ 900 ≤ |g.val|) (hi : |g.val| ≤ 2 ^ 900) :
    (div (lit 1) g).isFin ∧ |(div (lit 1) g).val - 1 / g.val| ≤ |1 / g.val| * (1 / 2 ^ 52) ∧ (IsDouble (1 / g.val) → (div (lit 1) g).val = 1 / g.val) := by
  have hp : 0 < |g.val| := lt_of_lt_of_le (by positivity) lo
  have h0 : g.val ≠ 0 := abs_pos.mp hp
  obtain ⟨o1, o2⟩ := one_val
  have hq : |1 / g.val| ≤ 2 ^ 900 := by
    rw [abs_div, abs_one, div_le_iff₀ hp]
    have := mul_le_mul_of_nonneg_left lo (by positivity : (0 : ℚ) ≤ 2 ^ 900)
    rwa [mul_one_div_cancel (by positivity)] at this
  have hnl : ¬ TooLarge (1 / g.val) := by
    have hd : IsDouble (2 ^ (0 + 900)) := isDouble_pow_two 0 900 (by norm_num) (by norm_num)
    rw [zero_add] at hd
    exact small_between hd (by rwa [abs_of_pos (by positivity : (0 : ℚ) < 2 ^ 900)])
  rw [div_fin o1 hg h0, o2]
  obtain ⟨f1, f2⟩ := of_fin ((lit 1).sign ^^ g.sign) hnl
  refine ⟨f1, ?_, fun hd => by rw [f2]; exact rnd_keep hd⟩
  rw [f2]
  refine (rnd_moves (hq.trans (pow_le_pow_right₀ (by norm_num : (1 : ℚ) ≤ 2) (by norm_num : 900 ≤ 1000)))).trans ?_
  have big : (1 : ℚ) / 2 ^ 900 ≤ |1 / g.val| := by
    rw [abs_div, abs_one]
    exact one_div_le_one_div_of_le hp hi
  have tiny : (1 : ℚ) / 2 ^ 1022 ≤ |1 / g.val| * (1 / 2 ^ 122) := by
    refine le_trans (le_of_eq ?_) (mul_le_mul_of_nonneg_right big (by positivity))
    rw [show (1022 : ℕ) = 900 + 122 by norm_num, pow_add, one_div_mul_one_div]
  have h2 : |1 / g.val| * (112 / 10 ^ 18) + |1 / g.val| * (1 / 2 ^ 122) ≤ |1 / g.val| * (1 / 2 ^ 52) := by
    rw [← mul_add]
    exact mul_le_mul_of_nonneg_left (by norm_num) (abs_nonneg _)
  exact (add_le_add_right tiny _).trans h2

/-- One by zero is infinite. -/
theorem reciprocal_zero {g : B64} (hg : g.isFin) (h0 : g.val = 0) : ∃ s, div (lit 1) g = .inf s := by
  obtain ⟨a, k, hk, rfl⟩ := isFin_fin hg
  have hk0 := (val_zero_iff _ _ _).mp h0
  subst hk0
  obtain ⟨b, j, hj, e⟩ : ∃ b j hj, lit 1 = .fin b j hj := isFin_fin one_val.1
  have hj0 : j ≠ 0 := by
    intro h0
    have h2 := one_val.2
    rw [e, (val_zero_iff _ _ _).mpr h0] at h2
    norm_num at h2
  exact ⟨b ^^ a, by rw [e]; simp [div, hj0]⟩

/-- Only finite numbers are taken for finite numbers. -/
theorem snap_only {lib : Libm} {draw : B64} {x : B64} (h : (snap (f64 lib draw) x).isFin) : x.isFin := by
  rcases x with - | a | ⟨a, k, hk⟩
  · have e : snap (f64 lib draw) .nan = .nan := by unfold snap; split <;> rfl
    rw [e] at h
    exact absurd h.1 (by simp [isNan])
  · have e : snap (f64 lib draw) (.inf a) = .inf a := by unfold snap; split <;> rfl
    rw [e] at h
    exact absurd h.2 (by simp [isInf])
  · exact ⟨rfl, rfl⟩

end B64

section
variable {K : Keys} {debug docs : Bool} {lib : Libm} {draw : B64} {ctx : Ctx B64}

/-- C166, the reciprocals of sine, cosine and tangent: one by the sine that the function `sin` gives. -/
theorem C166_reciprocals (h : BuiltIn K debug docs (f64 lib draw) ((f64 lib draw).num B64.num) ctx) (x s : B64) (hs : s.isFin) (hb : |s.val| ≤ 2 ^ 900) :
    let call := fun name => evalTokens ctx (callTokens (str name) [x])
    ∀ e ∈ [("sin", "csc"), ("cos", "sec"), ("tan", "cot")], call e.1 = .ok s →
      (s.val = 0 → call e.2 = .err .nan) ∧
      (s.val ≠ 0 → ∃ z, call e.2 = .ok z ∧ z.isFin ∧ |z.val - 1 / s.val| ≤ |1 / s.val| * (1 / 2 ^ 52) ∧ (IsDouble (1 / s.val) → z.val = 1 / s.val)) := by
  intro call e he hc
  obtain ⟨r1, r2⟩ := (C84_reciprocal h x s).1 e he hc
  have away : s.val = 0 ∨ 1 / 10 ^ 11 ≤ |s.val| := by
    have tables := (C82_one_argument h x x rfl).2.1
    have key : ∀ (a : Str) (m : B64 → B64), (a, m) ∈ angleTable (f64 lib draw) → evalTokens ctx (callTokens a [x]) = .ok s →
        s.val = 0 ∨ 1 / 10 ^ 11 ≤ |s.val| := by
      intro a m ha hs'
      have h4 := tables _ ha
      simp only [FiniteOr] at h4
      have h6 : snap (f64 lib draw) (m ((f64 lib draw).toRadians x)) = s := by
        by_cases hf : (f64 lib draw).Finite (snap (f64 lib draw) (m ((f64 lib draw).toRadians x)))
        · have := (h4.1 hf).symm.trans hs'
          injection this
        · have := (h4.2 hf).symm.trans hs'
          cases this
      have hf : (m ((f64 lib draw).toRadians x)).isFin := snap_only (h6 ▸ hs)
      obtain ⟨y, hy, -⟩ := TakenFor.unique (m ((f64 lib draw).toRadians x)).val
      have h7 := (snap_taken (lib := lib) (draw := draw) hf hy).2
      rw [h6] at h7
      rw [h7]
      exact taken_away hy
    simp only [List.mem_cons, List.not_mem_nil, or_false] at he
    rcases he with rfl | rfl | rfl
    · exact key _ lib.sin (by simp [angleTable, f64]) hc
    · exact key _ lib.cos (by simp [angleTable, f64]) hc
    · exact key _ lib.tan (by simp [angleTable, f64]) hc
  constructor
  · intro h0
    obtain ⟨b, hbz⟩ := reciprocal_zero hs h0
    refine r2 ?_
    have e2 : (f64 lib draw).inv s = .inf b := hbz
    rw [e2]
    rintro ⟨-, h⟩
    exact absurd h (by simp [f64, isInf])
  · intro h0
    have lo : (1 : ℚ) / 2 ^ 900 ≤ |s.val| := by
      refine le_trans ?_ (away.resolve_left h0)
      apply one_div_le_one_div_of_le (by positivity)
      exact le_trans (by norm_num : (10 : ℚ) ^ 11 ≤ 2 ^ 40) (pow_le_pow_right₀ (by norm_num) (by norm_num))
    obtain ⟨f1, f2, f3⟩ := reciprocal_near hs lo hb
    exact ⟨_, r1 f1, f1, f2, f3⟩

/-- C166, multiples of 90 degrees: the cosecant and the secant are exactly 1 or -1 or refused. -/
theorem C166_right_angles (A : lib.Circular) (h : BuiltIn K debug docs (f64 lib draw) ((f64 lib draw).num B64.num) ctx) (x : B64) (hx : x.isFin)
    (h7 : |x.val| ≤ 10 ^ 7) (n : ℤ) :
    let call := fun name => evalTokens ctx (callTokens (str name) [x])
    (x.val = 180 * n → call "csc" = .err .nan ∧ ∃ y, call "sec" = .ok y ∧ (y.val : ℝ) = Real.cos (degrees x.val)) ∧
    (x.val = 180 * n + 90 → call "sec" = .err .nan ∧ ∃ y, call "csc" = .ok y ∧ (y.val : ℝ) = Real.sin (degrees x.val)) := by
  intro call
  obtain ⟨⟨s, s1, s2, s3, s4⟩, ⟨c, c1, c2, c3, c4⟩⟩ := C162_sine A h x hx h7
  have small : |(x.val : ℝ)| * (3 / 10 ^ 18) + 3 / 10 ^ 16 ≤ 1 / 10 ^ 10 := by
    have : ((|x.val| : ℚ) : ℝ) ≤ ((10 ^ 7 : ℚ) : ℝ) := Rat.cast_le.mpr h7
    rw [Rat.cast_abs] at this
    push_cast at this
    have h5 := mul_le_mul_of_nonneg_right this (by norm_num : (0 : ℝ) ≤ 3 / 10 ^ 18)
    refine (add_le_add_left h5 _).trans (by norm_num)
  replace s4 := s4 small
  replace c4 := c4 small
  have unit : ∀ t : ℝ, t ^ 2 = 1 → ∀ v : B64, v.isFin → (∀ m : ℤ, t = m → v.val = m) →
      |v.val| ≤ 2 ^ 900 ∧ v.val ≠ 0 ∧ IsDouble (1 / v.val) ∧ ((1 / v.val : ℚ) : ℝ) = t := by
    intro t ht v hv hm
    have : t = ((1 : ℤ) : ℝ) ∨ t = ((-1 : ℤ) : ℝ) := by
      rcases (mul_self_eq_one_iff.mp ((sq t).symm.trans ht)) with h | h
      · left; rw [h, Int.cast_one]
      · right; rw [h]; norm_num
    rcases this with e | e
    · have := hm _ e
      rw [this, e]
      refine ⟨by push_cast; rw [abs_one]; exact one_le_pow₀ (by norm_num), by norm_num, ?_, by norm_num⟩
      have := isDouble_int (n := 1) (by norm_num)
      simpa using this
    · have := hm _ e
      rw [this, e]
      refine ⟨by push_cast; rw [abs_neg, abs_one]; exact one_le_pow₀ (by norm_num), by norm_num, ?_, by norm_num⟩
      have := isDouble_int (n := -1) (by norm_num)
      simpa using this
  have none : ∀ v : B64, v.val = 0 → |v.val| ≤ 2 ^ 900 := fun v hv => by rw [hv, abs_zero]; positivity
  have circle := Real.sin_sq_add_cos_sq (degrees x.val)
  constructor
  · intro hn
    have e : degrees x.val = n * Real.pi := by unfold degrees; rw [hn]; push_cast; ring
    have hs0 : Real.sin (degrees x.val) = 0 := by rw [e]; exact Real.sin_int_mul_pi n
    rw [hs0, zero_pow (by norm_num), zero_add] at circle
    have z := s4 0 (by rw [hs0]; norm_num)
    rw [Int.cast_zero] at z
    refine ⟨(C166_reciprocals h x s s2 (none s z) ("sin", "csc") (by simp) s1).1 z, ?_⟩
    obtain ⟨u1, u2, u3, u4⟩ := unit _ circle c c2 c4
    obtain ⟨y, y1, -, -, y2⟩ := (C166_reciprocals h x c c2 u1 ("cos", "sec") (by simp) c1).2 u2
    exact ⟨y, y1, by rw [y2 u3, u4]⟩
  · intro hn
    have e : degrees x.val = n * Real.pi + Real.pi / 2 := by unfold degrees; rw [hn]; push_cast; ring
    have hs0 : Real.cos (degrees x.val) = 0 := by rw [e, Real.cos_add_pi_div_two, Real.sin_int_mul_pi, neg_zero]
    rw [hs0, zero_pow (by norm_num), add_zero] at circle
    have z := c4 0 (by rw [hs0]; norm_num)
    rw [Int.cast_zero] at z
    refine ⟨(C166_reciprocals h x c c2 (none c z) ("cos", "sec") (by simp) c1).1 z, ?_⟩
    obtain ⟨u1, u2, u3, u4⟩ := unit _ circle s s2 s4
    obtain ⟨y, y1, -, -, y2⟩ := (C166_reciprocals h x s s2 u1 ("sin", "csc") (by simp) s1).2 u2
    exact ⟨y, y1, by rw [y2 u3, u4]⟩

/-- C166, the arcs: the arcsine, arccosine and arctangent of the reciprocal. -/
theorem C166_arcs (A : lib.Arcs) (h : BuiltIn K debug docs (f64 lib draw) ((f64 lib draw).num B64.num) ctx) (x : B64) (hx : x.isFin)
    (hi : |x.val| ≤ 2 ^ 900) :
    let call := fun name => evalTokens ctx (callTokens (str name) [x])
    (1 ≤ |x.val| → ∃ w : ℚ, |w - 1 / x.val| ≤ |1 / x.val| * (1 / 2 ^ 52) ∧ (IsDouble (1 / x.val) → w = 1 / x.val) ∧ |w| ≤ 1 ∧
      (∃ y, call "acsc" = .ok y ∧ y.isFin ∧ Meets y.val (inDegrees (Real.arcsin w)) (1 / 10 ^ 13)) ∧
      (∃ y, call "asec" = .ok y ∧ y.isFin ∧ Meets y.val (inDegrees (Real.arccos w)) (1 / 10 ^ 13))) ∧
    (1 / 2 ^ 900 ≤ |x.val| → ∃ w : ℚ, |w - 1 / x.val| ≤ |1 / x.val| * (1 / 2 ^ 52) ∧ (IsDouble (1 / x.val) → w = 1 / x.val) ∧
      ∃ y, call "acot" = .ok y ∧ y.isFin ∧ Meets y.val (inDegrees (Real.arctan w)) (1 / 10 ^ 13)) := by
  intro call
  have tables := (C82_one_argument h x x rfl).2.2.2.2.1
  have hp := Real.pi_pos
  constructor
  · intro h1
    have lo : (1 : ℚ) / 2 ^ 900 ≤ |x.val| := le_trans (by rw [div_le_one (by positivity)]; exact one_le_pow₀ (by norm_num)) h1
    obtain ⟨f1, f2, f3⟩ := reciprocal_near hx lo hi
    have hw : |(div (lit 1) x).val| ≤ 1 := by
      have hx0 : x.val ≠ 0 := abs_pos.mp (lt_of_lt_of_le one_pos h1)
      have hq : |1 / x.val| ≤ 1 := by
        rw [abs_div, abs_one, div_le_one (lt_of_lt_of_le one_pos h1)]
        exact h1
      have hd1 : IsDouble 1 := by have := isDouble_int (n := 1) (by norm_num); push_cast at this; exact this
      have hnl : ¬ TooLarge (1 / x.val) := small_between hd1 (by rwa [abs_one])
      rw [div_fin one_val.1 hx hx0, one_val.2, (of_fin _ hnl).2, rnd_abs]
      exact (rnd_mono hq).trans (rnd_keep hd1).le
    refine ⟨_, f2, f3, hw, ?_, ?_⟩
    · obtain ⟨a1, a2⟩ := A.asin _ f1 hw
      obtain ⟨d1, d2⟩ := toDegrees_near a1 a2 (by
        have := Real.neg_pi_div_two_le_arcsin ((div (lit 1) x).val : ℝ)
        have := Real.arcsin_le_pi_div_two ((div (lit 1) x).val : ℝ)
        rw [abs_le]; constructor <;> linarith)
      obtain ⟨g1, g2⟩ := snap_meets (lib := lib) (draw := draw) d1 d2
      exact ⟨_, (tables (str "acsc", lib.asin) (by simp [arcInvTable, f64])).1 g1, g1, g2⟩
    · obtain ⟨a1, a2⟩ := A.acos _ f1 hw
      obtain ⟨d1, d2⟩ := toDegrees_near a1 a2 (by
        rw [abs_of_nonneg (Real.arccos_nonneg _)]
        exact Real.arccos_le_pi _)
      obtain ⟨g1, g2⟩ := snap_meets (lib := lib) (draw := draw) d1 d2
      exact ⟨_, (tables (str "asec", lib.acos) (by simp [arcInvTable, f64])).1 g1, g1, g2⟩
  · intro lo
    obtain ⟨f1, f2, f3⟩ := reciprocal_near hx lo hi
    refine ⟨_, f2, f3, ?_⟩
    obtain ⟨a1, a2⟩ := A.atan _ f1
    obtain ⟨d1, d2⟩ := toDegrees_near a1 a2 (by
      have := Real.neg_pi_div_two_lt_arctan ((div (lit 1) x).val : ℝ)
      have := Real.arctan_lt_pi_div_two ((div (lit 1) x).val : ℝ)
      rw [abs_le]; constructor <;> linarith)
    obtain ⟨g1, g2⟩ := snap_meets (lib := lib) (draw := draw) d1 d2
    exact ⟨_, (tables (str "acot", lib.atan) (by simp [arcInvTable, f64])).1 g1, g1, g2⟩

/-- C166: zero is no cosecant and no secant; it is the cotangent of 90 degrees, or of -90 degrees for minus zero. -/
theorem C166_zero (B : lib.ArcsFar) (h : BuiltIn K debug docs (f64 lib draw) ((f64 lib draw).num B64.num) ctx) (x : B64) (hx : x.isFin)
    (h0 : x.val = 0) :
    let call := fun name => evalTokens ctx (callTokens (str name) [x])
    call "acsc" = .err .nan ∧ call "asec" = .err .nan ∧ ∃ y, call "acot" = .ok y ∧ y.val = if x.sign then -90 else 90 := by
  intro call
  have tables := (C82_one_argument h x x rfl).2.2.2.2.1
  have e1 : (f64 lib draw).inv x = .inf x.sign := by
    obtain ⟨a, k, hk, rfl⟩ := isFin_fin hx
    have hk0 := (val_zero_iff _ _ _).mp h0
    subst hk0
    have e : ∃ j hj, lit 1 = .fin false j hj ∧ j ≠ 0 := by
      obtain ⟨b, j, hj, e⟩ : ∃ b j hj, lit 1 = .fin b j hj := isFin_fin one_val.1
      have hb : (lit 1).sign = false := by decide +kernel
      rw [e] at hb
      refine ⟨j, hj, by rw [e]; congr 1, ?_⟩
      intro h0
      have h2 := one_val.2
      rw [e, (val_zero_iff _ _ _).mpr h0] at h2
      norm_num at h2
    obtain ⟨j, hj, e, hj0⟩ := e
    show div (lit 1) _ = _
    rw [e]
    simp [div, hj0, B64.sign]
  have bad : ¬ (f64 lib draw).Finite (snap (f64 lib draw) ((f64 lib draw).toDegrees .nan)) := by
    rintro ⟨h, -⟩
    have e : (f64 lib draw).toDegrees .nan = .nan := rfl
    rw [e] at h
    have e2 : snap (f64 lib draw) .nan = .nan := by unfold snap; split <;> rfl
    rw [e2] at h
    exact absurd h (by simp [f64, isNan])
  refine ⟨?_, ?_, ?_⟩
  · have := (tables (str "acsc", lib.asin) (by simp [arcInvTable, f64])).2
    simp only [e1, B.asin] at this
    exact this bad
  · have := (tables (str "asec", lib.acos) (by simp [arcInvTable, f64])).2
    simp only [e1, B.acos] at this
    exact this bad
  · obtain ⟨a1, a2⟩ := B.atan x.sign
    have hp := Real.pi_pos
    obtain ⟨d1, d2⟩ := toDegrees_near a1 a2 (by
      split
      · rw [abs_neg, abs_of_pos (by positivity)]; linarith
      · rw [abs_of_pos (by positivity)]; linarith)
    obtain ⟨g1, -, g2⟩ := snap_meets (lib := lib) (draw := draw) d1 d2
    have := (tables (str "acot", lib.atan) (by simp [arcInvTable, f64])).1
    simp only [e1] at this
    refine ⟨_, this g1, ?_⟩
    have h3 := g2 (by norm_num) (if x.sign then -90 else 90) (by
      unfold inDegrees
      split <;> push_cast <;> field_simp <;> norm_num)
    refine Eq.trans h3 ?_
    split <;> norm_num

/-! ## Examples -/

namespace B64

/-- Any library, with these functions: the nearest doubles, also of infinity. -/
noncomputable def withArcsFar (lib : Libm) : Libm :=
  { lib with
    asin := fun x => if x.isInf then .nan else lib.asin x
    acos := fun x => if x.isInf then .nan else lib.acos x
    atan := fun x => match x with
      | .inf s => nearestTo (if s then -(Real.pi / 2) else Real.pi / 2)
      | x => lib.atan x }

/-- The contract can be met, together with that for the finite numbers. -/
theorem withArcsFar_contract (lib : Libm) : (withArcsFar (withArcs lib)).ArcsFar ∧ (withArcsFar (withArcs lib)).Arcs := by
  have hp := Real.pi_pos
  have A := withArcs_contract lib
  constructor
  · refine ⟨fun s => rfl, fun s => rfl, fun s => ?_⟩
    have ht : |if s then -(Real.pi / 2) else Real.pi / 2| ≤ 2 := by
      have := pi_bounds.2
      split
      · rw [abs_neg, abs_of_pos (by positivity)]; linarith
      · rw [abs_of_pos (by positivity)]; linarith
    obtain ⟨h1, h2⟩ := nearestTo_near (ht.trans (le_trans (by norm_num : (2 : ℝ) ≤ 2 ^ 1) (pow_le_pow_right₀ (by norm_num) (by norm_num))))
    refine ⟨h1, h2.trans ?_⟩
    have : |if s then -(Real.pi / 2) else Real.pi / 2| / 2 ^ 53 ≤ 2 / 2 ^ 53 := by gcongr
    refine (add_le_add_left this _).trans (by norm_num)
  · have plain : ∀ x : B64, x.isFin → x.isInf = false := fun x hx => hx.2
    refine ⟨fun x hx h1 => ?_, fun x hx h1 => ?_, fun x hx h1 => ?_, fun x hx => ?_, A.atan2⟩
    · have e : (withArcsFar (withArcs lib)).asin x = (withArcs lib).asin x := by simp [withArcsFar, plain x hx]
      rw [e]; exact A.asin x hx h1
    · have e : (withArcsFar (withArcs lib)).acos x = (withArcs lib).acos x := by simp [withArcsFar, plain x hx]
      rw [e]; exact A.acos x hx h1
    · have e : (withArcsFar (withArcs lib)).asin x = (withArcs lib).asin x := by simp [withArcsFar, plain x hx]
      have e' : (withArcsFar (withArcs lib)).acos x = (withArcs lib).acos x := by simp [withArcsFar, plain x hx]
      rw [e, e']; exact A.outside x hx h1
    · obtain ⟨a, k, hk, rfl⟩ := isFin_fin hx
      exact A.atan _ hx

end B64

/-- The hypotheses are met: some library meets the contracts, and the reciprocal of 2 is a double. -/
example (lib : Libm) : (withArcsFar (withArcs lib)).ArcsFar ∧ (withArcsFar (withArcs lib)).Arcs ∧ (lit 2).isFin ∧ 1 ≤ |(lit 2).val| ∧
    |(lit 2).val| ≤ 2 ^ 900 ∧ IsDouble (1 / (lit 2).val) := by
  have e : (lit 2).val = 2 := by decide +kernel
  refine ⟨(withArcsFar_contract lib).1, (withArcsFar_contract lib).2, ⟨by decide +kernel, by decide +kernel⟩, by rw [e]; norm_num, ?_, ?_⟩
  · rw [e, abs_of_pos (by norm_num)]
    exact le_trans (by norm_num : (2 : ℚ) ≤ 2 ^ 1) (pow_le_pow_right₀ (by norm_num) (by norm_num))
  · rw [e]
    exact ⟨1, -1, by norm_num, by norm_num, by norm_num, by norm_num⟩

end

end Prexel
