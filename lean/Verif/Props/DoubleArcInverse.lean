import Verif.Props.DoubleArcs
/-!
# Sine and arcsine, cosine and arccosine over `f64` undo each other (C174)
-/

namespace Prexel
open B64

namespace B64

/-- A result between -1 and 1, after it is brought to a whole number where it is close to one. -/
theorem snap_unit {lib : Libm} {draw : B64} {g : B64} (hg : g.isFin) {t : ℝ} (ht : |t| ≤ 1) (h : |(g.val : ℝ) - t| ≤ 1 / 10 ^ 15) :
    (snap (f64 lib draw) g).isFin ∧ |((snap (f64 lib draw) g).val : ℝ) - t| ≤ 12 / 10 ^ 11 ∧ |(snap (f64 lib draw) g).val| ≤ 1 ∧
      ∀ m : ℤ, |t - m| ≤ 99 / 10 ^ 12 → (snap (f64 lib draw) g).val = m := by
  obtain ⟨b1, b2⟩ := snapDistance_bounds
  obtain ⟨f, m1, -⟩ := snap_meets (lib := lib) (draw := draw) hg h
  refine ⟨f, ?_, ?_, ?_⟩
  · rcases m1 with h | ⟨-, -, h⟩
    · exact h.trans (by norm_num)
    · exact h.trans (by norm_num)
  · obtain ⟨y, hy, -⟩ := TakenFor.unique g.val
    rw [(snap_taken (lib := lib) (draw := draw) hg hy).2]
    have gb : |g.val| ≤ 1 + 1 / 10 ^ 15 := by
      have h1 := abs_sub_abs_le_abs_sub (g.val : ℝ) t
      have : ((|g.val| : ℚ) : ℝ) ≤ ((1 + 1 / 10 ^ 15 : ℚ) : ℝ) := by
        rw [Rat.cast_abs]; push_cast; linarith
      exact Rat.cast_le.mp this
    rcases hy with ⟨n, hn, rfl⟩ | ⟨hn, rfl⟩
    · have h2 : |(n : ℚ)| < 2 := by
        have := abs_sub_abs_le_abs_sub (n : ℚ) g.val
        rw [abs_sub_comm] at this
        norm_num at b2 gb
        linarith
      have h3 : |n| < 2 := by exact_mod_cast h2
      have h4 : |n| ≤ 1 := by omega
      exact_mod_cast h4
    · by_contra hc
      push Not at hc
      rcases lt_abs.mp hc with h | h
      · have := hn 1
        have g1 := (abs_le.mp gb).2
        push_cast at this
        rw [abs_of_pos (by linarith)] at this
        norm_num at b1 g1
        linarith
      · have := hn (-1)
        have g1 := (abs_le.mp gb).1
        push_cast at this
        rw [abs_of_neg (by linarith)] at this
        norm_num at b1 g1
        linarith
  · intro m hm
    have hx : |(g.val : ℝ) - (m : ℤ)| ≤ 1 / 10 ^ 10 := by
      have := abs_sub_le (g.val : ℝ) t m
      norm_num at h hm ⊢
      linarith
    exact (snap_meets (lib := lib) (draw := draw) hg hx).2.2 le_rfl m rfl

end B64

section
variable {K : Keys} {debug docs : Bool} {lib : Libm} {draw : B64} {ctx : Ctx B64}

/-- Sine and cosine of angles up to 181 degrees. -/
theorem sine_cosine_unit (A : lib.Circular) (h : BuiltIn K debug docs (f64 lib draw) ((f64 lib draw).num B64.num) ctx) (x : B64) (hx : x.isFin)
    (h180 : |x.val| ≤ 181) :
    (∃ y, evalTokens ctx (callTokens (str "sin") [x]) = .ok y ∧ y.isFin ∧ |(y.val : ℝ) - Real.sin (degrees x.val)| ≤ 12 / 10 ^ 11 ∧ |y.val| ≤ 1 ∧
      ∀ m : ℤ, |Real.sin (degrees x.val) - m| ≤ 99 / 10 ^ 12 → y.val = m) ∧
    (∃ y, evalTokens ctx (callTokens (str "cos") [x]) = .ok y ∧ y.isFin ∧ |(y.val : ℝ) - Real.cos (degrees x.val)| ≤ 12 / 10 ^ 11 ∧ |y.val| ≤ 1 ∧
      ∀ m : ℤ, |Real.cos (degrees x.val) - m| ≤ 99 / 10 ^ 12 → y.val = m) := by
  obtain ⟨r1, r2, r3⟩ := toRadians_near hx (h180.trans (by norm_num))
  have tables := (C82_one_argument h x x rfl).2.1
  have fin := fun (t : Str) (g : B64 → B64) (ht : (t, g) ∈ angleTable (f64 lib draw)) (hf : (snap (f64 lib draw) (g (mul x (div pi (lit 180))))).isFin) =>
    (tables (t, g) ht).1 hf
  have hv : |(x.val : ℝ)| ≤ 181 := by
    have : ((|x.val| : ℚ) : ℝ) ≤ ((181 : ℚ) : ℝ) := Rat.cast_le.mpr h180
    rw [Rat.cast_abs] at this
    push_cast at this
    exact this
  constructor
  · obtain ⟨s1, s2⟩ := A.sin _ r1 r3
    have h1 := abs_sub_le ((lib.sin (mul x (div pi (lit 180)))).val : ℝ) (Real.sin (mul x (div pi (lit 180))).val) (Real.sin (degrees x.val))
    have h2 := Real.abs_sin_sub_sin_le ((mul x (div pi (lit 180))).val : ℝ) (degrees x.val)
    obtain ⟨f1, f2⟩ := snap_unit (lib := lib) (draw := draw) s1 (Real.abs_sin_le_one (degrees x.val)) (by norm_num at *; linarith)
    exact ⟨_, fin (str "sin") lib.sin (by simp [angleTable, f64]) f1, f1, f2⟩
  · obtain ⟨s1, s2⟩ := A.cos _ r1 r3
    have h1 := abs_sub_le ((lib.cos (mul x (div pi (lit 180)))).val : ℝ) (Real.cos (mul x (div pi (lit 180))).val) (Real.cos (degrees x.val))
    have h2 := Real.abs_cos_sub_cos_le ((mul x (div pi (lit 180))).val : ℝ) (degrees x.val)
    obtain ⟨f1, f2⟩ := snap_unit (lib := lib) (draw := draw) s1 (Real.abs_cos_le_one (degrees x.val)) (by norm_num at *; linarith)
    exact ⟨_, fin (str "cos") lib.cos (by simp [angleTable, f64]) f1, f1, f2⟩

theorem degrees_inDegrees (q : ℚ) (a : ℝ) : |degrees q - a| = |(q : ℝ) - inDegrees a| * (Real.pi / 180) := by
  have hp := Real.pi_pos
  conv_rhs => rw [← abs_of_pos (show (0 : ℝ) < Real.pi / 180 by positivity), ← abs_mul]
  congr 1
  unfold degrees inDegrees
  field_simp

/-- The error of an arc, in radians. -/
theorem arc_radians {y : ℚ} {a : ℝ} (h : Meets y (inDegrees a) (1 / 10 ^ 13)) : |degrees y - a| ≤ 2 / 10 ^ 12 := by
  obtain ⟨p1, p2⟩ := pi_bounds
  have e : |(y : ℝ) - inDegrees a| ≤ 111 / 10 ^ 12 := by
    rcases h.1 with h | ⟨-, -, h⟩
    · exact h.trans (by norm_num)
    · exact h.trans (by norm_num)
  rw [degrees_inDegrees]
  have : Real.pi / 180 ≤ 18 / 1000 := by rw [div_le_iff₀ (by norm_num)]; norm_num at *; linarith
  exact (mul_le_mul e this (by have := Real.pi_pos; positivity) (by norm_num)).trans (by norm_num)

theorem degrees_bound {y : ℚ} {b c : ℝ} (h : |(y : ℝ) - c| ≤ b) : |(y : ℝ)| ≤ |c| + b := by
  have := abs_sub_abs_le_abs_sub (y : ℝ) c
  linarith

/-- C174: the sine of the arcsine and the cosine of the arccosine. -/
theorem C174_of_arc (A : lib.Circular) (B : lib.Arcs) (h : BuiltIn K debug docs (f64 lib draw) ((f64 lib draw).num B64.num) ctx) (x : B64)
    (hx : x.isFin) (h1 : |x.val| ≤ 1) :
    (∃ a s, evalTokens ctx (callTokens (str "asin") [x]) = .ok a ∧ evalTokens ctx (callTokens (str "sin") [a]) = .ok s ∧ s.isFin ∧
      |s.val - x.val| ≤ 13 / 10 ^ 11) ∧
    (∃ a s, evalTokens ctx (callTokens (str "acos") [x]) = .ok a ∧ evalTokens ctx (callTokens (str "cos") [a]) = .ok s ∧ s.isFin ∧
      |s.val - x.val| ≤ 13 / 10 ^ 11) := by
  have hxr : |(x.val : ℝ)| ≤ 1 := by
    have : ((|x.val| : ℚ) : ℝ) ≤ ((1 : ℚ) : ℝ) := Rat.cast_le.mpr h1
    rw [Rat.cast_abs] at this
    push_cast at this
    exact this
  have hp := Real.pi_pos
  obtain ⟨l, u⟩ := abs_le.mp hxr
  obtain ⟨⟨a, a1, a2, a3⟩, ⟨b, b1, b2, b3⟩⟩ := C163_arcs B h x hx h1
  have back : ∀ p : ℚ, |(p : ℝ) - x.val| ≤ 13 / 10 ^ 11 → |p - x.val| ≤ 13 / 10 ^ 11 := by
    intro p hpq
    have : ((|p - x.val| : ℚ) : ℝ) ≤ ((13 / 10 ^ 11 : ℚ) : ℝ) := by rw [Rat.cast_abs]; push_cast; exact hpq
    exact Rat.cast_le.mp this
  have inside : ∀ (q : ℚ) (t : ℝ), |degrees q - t| ≤ 2 / 10 ^ 12 → |t| ≤ Real.pi → |q| ≤ 181 := by
    intro q t hm ht
    obtain ⟨p1, p2⟩ := pi_bounds
    have h1 := abs_sub_abs_le_abs_sub (degrees q) t
    have h2 : |degrees q| ≤ Real.pi / 180 * 181 := by norm_num at *; linarith
    have h3 : degrees q = Real.pi / 180 * q := by unfold degrees; ring
    rw [h3, abs_mul, abs_of_pos (show (0 : ℝ) < Real.pi / 180 by positivity)] at h2
    have h4 := le_of_mul_le_mul_left h2 (by positivity)
    have : ((|q| : ℚ) : ℝ) ≤ ((181 : ℚ) : ℝ) := by rw [Rat.cast_abs]; push_cast; exact h4
    exact Rat.cast_le.mp this
  have ra := arc_radians a3
  have rb := arc_radians b3
  have ia : |a.val| ≤ 181 := inside _ _ ra (by
    rw [abs_le]; constructor <;> linarith [Real.neg_pi_div_two_le_arcsin (x.val : ℝ), Real.arcsin_le_pi_div_two (x.val : ℝ)])
  have ib : |b.val| ≤ 181 := inside _ _ rb (by
    rw [abs_le]; constructor <;> linarith [Real.arccos_nonneg (x.val : ℝ), Real.arccos_le_pi (x.val : ℝ)])
  obtain ⟨⟨s, s1, s2, s3, -⟩, -⟩ := sine_cosine_unit A h a a2 ia
  obtain ⟨-, ⟨c, c1, c2, c3, -⟩⟩ := sine_cosine_unit A h b b2 ib
  refine ⟨⟨a, s, a1, s1, s2, back _ ?_⟩, ⟨b, c, b1, c1, c2, back _ ?_⟩⟩
  · have e1 := Real.abs_sin_sub_sin_le (degrees a.val) (Real.arcsin x.val)
    rw [Real.sin_arcsin l u] at e1
    have e2 := abs_sub_le (s.val : ℝ) (Real.sin (degrees a.val)) x.val
    norm_num at *
    linarith
  · have e1 := Real.abs_cos_sub_cos_le (degrees b.val) (Real.arccos x.val)
    rw [Real.cos_arccos l u] at e1
    have e2 := abs_sub_le (c.val : ℝ) (Real.cos (degrees b.val)) x.val
    norm_num at *
    linarith

/-- Sines of two angles between -90 and 90 degrees that are close belong to angles that are close. -/
theorem sine_apart {u v : ℝ} (hu : |u| ≤ Real.pi / 2) (hv : |v| ≤ Real.pi / 2) :
    2 * (|u - v| / Real.pi) ^ 2 ≤ |Real.sin u - Real.sin v| ∧ |u - v| / Real.pi * Real.cos v ≤ |Real.sin u - Real.sin v| := by
  have hp := Real.pi_pos
  obtain ⟨u1, u2⟩ := abs_le.mp hu
  obtain ⟨v1, v2⟩ := abs_le.mp hv
  have hd : |(u - v) / 2| ≤ Real.pi / 2 := by rw [abs_le]; constructor <;> linarith
  have s1 := Real.mul_abs_le_abs_sin hd
  have s2 : |u - v| / Real.pi ≤ |Real.sin ((u - v) / 2)| := by
    refine le_trans (le_of_eq ?_) s1
    rw [abs_div, abs_of_pos (by norm_num : (0 : ℝ) < 2)]
    field_simp
  have eq : |Real.sin u - Real.sin v| = 2 * |Real.sin ((u - v) / 2)| * |Real.cos ((u + v) / 2)| := by
    rw [Real.sin_sub_sin, abs_mul, abs_mul, abs_of_pos (by norm_num : (0 : ℝ) < 2)]
  have c0 : 0 ≤ Real.cos ((u + v) / 2) := Real.cos_nonneg_of_neg_pi_div_two_le_of_le (by linarith) (by linarith)
  have c1 : |Real.sin ((u - v) / 2)| ≤ Real.cos ((u + v) / 2) := by
    have hm : |u + v| / 2 + |u - v| / 2 ≤ Real.pi / 2 := by
      rcases abs_cases (u + v) with ⟨h, -⟩ | ⟨h, -⟩ <;> rcases abs_cases (u - v) with ⟨h', -⟩ | ⟨h', -⟩ <;> rw [h, h'] <;> linarith
    have e1 : Real.cos ((u + v) / 2) = Real.cos (|u + v| / 2) := by rw [← Real.cos_abs, abs_div, abs_of_pos (by norm_num : (0 : ℝ) < 2)]
    have e2 : |Real.sin ((u - v) / 2)| = Real.sin (|u - v| / 2) := by
      rw [Real.abs_sin_eq_sin_abs_of_abs_le_pi (hd.trans (by linarith)), abs_div, abs_of_pos (by norm_num : (0 : ℝ) < 2)]
    rw [e1, e2, ← Real.cos_pi_div_two_sub]
    exact Real.cos_le_cos_of_nonneg_of_le_pi (by positivity) (by linarith [abs_nonneg (u - v)]) (by linarith)
  have c2 : Real.cos v ≤ 2 * Real.cos ((u + v) / 2) := by
    have e := Real.cos_add_cos u v
    have cu : 0 ≤ Real.cos u := Real.cos_nonneg_of_neg_pi_div_two_le_of_le u1 u2
    have := mul_le_mul_of_nonneg_left (Real.cos_le_one ((u - v) / 2)) c0
    linarith
  have q0 : 0 ≤ |u - v| / Real.pi := by positivity
  rw [eq, abs_of_nonneg c0]
  generalize |u - v| / Real.pi = q at *
  generalize |Real.sin ((u - v) / 2)| = p at *
  generalize Real.cos ((u + v) / 2) = k at *
  constructor
  · nlinarith [mul_le_mul s2 (s2.trans c1) q0 (q0.trans s2)]
  · have := mul_le_mul s2 c2 (Real.cos_nonneg_of_neg_pi_div_two_le_of_le v1 v2) (q0.trans s2)
    linarith

theorem angle_back {u v : ℝ} (hu : |u| ≤ Real.pi / 2) (hv : |v| ≤ Real.pi / 2) (h : |Real.sin u - Real.sin v| ≤ 12 / 10 ^ 11) :
    inDegrees |u - v| ≤ 14 / 10 ^ 4 ∧ ∀ c : ℝ, 0 < c → c ≤ Real.cos v → inDegrees |u - v| ≤ 216 / 10 ^ 10 / c := by
  have hp := Real.pi_pos
  obtain ⟨a1, a2⟩ := sine_apart hu hv
  have e : inDegrees |u - v| = 180 * (|u - v| / Real.pi) := by unfold inDegrees; ring
  have q0 : 0 ≤ |u - v| / Real.pi := by positivity
  rw [e]
  generalize |u - v| / Real.pi = q at *
  constructor
  · have : q ≤ 14 / 10 ^ 4 / 180 := by
      by_contra hc
      have := pow_lt_pow_left₀ (not_le.mp hc) (by norm_num) two_ne_zero
      norm_num at *
      linarith
    linarith
  · intro c hc hcv
    rw [le_div_iff₀ hc]
    have := mul_le_mul_of_nonneg_left hcv q0
    norm_num at *
    linarith

/-- C174: the arcsine of the sine, between -90 and 90 degrees, and the arccosine of the cosine, between 0 and 180 degrees. -/
theorem C174_arc_of (A : lib.Circular) (B : lib.Arcs) (h : BuiltIn K debug docs (f64 lib draw) ((f64 lib draw).num B64.num) ctx) (x : B64)
    (hx : x.isFin) :
    (|x.val| ≤ 90 → ∃ s a, evalTokens ctx (callTokens (str "sin") [x]) = .ok s ∧ evalTokens ctx (callTokens (str "asin") [s]) = .ok a ∧ a.isFin ∧
      |(a.val : ℝ) - x.val| ≤ 2 / 1000 ∧ ∀ c : ℝ, 0 < c → c ≤ Real.cos (degrees x.val) → |(a.val : ℝ) - x.val| ≤ 22 / 10 ^ 9 / c) ∧
    (0 ≤ x.val → x.val ≤ 180 → ∃ s a, evalTokens ctx (callTokens (str "cos") [x]) = .ok s ∧ evalTokens ctx (callTokens (str "acos") [s]) = .ok a ∧
      a.isFin ∧ |(a.val : ℝ) - x.val| ≤ 2 / 1000 ∧
      ∀ c : ℝ, 0 < c → c ≤ Real.sin (degrees x.val) → |(a.val : ℝ) - x.val| ≤ 22 / 10 ^ 9 / c) := by
  have hp := Real.pi_pos
  have conv : inDegrees (degrees x.val) = x.val := by unfold inDegrees degrees; field_simp
  have lin : ∀ a b : ℝ, |inDegrees a - inDegrees b| = inDegrees |a - b| := by
    intro a b
    unfold inDegrees
    rw [← sub_mul, abs_mul, abs_of_pos (show (0 : ℝ) < 180 / Real.pi by positivity)]
  have close : ∀ {y : ℚ} {t : ℝ}, Meets y t (1 / 10 ^ 13) → |(y : ℝ) - t| ≤ 111 / 10 ^ 12 := by
    intro y t h
    rcases h.1 with h | ⟨-, -, h⟩
    · exact h.trans (by norm_num)
    · exact h.trans (by norm_num)
  -- the last step, for both
  have finish : ∀ (a : ℚ) (u v w : ℝ), |(a : ℝ) - inDegrees w| ≤ 111 / 10 ^ 12 → |w - degrees x.val| = |u - v| → |u| ≤ Real.pi / 2 → |v| ≤ Real.pi / 2 →
      |Real.sin u - Real.sin v| ≤ 12 / 10 ^ 11 →
      |(a : ℝ) - x.val| ≤ 2 / 1000 ∧ ∀ c : ℝ, 0 < c → c ≤ Real.cos v → |(a : ℝ) - x.val| ≤ 22 / 10 ^ 9 / c := by
    intro a u v w ha hw hu hv hs
    obtain ⟨b1, b2⟩ := angle_back hu hv hs
    have e := abs_sub_le (a : ℝ) (inDegrees w) x.val
    have e2 : |inDegrees w - x.val| = inDegrees |u - v| := by rw [← hw, ← lin, conv]
    rw [e2] at e
    refine ⟨by norm_num at *; linarith, fun c hc hcv => ?_⟩
    have b3 := b2 c hc hcv
    have c1 : c ≤ 1 := hcv.trans (Real.cos_le_one v)
    have : (111 : ℝ) / 10 ^ 12 ≤ 111 / 10 ^ 12 / c := by
      rw [le_div_iff₀ hc]
      exact mul_le_of_le_one_right (by norm_num) c1
    refine (e.trans (add_le_add ha b3)).trans ((add_le_add_left this _).trans ?_)
    rw [← add_div]
    exact div_le_div_of_nonneg_right (by norm_num) hc.le
  constructor
  · intro h90
    obtain ⟨⟨s, s1, s2, s3, s4, -⟩, -⟩ := sine_cosine_unit A h x hx (h90.trans (by norm_num))
    obtain ⟨⟨a, a1, a2, a3⟩, -⟩ := C163_arcs B h s s2 s4
    have s5 : |(s.val : ℝ)| ≤ 1 := by
      have : ((|s.val| : ℚ) : ℝ) ≤ ((1 : ℚ) : ℝ) := Rat.cast_le.mpr s4
      rw [Rat.cast_abs] at this
      push_cast at this
      exact this
    obtain ⟨l, r⟩ := abs_le.mp s5
    refine ⟨s, a, s1, a1, a2, finish a.val (Real.arcsin s.val) (degrees x.val) _ (close a3) rfl ?_ ?_ ?_⟩
    · exact abs_le.mpr ⟨by linarith [Real.neg_pi_div_two_le_arcsin (s.val : ℝ)], Real.arcsin_le_pi_div_two _⟩
    · have : |(x.val : ℝ)| ≤ 90 := by
        have : ((|x.val| : ℚ) : ℝ) ≤ ((90 : ℚ) : ℝ) := Rat.cast_le.mpr h90
        rw [Rat.cast_abs] at this
        push_cast at this
        exact this
      unfold degrees
      rw [abs_div, abs_mul, abs_of_pos hp, abs_of_pos (by norm_num : (0 : ℝ) < 180), div_le_iff₀ (by norm_num)]
      nlinarith
    · rw [Real.sin_arcsin l r]; exact s3
  · intro h0 h180
    obtain ⟨-, ⟨s, s1, s2, s3, s4, -⟩⟩ := sine_cosine_unit A h x hx (by rw [abs_of_nonneg h0]; exact h180.trans (by norm_num))
    obtain ⟨-, ⟨a, a1, a2, a3⟩⟩ := C163_arcs B h s s2 s4
    have s5 : |(s.val : ℝ)| ≤ 1 := by
      have : ((|s.val| : ℚ) : ℝ) ≤ ((1 : ℚ) : ℝ) := Rat.cast_le.mpr s4
      rw [Rat.cast_abs] at this
      push_cast at this
      exact this
    obtain ⟨l, r⟩ := abs_le.mp s5
    have x0 : (0 : ℝ) ≤ x.val := Rat.cast_nonneg.mpr h0
    have x1 : (x.val : ℝ) ≤ 180 := by exact_mod_cast h180
    have := finish a.val (Real.pi / 2 - Real.arccos s.val) (Real.pi / 2 - degrees x.val) _ (close a3) (by rw [abs_sub_comm]; congr 1; ring) ?_ ?_ ?_
    · rw [Real.cos_pi_div_two_sub] at this
      exact ⟨s, a, s1, a1, a2, this⟩
    · rw [abs_le]; constructor <;> linarith [Real.arccos_nonneg (s.val : ℝ), Real.arccos_le_pi (s.val : ℝ)]
    · have d0 : 0 ≤ degrees x.val := by unfold degrees; positivity
      have d1 : degrees x.val ≤ Real.pi := by unfold degrees; rw [div_le_iff₀ (by norm_num)]; nlinarith
      rw [abs_le]; constructor <;> linarith
    · rw [Real.sin_pi_div_two_sub, Real.sin_pi_div_two_sub, Real.cos_arccos l r]; exact s3

/-- C174: nearly 90 degrees is not told from 90 degrees by the sine, nor nearly 0 from 0 by the cosine. -/
theorem C174_lost (A : lib.Circular) (B : lib.Arcs) (h : BuiltIn K debug docs (f64 lib draw) ((f64 lib draw).num B64.num) ctx) (x : B64)
    (hx : x.isFin) :
    (|x.val - 90| ≤ 7 / 10 ^ 4 → ∃ s a, evalTokens ctx (callTokens (str "sin") [x]) = .ok s ∧ s.val = 1 ∧
      evalTokens ctx (callTokens (str "asin") [s]) = .ok a ∧ a.val = 90) ∧
    (|x.val| ≤ 7 / 10 ^ 4 → ∃ s a, evalTokens ctx (callTokens (str "cos") [x]) = .ok s ∧ s.val = 1 ∧
      evalTokens ctx (callTokens (str "acos") [s]) = .ok a ∧ a.val = 0) := by
  have hp := Real.pi_pos
  obtain ⟨p1, p2⟩ := pi_bounds
  have near1 : ∀ t : ℝ, |t| ≤ 7 / 10 ^ 4 * Real.pi / 180 → |Real.cos t - 1| ≤ 99 / 10 ^ 12 := by
    intro t ht
    have e1 := Real.one_sub_sq_div_two_le_cos (x := t)
    have e2 := Real.cos_le_one t
    have e3 : |t| ≤ 1223 / 10 ^ 8 := ht.trans (by norm_num at *; linarith)
    have e4 := pow_le_pow_left₀ (abs_nonneg t) e3 2
    rw [sq_abs] at e4
    rw [abs_le]
    norm_num at *
    constructor <;> linarith
  have small : ∀ q : ℚ, |q| ≤ 7 / 10 ^ 4 → |degrees q| ≤ 7 / 10 ^ 4 * Real.pi / 180 := by
    intro q hq
    have : |(q : ℝ)| ≤ 7 / 10 ^ 4 := by
      have : ((|q| : ℚ) : ℝ) ≤ ((7 / 10 ^ 4 : ℚ) : ℝ) := Rat.cast_le.mpr hq
      rw [Rat.cast_abs] at this
      push_cast at this
      exact this
    unfold degrees
    rw [abs_div, abs_mul, abs_of_pos hp, abs_of_pos (by norm_num : (0 : ℝ) < 180)]
    exact div_le_div_of_nonneg_right (mul_le_mul_of_nonneg_right this hp.le) (by norm_num)
  constructor
  · intro hn
    obtain ⟨n1, n2⟩ := abs_le.mp hn
    obtain ⟨⟨s, s1, s2, -, -, s3⟩, -⟩ := sine_cosine_unit A h x hx (by norm_num at *; rw [abs_le]; constructor <;> linarith)
    have hs : s.val = 1 := by
      have e := near1 _ (small _ hn)
      have : degrees (x.val - 90) = degrees x.val - Real.pi / 2 := by unfold degrees; push_cast; ring
      rw [this, Real.cos_sub_pi_div_two] at e
      have := s3 1 (by push_cast; exact e)
      exact_mod_cast this
    obtain ⟨a, -, a1, a2, -, -⟩ := (C163_known B h s s2).2.1 hs
    exact ⟨s, a, s1, hs, a1, a2⟩
  · intro hn
    obtain ⟨-, ⟨s, s1, s2, -, -, s3⟩⟩ := sine_cosine_unit A h x hx (hn.trans (by norm_num))
    have hs : s.val = 1 := by
      have e := near1 _ (small _ hn)
      have := s3 1 (by push_cast; exact e)
      exact_mod_cast this
    obtain ⟨-, a, -, -, a1, a2⟩ := (C163_known B h s s2).2.1 hs
    exact ⟨s, a, s1, hs, a1, a2⟩

/-- The hypotheses are met: some library meets the contracts, one half and 30 are within the bounds, and so is 89.9995 for the loss. -/
example (lib : Libm) : (withCircle (withArcs lib)).Circular ∧ (withCircle (withArcs lib)).Arcs ∧ (lit (1 / 2)).isFin ∧ |(lit (1 / 2)).val| ≤ 1 ∧ (lit 30).isFin ∧ |(lit 30).val| ≤ 90 ∧
    (lit (899995 / 10000)).isFin ∧ |(lit (899995 / 10000)).val - 90| ≤ 7 / 10 ^ 4 ∧ (lit (899995 / 10000)).val ≠ 90 :=
  ⟨withCircle_contract _, { withArcs_contract lib with }, ⟨by decide +kernel, by decide +kernel⟩, by decide +kernel, ⟨by decide +kernel, by decide +kernel⟩, by decide +kernel,
    ⟨by decide +kernel, by decide +kernel⟩, by decide +kernel, by decide +kernel⟩

end
end Prexel
