import Verif.Props.DoubleLogs
import Mathlib.Analysis.SpecialFunctions.Trigonometric.DerivHyp
/-!
# The exponential and hyperbolic functions over `f64` (C165)
-/

namespace Prexel
open B64

/-- The contract of `f64::sinh`, `cosh` and `tanh` at zero and between 10^-11 and 600 on both sides: an error of at most 2^-51 of the result. -/
structure Libm.Hyperbolic (lib : Libm) : Prop where
  sinh : ∀ x : B64, x.isFin → |x.val| ≤ 600 → x.val = 0 ∨ 1 / 10 ^ 11 ≤ |x.val| →
    (lib.sinh x).isFin ∧ |((lib.sinh x).val : ℝ) - Real.sinh x.val| ≤ |Real.sinh x.val| / 2 ^ 51
  cosh : ∀ x : B64, x.isFin → |x.val| ≤ 600 → x.val = 0 ∨ 1 / 10 ^ 11 ≤ |x.val| →
    (lib.cosh x).isFin ∧ |((lib.cosh x).val : ℝ) - Real.cosh x.val| ≤ |Real.cosh x.val| / 2 ^ 51
  tanh : ∀ x : B64, x.isFin → |x.val| ≤ 600 → x.val = 0 ∨ 1 / 10 ^ 11 ≤ |x.val| →
    (lib.tanh x).isFin ∧ |((lib.tanh x).val : ℝ) - Real.tanh x.val| ≤ |Real.tanh x.val| / 2 ^ 51

/-- A call gives a finite number that differs from `t` by at most `u` of `t`. -/
def GivesNear (r : Res B64) (t u : ℝ) : Prop := ∃ y, r = .ok y ∧ y.isFin ∧ |(y.val : ℝ) - t| ≤ |t| * u

theorem exp_600 {q : ℝ} (h : |q| ≤ 600) : Real.exp q ≤ 2 ^ 900 := by
  have e3 : Real.exp 1 ≤ 2.72 := by have := Real.exp_one_lt_d9; norm_num at this ⊢; linarith
  calc Real.exp q ≤ Real.exp ((600 : ℕ) * 1) := Real.exp_le_exp.mpr (by push_cast; linarith [le_abs_self q])
    _ = Real.exp 1 ^ 600 := Real.exp_nat_mul _ _
    _ ≤ 2.72 ^ 600 := pow_le_pow_left₀ (Real.exp_pos _).le e3 600
    _ = ((2.72 : ℝ) ^ 2) ^ 300 := by rw [← pow_mul]
    _ ≤ (2 ^ 3) ^ 300 := pow_le_pow_left₀ (by norm_num) (by norm_num) 300
    _ = 2 ^ 900 := by rw [← pow_mul]

theorem sinh_large (q : ℝ) : |q| ≤ |Real.sinh q| := by
  rcases le_total 0 q with h | h
  · rw [abs_of_nonneg h, abs_of_nonneg (Real.sinh_nonneg_iff.mpr h)]
    exact Real.self_le_sinh_iff.mpr h
  · rw [abs_of_nonpos h, abs_of_nonpos (Real.sinh_nonpos_iff.mpr h)]
    linarith [Real.sinh_le_self_iff.mpr h]

theorem cosh_600 {q : ℝ} (h : |q| ≤ 600) : |Real.cosh q| ≤ 2 ^ 900 := by
  rw [abs_of_pos (Real.cosh_pos q), Real.cosh_eq]
  have h1 := exp_600 h
  have h2 := exp_600 (q := -q) (by rwa [abs_neg])
  generalize (2 : ℝ) ^ 900 = a at *
  linarith

theorem sinh_600 {q : ℝ} (h : |q| ≤ 600) : |Real.sinh q| ≤ 2 ^ 900 := by
  refine le_trans ?_ (cosh_600 h)
  rw [abs_of_pos (Real.cosh_pos q), Real.sinh_eq, Real.cosh_eq, abs_le]
  have h1 := Real.exp_pos q
  have h2 := Real.exp_pos (-q)
  constructor <;> linarith

theorem tanh_unit (q : ℝ) : |Real.tanh q| ≤ 1 := by
  rw [Real.tanh_eq_sinh_div_cosh, abs_div, div_le_one (by rw [abs_of_pos (Real.cosh_pos q)]; exact Real.cosh_pos q), abs_of_pos (Real.cosh_pos q),
    Real.sinh_eq, Real.cosh_eq, abs_le]
  have h1 := Real.exp_pos q
  have h2 := Real.exp_pos (-q)
  constructor <;> linarith

theorem tanh_large {q : ℝ} (h : 1 / 10 ^ 11 ≤ |q|) : 1 / 10 ^ 12 ≤ |Real.tanh q| := by
  have hc := Real.cosh_pos q
  have hs := sinh_large q
  rw [Real.tanh_eq_sinh_div_cosh, abs_div, abs_of_pos hc, le_div_iff₀ hc]
  have hsq := Real.cosh_sq q
  have h1 : Real.cosh q ≤ 1 + |Real.sinh q| := by
    have h2 : Real.cosh q ^ 2 ≤ (1 + |Real.sinh q|) ^ 2 := by
      rw [hsq, ← sq_abs (Real.sinh q)]
      nlinarith [abs_nonneg (Real.sinh q)]
    exact le_of_sq_le_sq h2 (by positivity)
  norm_num at h ⊢
  linarith

namespace B64

theorem one_val : (lit 1).isFin ∧ (lit 1).val = 1 := ⟨⟨by decide +kernel, by decide +kernel⟩, by decide +kernel⟩

/-- The reciprocal of a number that is off by 2^-51 of itself. -/
theorem inv_near {g : B64} (hg : g.isFin) {G : ℝ} (h : |(g.val : ℝ) - G| ≤ |G| / 2 ^ 51) (lo : 1 / 10 ^ 12 ≤ |G|) (hi : |G| ≤ 2 ^ 900) :
    (div (lit 1) g).isFin ∧ |((div (lit 1) g).val : ℝ) - 1 / G| ≤ |1 / G| * (1 / 10 ^ 15) := by
  have hG : 0 < |G| := lt_of_lt_of_le (by norm_num) lo
  have hG0 : G ≠ 0 := abs_pos.mp hG
  have b1 : |G| * (999999 / 1000000) ≤ |(g.val : ℝ)| := by
    have h1 := abs_sub_abs_le_abs_sub G (g.val : ℝ)
    rw [abs_sub_comm] at h1
    norm_num at h ⊢
    linarith
  have b2 : |(g.val : ℝ)| ≤ |G| * 2 := by
    have h1 := abs_sub_abs_le_abs_sub (g.val : ℝ) G
    norm_num at h ⊢
    linarith
  have hg0 : (g.val : ℝ) ≠ 0 := abs_pos.mp (lt_of_lt_of_le (by positivity) b1)
  have hgq : g.val ≠ 0 := by exact_mod_cast hg0
  have hq : |1 / g.val| ≤ 2 ^ 42 := by
    have h1 : |1 / (g.val : ℝ)| ≤ 2 ^ 42 := by
      rw [abs_div, abs_one, div_le_iff₀ (abs_pos.mpr hg0)]
      norm_num at lo b1 ⊢
      linarith
    have h2 : ((|1 / g.val| : ℚ) : ℝ) ≤ ((2 ^ 42 : ℚ) : ℝ) := by
      rw [Rat.cast_abs]; push_cast; exact h1
    exact Rat.cast_le.mp h2
  have hnl : ¬ TooLarge (1 / g.val) := by
    have hd : IsDouble (2 ^ 42) := by have := isDouble_int (n := 2 ^ 42) (by norm_num); push_cast at this; exact this
    exact small_between hd (by rwa [abs_of_pos (by norm_num : (0 : ℚ) < 2 ^ 42)])
  obtain ⟨o1, o2⟩ := one_val
  rw [div_fin o1 hg hgq, o2]
  obtain ⟨f1, f2⟩ := of_fin ((lit 1).sign ^^ g.sign) hnl
  refine ⟨f1, ?_⟩
  rw [f2]
  have hm := cast_near (rnd_moves (hq.trans (pow_le_pow_right₀ (by norm_num : (1 : ℚ) ≤ 2) (by norm_num : 42 ≤ 1000))))
  push_cast at hm
  have big : (1 : ℝ) / 2 ^ 901 ≤ |1 / (g.val : ℝ)| := by
    rw [abs_div, abs_one]
    apply one_div_le_one_div_of_le (abs_pos.mpr hg0)
    refine b2.trans ?_
    rw [pow_succ]
    exact mul_le_mul_of_nonneg_right hi (by norm_num)
  have tiny : (1 : ℝ) / 2 ^ 1022 ≤ |1 / (g.val : ℝ)| * (1 / 10 ^ 20) := by
    refine le_trans ?_ (mul_le_mul_of_nonneg_right big (by norm_num))
    rw [show (1022 : ℕ) = 901 + 121 by norm_num, pow_add, one_div_mul_one_div]
    apply one_div_le_one_div_of_le (by positivity)
    apply mul_le_mul_of_nonneg_left _ (by positivity)
    norm_num
  replace hm := hm.trans (add_le_add_right tiny _)
  have e : 1 / (g.val : ℝ) - 1 / G = (G - g.val) / (g.val * G) := by field_simp
  have d : |1 / (g.val : ℝ) - 1 / G| ≤ |1 / G| * (4442 / 10 ^ 19) := by
    rw [e, abs_div, abs_mul, abs_div, abs_one, div_le_iff₀ (mul_pos (abs_pos.mpr hg0) hG)]
    have e2 : 1 / |G| * (4442 / 10 ^ 19) * (|(g.val : ℝ)| * |G|) = |(g.val : ℝ)| * (4442 / 10 ^ 19) := by field_simp
    rw [e2, abs_sub_comm]
    norm_num at h b1 ⊢
    linarith
  have s1 := abs_sub_abs_le_abs_sub (1 / (g.val : ℝ)) (1 / G)
  have s2 := abs_sub_le ((rnd (1 / g.val) : ℚ) : ℝ) (1 / (g.val : ℝ)) (1 / G)
  clear big tiny hi
  generalize (1 : ℝ) / g.val = a at *
  generalize (1 : ℝ) / G = b at *
  generalize ((rnd (1 / g.val) : ℚ) : ℝ) = r at *
  have hb := abs_nonneg b
  norm_num at hm d ⊢
  linarith

end B64

section
variable {K : Keys} {debug docs : Bool} {lib : Libm} {draw : B64} {ctx : Ctx B64}

/-- What a number is taken for is zero, or not close to zero. -/
theorem taken_away {x q : ℚ} (h : TakenFor x q) : q = 0 ∨ 1 / 10 ^ 11 ≤ |q| := by
  rcases h with ⟨n, -, rfl⟩ | ⟨h, rfl⟩
  · by_cases hn : n = 0
    · left; simp [hn]
    · right
      have h1 : (1 : ℚ) ≤ |(n : ℚ)| := by exact_mod_cast Int.one_le_abs hn
      exact le_trans (by norm_num) h1
  · right
    have := h 0
    rw [Int.cast_zero, sub_zero] at this
    exact le_trans (by norm_num) (snapDistance_bounds.1.le.trans this)

/-- C165, the functions themselves, of what the number is taken for. -/
theorem C165_functions (E : lib.Exponentials) (H : lib.Hyperbolic) (h : BuiltIn K debug docs (f64 lib draw) ((f64 lib draw).num B64.num) ctx) (x : B64)
    (hx : x.isFin) (q : ℚ) (hq : TakenFor x.val q) (hb : |q| ≤ 600) :
    let call := fun name => evalTokens ctx (callTokens (str name) [x])
    GivesNear (call "exp") (Real.exp q) (1 / 2 ^ 51) ∧ GivesNear (call "sinh") (Real.sinh q) (1 / 2 ^ 51) ∧ GivesNear (call "cosh") (Real.cosh q) (1 / 2 ^ 51) ∧
      GivesNear (call "tanh") (Real.tanh q) (1 / 2 ^ 51) := by
  intro call
  have table := fun e he => ((C82_one_argument h x x rfl).1 e he).1 hx
  obtain ⟨s1, s2⟩ := snap_taken (lib := lib) (draw := draw) hx hq
  have haway := taken_away hq
  rw [← s2] at hb haway
  rw [← s2]
  refine ⟨?_, ?_, ?_, ?_⟩
  · rw [abs_le] at hb
    obtain ⟨a1, a2⟩ := E.near _ s1 (by linarith [hb.1]) (by linarith [hb.2])
    exact ⟨_, table (str "exp", lib.exp) (by simp [plainTable, f64]), a1, by rw [abs_of_pos (Real.exp_pos _), mul_one_div]; exact a2⟩
  · obtain ⟨a1, a2⟩ := H.sinh _ s1 hb haway
    exact ⟨_, table (str "sinh", lib.sinh) (by simp [plainTable, f64]), a1, by rw [mul_one_div]; exact a2⟩
  · obtain ⟨a1, a2⟩ := H.cosh _ s1 hb haway
    exact ⟨_, table (str "cosh", lib.cosh) (by simp [plainTable, f64]), a1, by rw [mul_one_div]; exact a2⟩
  · obtain ⟨a1, a2⟩ := H.tanh _ s1 hb haway
    exact ⟨_, table (str "tanh", lib.tanh) (by simp [plainTable, f64]), a1, by rw [mul_one_div]; exact a2⟩

/-- C165, the reciprocals; `csch` and `coth` of zero are infinite, and no errors. -/
theorem C165_reciprocals (H : lib.Hyperbolic) (h : BuiltIn K debug docs (f64 lib draw) ((f64 lib draw).num B64.num) ctx) (x : B64)
    (hx : x.isFin) (q : ℚ) (hq : TakenFor x.val q) (hb : |q| ≤ 600) :
    let call := fun name => evalTokens ctx (callTokens (str name) [x])
    GivesNear (call "sech") (1 / Real.cosh q) (1 / 10 ^ 15) ∧
    (q ≠ 0 → GivesNear (call "csch") (1 / Real.sinh q) (1 / 10 ^ 15) ∧ GivesNear (call "coth") (1 / Real.tanh q) (1 / 10 ^ 15)) ∧
    (q = 0 → (∃ s, call "csch" = .ok (.inf s)) ∧ ∃ s, call "coth" = .ok (.inf s)) := by
  intro call
  have table := fun e he => ((C82_one_argument h x x rfl).1 e he).1 hx
  obtain ⟨s1, s2⟩ := snap_taken (lib := lib) (draw := draw) hx hq
  have haway := taken_away hq
  rw [← s2] at hb haway
  rw [← s2]
  have hbr : |((snap (f64 lib draw) x).val : ℝ)| ≤ 600 := by
    have : ((|(snap (f64 lib draw) x).val| : ℚ) : ℝ) ≤ ((600 : ℚ) : ℝ) := Rat.cast_le.mpr hb
    rw [Rat.cast_abs] at this
    push_cast at this
    exact this
  obtain ⟨a1, a2⟩ := H.sinh _ s1 hb haway
  obtain ⟨b1, b2⟩ := H.cosh _ s1 hb haway
  obtain ⟨c1, c2⟩ := H.tanh _ s1 hb haway
  have tsinh := table (str "csch", fun v => (f64 lib draw).inv (lib.sinh v)) (by simp [plainTable, f64])
  have tcosh := table (str "sech", fun v => (f64 lib draw).inv (lib.cosh v)) (by simp [plainTable, f64])
  have ttanh := table (str "coth", fun v => (f64 lib draw).inv (lib.tanh v)) (by simp [plainTable, f64])
  generalize hv : snap (f64 lib draw) x = v at *
  refine ⟨?_, fun h0 => ?_, fun h0 => ?_⟩
  · obtain ⟨f1, f2⟩ := inv_near b1 b2 (by
      rw [abs_of_pos (Real.cosh_pos _)]
      exact le_trans (by norm_num) (Real.one_le_cosh _)) (cosh_600 hbr)
    exact ⟨_, tcosh, f1, f2⟩
  · have h1 : (1 : ℝ) / 10 ^ 11 ≤ |(v.val : ℝ)| := by
      have : ((1 / 10 ^ 11 : ℚ) : ℝ) ≤ ((|v.val| : ℚ) : ℝ) := Rat.cast_le.mpr (haway.resolve_left h0)
      rw [Rat.cast_abs] at this
      push_cast at this
      exact this
    obtain ⟨f1, f2⟩ := inv_near a1 a2 (le_trans (by norm_num) (h1.trans (sinh_large _))) (sinh_600 hbr)
    obtain ⟨g1, g2⟩ := inv_near c1 c2 (tanh_large h1) ((tanh_unit _).trans (one_le_pow₀ (by norm_num)))
    exact ⟨⟨_, tsinh, f1, f2⟩, ⟨_, ttanh, g1, g2⟩⟩
  · have infinite : ∀ u : B64, u.isFin → u.val = 0 → ∃ s, div (lit 1) u = .inf s := by
      intro u hu hu0
      obtain ⟨a, k, hk, rfl⟩ := isFin_fin hu
      have hk0 := (val_zero_iff _ _ _).mp hu0
      subst hk0
      have : ∃ b j hj, lit 1 = .fin b j hj := isFin_fin one_val.1
      obtain ⟨b, j, hj, e⟩ := this
      have hj0 : j ≠ 0 := by
        intro h0
        have h2 := one_val.2
        rw [e, (val_zero_iff _ _ _).mpr h0] at h2
        norm_num at h2
      exact ⟨b ^^ a, by rw [e]; simp [div, hj0]⟩
    have z1 : (lib.sinh v).val = 0 := by
      rw [h0, Rat.cast_zero, Real.sinh_zero, abs_zero, zero_div, sub_zero] at a2
      exact_mod_cast abs_nonpos_iff.mp a2
    have z2 : (lib.tanh v).val = 0 := by
      rw [h0, Rat.cast_zero, Real.tanh_zero, abs_zero, zero_div, sub_zero] at c2
      exact_mod_cast abs_nonpos_iff.mp c2
    obtain ⟨s, hs⟩ := infinite _ a1 z1
    obtain ⟨s', hs'⟩ := infinite _ c1 z2
    exact ⟨⟨s, tsinh.trans (congrArg Res.ok hs)⟩, ⟨s', ttanh.trans (congrArg Res.ok hs')⟩⟩

/-! ## Examples -/

namespace B64

/-- Any library, with these functions: the nearest doubles. -/
noncomputable def withHyperbolic (lib : Libm) : Libm :=
  { lib with sinh := fun x => nearestTo (Real.sinh x.val), cosh := fun x => nearestTo (Real.cosh x.val), tanh := fun x => nearestTo (Real.tanh x.val) }

/-- The contract can be met. -/
theorem withHyperbolic_contract (lib : Libm) : (withHyperbolic lib).Hyperbolic := by
  have key : ∀ t : ℝ, |t| ≤ 2 ^ 900 → (t = 0 ∨ 1 / 10 ^ 12 ≤ |t|) → (nearestTo t).isFin ∧ |((nearestTo t).val : ℝ) - t| ≤ |t| / 2 ^ 51 := by
    intro t ht h0
    obtain ⟨h1, h2⟩ := nearestTo_near (ht.trans (pow_le_pow_right₀ (by norm_num) (by norm_num)))
    refine ⟨h1, ?_⟩
    rcases h0 with rfl | h0
    · have e : nearestTo 0 = zero false := by
        unfold nearestTo of
        simp
      have e0 : (zero false).val = 0 := (val_zero_iff _ _ _).mpr rfl
      rw [e, e0]
      simp
    · clear ht
      norm_num at h0 h2 ⊢
      linarith
  have real : ∀ {q : ℚ}, |q| ≤ 600 → |(q : ℝ)| ≤ 600 := by
    intro q hq
    have : ((|q| : ℚ) : ℝ) ≤ ((600 : ℚ) : ℝ) := Rat.cast_le.mpr hq
    rw [Rat.cast_abs] at this
    push_cast at this
    exact this
  have away : ∀ {q : ℚ}, q = 0 ∨ 1 / 10 ^ 11 ≤ |q| → q = 0 ∨ (1 : ℝ) / 10 ^ 11 ≤ |(q : ℝ)| := by
    rintro q (h | h)
    · exact .inl h
    · right
      have : ((1 / 10 ^ 11 : ℚ) : ℝ) ≤ ((|q| : ℚ) : ℝ) := Rat.cast_le.mpr h
      rw [Rat.cast_abs] at this
      push_cast at this
      exact this
  refine ⟨fun x _ hb h0 => key _ (sinh_600 (real hb)) ?_, fun x _ hb _ => key _ (cosh_600 (real hb)) ?_,
    fun x _ hb h0 => key _ ((tanh_unit _).trans (one_le_pow₀ (by norm_num))) ?_⟩
  · rcases away h0 with h | h
    · left; rw [h]; simp
    · right; exact le_trans (by norm_num) (h.trans (sinh_large _))
  · right
    rw [abs_of_pos (Real.cosh_pos _)]
    exact le_trans (by norm_num) (Real.one_le_cosh _)
  · rcases away h0 with h | h
    · left; rw [h]; simp
    · right; exact tanh_large h

end B64

/-- The hypotheses are met: some library meets both contracts; 5/2 is taken for 5/2. -/
example (lib : Libm) : (withExponential (withHyperbolic (withPower lib))).Exponentials ∧ (withHyperbolic lib).Hyperbolic ∧ (lit (5 / 2)).isFin ∧
    TakenFor (lit (5 / 2)).val (5 / 2) := by
  refine ⟨?_, withHyperbolic_contract lib, ⟨by decide +kernel, by decide +kernel⟩, .inr ⟨fun n => ?_, by decide +kernel⟩⟩
  · exact ⟨((withExponential_contract (withPower lib) (withPower_powers lib)).2).near⟩
  · have e : (lit (5 / 2)).val = 5 / 2 := by decide +kernel
    rw [e]
    have h1 : (1 : ℚ) / 2 ≤ |5 / 2 - (n : ℚ)| := by
      have h2 : (1 : ℤ) ≤ |5 - 2 * n| := Int.one_le_abs (by omega)
      have h3 : (1 : ℚ) ≤ |5 - 2 * (n : ℚ)| := by exact_mod_cast h2
      have e : (5 / 2 - (n : ℚ)) = (5 - 2 * n) / 2 := by ring
      rw [e, abs_div, abs_of_pos (by norm_num : (0 : ℚ) < 2)]
      linarith
    exact le_trans (snapDistance_bounds.2.le.trans (by norm_num)) h1

end

end Prexel
