import Verif.Lemmas.RealRounding
import Verif.Props.Doubles
import Verif.Props.DoubleFactorial
/-!
# Square roots over `f64` (C158)
-/

namespace Prexel
open B64

/-- `r` is a double, and none is nearer to the real number `x`. -/
def NearestToReal (r : ℚ) (x : ℝ) : Prop := IsDouble r ∧ ∀ s, IsDouble s → |x - r| ≤ |x - s|

/-- The distance to a whole number below which the code takes a number for it: the double nearest to 1e-10. -/
def snapDistance : ℚ := (lit (1 / 10000000000)).val

/-- `q` is taken for `y`: for the whole number that is closer than 1e-10, or else for itself. -/
def TakenFor (q y : ℚ) : Prop := (∃ n : ℤ, |q - n| < snapDistance ∧ y = n) ∨ ((∀ n : ℤ, snapDistance ≤ |q - n|) ∧ y = q)

namespace B64

theorem snap_taken {lib : Libm} {draw : B64} {x : B64} (hx : x.isFin) {y : ℚ} (hy : TakenFor x.val y) :
    (snap (f64 lib draw) x).isFin ∧ (snap (f64 lib draw) x).val = y := by
  obtain ⟨h1, n, h2, h3, h4, h5⟩ := snap_cases (wholeContract lib draw) x ((finite_isFin (lib := lib) (draw := draw) x).mpr hx)
  have h1 : (snap (f64 lib draw) x).isFin := h1
  have h2 : ((f64 lib draw).round x).val = n := h2
  have h3 : -(1 / 2) ≤ x.val - n := h3
  have h4 : x.val - n ≤ 1 / 2 := h4
  have he := error_val
  refine ⟨h1, ?_⟩
  rcases h5 with ⟨h5, h6, h7⟩ | ⟨h5, h6⟩
  · have h6 : -snapDistance < x.val - n := h6
    have h7 : x.val - n < snapDistance := h7
    rw [h5, h2]
    rcases hy with ⟨m, hm, rfl⟩ | ⟨hm, -⟩
    · have hd : |(n : ℚ) - m| < 1 := by
        have h8 : |x.val - n| < snapDistance := abs_lt.mpr ⟨h6, h7⟩
        have he2 : snapDistance < 1 / 2 := he.2.2
        calc |(n : ℚ) - m| = |(x.val - m) - (x.val - n)| := by ring_nf
          _ ≤ |x.val - m| + |x.val - n| := abs_sub _ _
          _ < 1 := by linarith
      have : |n - m| < 1 := by exact_mod_cast hd
      rw [Int.abs_lt_one_iff] at this
      exact_mod_cast (by omega : n = m)
    · exact absurd (abs_lt.mpr ⟨h6, h7⟩) (not_lt.mpr (hm n))
  · have h6 : x.val - n ≤ -snapDistance ∨ snapDistance ≤ x.val - n := h6
    rw [h5]
    rcases hy with ⟨m, hm, rfl⟩ | ⟨-, rfl⟩
    · exfalso
      have hn : snapDistance ≤ |x.val - n| := by
        rcases h6 with h | h
        · rw [le_abs]; right; linarith
        · exact h.trans (le_abs_self _)
      have he2 : snapDistance < 1 / 2 := he.2.2
      have hh : |x.val - n| ≤ 1 / 2 := abs_le.mpr ⟨h3, h4⟩
      have hd : |(n : ℚ) - m| < 1 := by
        calc |(n : ℚ) - m| = |(x.val - m) - (x.val - n)| := by ring_nf
          _ ≤ |x.val - m| + |x.val - n| := abs_sub _ _
          _ < 1 := by linarith
      have : |n - m| < 1 := by exact_mod_cast hd
      rw [Int.abs_lt_one_iff] at this
      have : n = m := by omega
      rw [this] at hn
      linarith
    · rfl

theorem val_below {x : B64} (hx : x.isFin) : x.val ≤ 2 ^ 1024 := by
  have := double_small (isDouble_val hx)
  unfold TooLarge at this
  rw [not_le] at this
  have h1 : (0 : ℚ) < 2 ^ 970 := by positivity
  generalize (2 : ℚ) ^ 1024 = a at *
  generalize (2 : ℚ) ^ 970 = b at *
  linarith [le_abs_self x.val]

theorem root_below {x : B64} (hx : x.isFin) : √(x.val : ℝ) ≤ 2 ^ 1023 := by
  have h1 : (x.val : ℝ) ≤ 2 ^ 1024 := by exact_mod_cast val_below hx
  have h2 : √(x.val : ℝ) ≤ √((2 ^ 512) ^ 2) := Real.sqrt_le_sqrt (h1.trans (le_of_eq (by rw [← pow_mul])))
  rw [Real.sqrt_sq (by positivity)] at h2
  exact h2.trans (pow_le_pow_right₀ (by norm_num) (by norm_num))

/-- `f64::sqrt` of a finite number that is not negative. -/
theorem sqrt_fin {x : B64} (hx : x.isFin) (h0 : 0 ≤ x.val) : (sqrt x).isFin ∧ 0 ≤ (sqrt x).val ∧ NearestToReal (sqrt x).val √(x.val : ℝ) := by
  obtain ⟨a, k, hk, rfl⟩ := isFin_fin hx
  unfold sqrt
  split
  · next h => cases h
  · next h => cases h
  · next a' k' hk' h =>
    cases h
    have hr := root_below hx
    by_cases hz : k = 0
    · rw [if_pos hz]
      have : (B64.fin a k hk).val = 0 := (val_zero_iff _ _ _).mpr hz
      rw [this]
      exact ⟨⟨rfl, rfl⟩, le_rfl, this ▸ isDouble_val ⟨rfl, rfl⟩, fun s _ => by simp⟩
    · rw [if_neg hz]
      have hpos : 0 < (B64.fin a k hk).val := lt_of_le_of_ne h0 fun h => hz ((val_zero_iff _ _ _).mp h.symm)
      have ha : a = false := sign_fin_pos hx hpos
      subst ha
      simp only [Bool.false_eq_true, if_false]
      have hs := Real.sqrt_nonneg ((B64.fin false k hk).val : ℝ)
      have hf := (of_real hs hr false).1
      exact ⟨hf, of_real_nonneg hs hr false, isDouble_val hf, fun s h => of_real_nearest hs hr false s h⟩

theorem sqrt_negative {x : B64} (hx : x.isFin) (h0 : x.val < 0) : sqrt x = .nan := by
  obtain ⟨a, k, hk, rfl⟩ := isFin_fin hx
  have ha : a = true := sign_fin_neg hx h0
  subst ha
  have hz : k ≠ 0 := by
    rintro rfl
    have : (B64.fin true 0 hk).val = 0 := (val_zero_iff _ _ _).mpr rfl
    linarith
  simp [sqrt, hz]

end B64

section
variable {K : Keys} {debug docs : Bool} {lib : Libm} {draw : B64} {ctx : Ctx B64}

theorem double_sqrt (h : BuiltIn K debug docs (f64 lib draw) ((f64 lib draw).num B64.num) ctx) {x : B64} (hx : x.isFin) :
    evalTokens ctx (callTokens (str "sqrt") [x]) = .ok (B64.sqrt (snap (f64 lib draw) x)) := by
  have h1 := (C82_one_argument h x x rfl).1 (str "sqrt", (f64 lib draw).sqrt) (by simp [plainTable])
  exact h1.1 hx

/-- C158. Over `f64`, in both contexts: the square root of a number is the double nearest to the real square root of what the number is taken for,
and NaN if that is negative. -/
theorem C158_sqrt (h : BuiltIn K debug docs (f64 lib draw) ((f64 lib draw).num B64.num) ctx) (x : B64) (hx : x.isFin) (y : ℚ) (hy : TakenFor x.val y) :
    let result := evalTokens ctx (callTokens (str "sqrt") [x])
    (0 ≤ y → ∃ r, result = .ok r ∧ r.isFin ∧ 0 ≤ r.val ∧ NearestToReal r.val √(y : ℝ)) ∧
    (y < 0 → result = .ok .nan) := by
  obtain ⟨h1, h2⟩ := snap_taken (lib := lib) (draw := draw) hx hy
  have hr := double_sqrt h hx
  refine ⟨fun h0 => ?_, fun h0 => ?_⟩
  · have := sqrt_fin h1 (by rw [h2]; exact h0)
    rw [h2] at this
    exact ⟨_, hr, this⟩
  · rw [hr, sqrt_negative h1 (by rw [h2]; exact h0)]

/-- Every number is taken for exactly one. -/
theorem TakenFor.unique (q : ℚ) : ∃! y, TakenFor q y := by
  have he : snapDistance < 1 / 2 := error_val.2.2
  by_cases h : ∃ n : ℤ, |q - n| < snapDistance
  · obtain ⟨n, hn⟩ := h
    refine ⟨n, .inl ⟨n, hn, rfl⟩, ?_⟩
    rintro y (⟨m, hm, rfl⟩ | ⟨hm, -⟩)
    · have hd : |(n : ℚ) - m| < 1 := by
        calc |(n : ℚ) - m| = |(q - m) - (q - n)| := by ring_nf
          _ ≤ |q - m| + |q - n| := abs_sub _ _
          _ < 1 := by linarith
      have : |n - m| < 1 := by exact_mod_cast hd
      rw [Int.abs_lt_one_iff] at this
      exact_mod_cast (by omega : m = n)
    · exact absurd hn (not_lt.mpr (hm n))
  · push Not at h
    refine ⟨q, .inr ⟨h, rfl⟩, ?_⟩
    rintro y (⟨m, hm, -⟩ | ⟨-, rfl⟩)
    · exact absurd hm (not_lt.mpr (h m))
    · rfl

theorem taken_whole (n : ℤ) : TakenFor n n := .inl ⟨n, by rw [sub_self, abs_zero]; exact error_val.2.1, rfl⟩

/-- A root that is a double is found. -/
theorem nearest_exact {r q : ℚ} (hq : IsDouble q) {x : ℝ} (hx : x = q) (h : NearestToReal r x) : r = q := by
  have := h.2 q hq
  rw [hx, sub_self, abs_zero] at this
  have := abs_nonpos_iff.mp this
  have : (q : ℝ) = r := by linarith
  exact_mod_cast this.symm

/-- C158: the square root of the square of a double is exact, if the square is a double. -/
theorem C158_exact (h : BuiltIn K debug docs (f64 lib draw) ((f64 lib draw).num B64.num) ctx) (x : B64) (hx : x.isFin) (q : ℚ) (hq : IsDouble q)
    (h0 : 0 ≤ q) (hy : TakenFor x.val (q ^ 2)) : ∃ r, evalTokens ctx (callTokens (str "sqrt") [x]) = .ok r ∧ r.isFin ∧ r.val = q := by
  obtain ⟨r, h1, h2, -, h4⟩ := (C158_sqrt h x hx _ hy).1 (by positivity)
  refine ⟨r, h1, h2, nearest_exact hq ?_ h4⟩
  push_cast
  exact Real.sqrt_sq (by exact_mod_cast h0)

/-- C158: also if the square is rounded, `sqrt(x * x)` is `|x|`. -/
theorem C158_square (h : BuiltIn K debug docs (f64 lib draw) ((f64 lib draw).num B64.num) ctx) (x : B64) (hx : x.isFin)
    (hlow : 1 / 2 ^ 500 ≤ |x.val|) (hhigh : |x.val| ≤ 2 ^ 500) :
    ∃ p, evalTokens ctx (infixTokens x (str "*") x) = .ok p ∧ p.isFin ∧
      (TakenFor p.val p.val → ∃ r, evalTokens ctx (callTokens (str "sqrt") [p]) = .ok r ∧ r.isFin ∧ r.val = |x.val|) := by
  obtain ⟨-, -, ⟨p, hp, hp1, -, -, hp4⟩, -⟩ := C130_operators h x x hx hx
  have hpos : 0 < |x.val| := lt_of_lt_of_le (by positivity) hlow
  have hsq : x.val * x.val = |x.val| ^ 2 := by rw [sq_abs]; ring
  have hsmall : |x.val| ^ 2 ≤ 2 ^ 1000 := by
    calc |x.val| ^ 2 ≤ (2 ^ 500) ^ 2 := pow_le_pow_left₀ hpos.le hhigh 2
      _ = 2 ^ 1000 := by rw [← pow_mul]
  have hnl : ¬ TooLarge (x.val * x.val) := by
    unfold TooLarge
    rw [hsq, not_le, abs_of_nonneg (by positivity)]
    refine lt_of_le_of_lt hsmall ?_
    have e : (2 : ℚ) ^ 1024 = 2 ^ 24 * 2 ^ 1000 := by rw [← pow_add]
    have e2 : (2 : ℚ) ^ 970 ≤ 2 ^ 1000 := pow_le_pow_right₀ (by norm_num) (by norm_num)
    have e3 : (0 : ℚ) < 2 ^ 1000 := by positivity
    rw [e]
    clear e hsmall hlow hhigh hp1 hp4
    generalize (2 : ℚ) ^ 1000 = b at *
    generalize (2 : ℚ) ^ 970 = c at *
    rw [show (2 : ℚ) ^ 24 = 16777216 by norm_num]
    linarith
  obtain ⟨hpf, hpn⟩ := hp1 hnl
  refine ⟨p, hp, hpf, fun ht => ?_⟩
  have hpv : p.val = rnd (x.val * x.val) := by
    have e1 : p = B64.mul x x := by
      have := double_tree h (.bin .mul (.num x) (.num x))
      have e2 : evalTokens ctx (infixTokens x (str "*") x) = .ok (B64.mul x x) := this
      exact Res.ok.inj (Eq.trans (Eq.symm hp) e2)
    rw [e1, mul_fin hx hx]
    exact (of_fin _ hnl).2
  have hlow2 : 1 / 2 ^ 1022 ≤ |x.val| ^ 2 := by
    calc (1 : ℚ) / 2 ^ 1022 ≤ 1 / 2 ^ 1000 := one_div_le_one_div_of_le (by positivity) (pow_le_pow_right₀ (by norm_num) (by norm_num))
      _ = (1 / 2 ^ 500) ^ 2 := by rw [div_pow, ← pow_mul, one_pow]
      _ ≤ _ := pow_le_pow_left₀ (by positivity) hlow 2
  have habs : IsDouble |x.val| := by
    rcases abs_choice x.val with e | e <;> rw [e]
    · exact isDouble_val hx
    · exact isDouble_neg.mpr (isDouble_val hx)
  have hp0 : 0 ≤ p.val := by rw [hpv]; exact rnd_pos (by rw [hsq]; positivity)
  obtain ⟨r, h1, h2, h3, h4⟩ := (C158_sqrt h p hpf _ ht).1 hp0
  refine ⟨r, h1, h2, ?_⟩
  by_contra hne
  have hroot := root_of_square habs hpos hp0 (by rw [hpv, hsq]; exact rnd_relative hlow2) (fun hd => by rw [hpv, hsq]; exact rnd_keep hd) (fun e he => by
    have hn : (2 : ℚ) ^ (-500 : ℤ) ≤ 2 ^ e := by
      rw [← he, zpow_neg, zpow_ofNat, ← one_div]
      exact hlow
    have hm : (2 : ℚ) ^ e ≤ 2 ^ (500 : ℤ) := by
      rw [← he, zpow_ofNat]
      exact hhigh
    have e1 := (zpow_le_zpow_iff_right₀ (by norm_num : (1 : ℚ) < 2)).mp hn
    have e2 := (zpow_le_zpow_iff_right₀ (by norm_num : (1 : ℚ) < 2)).mp hm
    rcases le_or_gt (e + e) 971 with hc | hc
    · refine ⟨1, e + e, by norm_num, by omega, hc, ?_⟩
      rw [he, zpow_add₀ (by norm_num)]; push_cast; ring
    · refine ⟨2 ^ 52, e + e - 52, by norm_num, by omega, by omega, ?_⟩
      rw [he, zpow_sub₀ (by norm_num), zpow_add₀ (by norm_num)]; push_cast; field_simp) (isDouble_val h2) hne
  exact absurd (h4.2 |x.val| habs) (not_le.mpr hroot)

/-- C158: the root does not decrease. -/
theorem C158_monotone (h : BuiltIn K debug docs (f64 lib draw) ((f64 lib draw).num B64.num) ctx) (x y : B64) (hx : x.isFin) (hy : y.isFin)
    (h0 : 0 ≤ x.val) (hxy : x.val ≤ y.val) : ∃ r s, evalTokens ctx (callTokens (str "sqrt") [x]) = .ok r ∧
      evalTokens ctx (callTokens (str "sqrt") [y]) = .ok s ∧ r.isFin ∧ s.isFin ∧ r.val ≤ s.val := by
  obtain ⟨a, ha, -⟩ := TakenFor.unique x.val
  obtain ⟨b, hb, -⟩ := TakenFor.unique y.val
  have he0 : 0 < snapDistance := error_val.2.1
  have he : snapDistance < 1 / 2 := error_val.2.2
  have ha0 : 0 ≤ a := by
    rcases ha with ⟨n, hn, rfl⟩ | ⟨-, rfl⟩
    · rw [abs_lt] at hn
      have : ((-1 : ℤ) : ℚ) < n := by push_cast; linarith
      have : -1 < n := by exact_mod_cast this
      exact_mod_cast (by omega : 0 ≤ n)
    · exact h0
  have hab : a ≤ b := by
    rcases ha with ⟨n, hn, rfl⟩ | ⟨hn, rfl⟩ <;> rcases hb with ⟨m, hm, rfl⟩ | ⟨hm, rfl⟩
    · rw [abs_lt] at hn hm
      have : ((n - 1 : ℤ) : ℚ) < m := by push_cast; linarith
      have : n - 1 < m := by exact_mod_cast this
      exact_mod_cast (by omega : n ≤ m)
    · have h1 := hm n
      rw [abs_lt] at hn
      rw [le_abs] at h1
      rcases h1 with h1 | h1
      · linarith
      · exfalso; linarith
    · have h1 := hn m
      rw [abs_lt] at hm
      rw [le_abs] at h1
      rcases h1 with h1 | h1
      · exfalso; linarith
      · linarith
    · exact hxy
  obtain ⟨r, r1, r2, r3, r4, r5⟩ := (C158_sqrt h x hx a ha).1 ha0
  obtain ⟨s, s1, s2, s3, s4, s5⟩ := (C158_sqrt h y hy b hb).1 (ha0.trans hab)
  refine ⟨r, s, r1, s1, r2, s2, ?_⟩
  by_contra hc
  push Not at hc
  have hroot : √(a : ℝ) ≤ √(b : ℝ) := Real.sqrt_le_sqrt (by exact_mod_cast hab)
  have h1 := r5 s.val s4
  have h2 := s5 r.val r4
  have hc' : (s.val : ℝ) < r.val := by exact_mod_cast hc
  have k1 : (r.val + s.val : ℝ) ≤ 2 * √(a : ℝ) := by
    by_contra hk
    push Not at hk
    rcases le_total (√(a : ℝ)) (s.val : ℝ) with h3 | h3
    · rw [abs_of_nonpos (by linarith), abs_of_nonpos (by linarith)] at h1; linarith
    · rcases le_total (√(a : ℝ)) (r.val : ℝ) with h4 | h4
      · rw [abs_of_nonpos (by linarith), abs_of_nonneg (by linarith)] at h1; linarith
      · linarith
  have k2 : 2 * √(b : ℝ) ≤ r.val + s.val := by
    by_contra hk
    push Not at hk
    rcases le_total (√(b : ℝ)) (s.val : ℝ) with h3 | h3
    · linarith
    · rcases le_total (√(b : ℝ)) (r.val : ℝ) with h4 | h4
      · rw [abs_of_nonneg (by linarith), abs_of_nonpos (by linarith)] at h2; linarith
      · rw [abs_of_nonneg (by linarith), abs_of_nonneg (by linarith)] at h2; linarith
  have hb' : √(a : ℝ) = √(b : ℝ) := by linarith
  have hba : (a : ℝ) = b := by
    have := congrArg (· ^ 2) hb'
    simpa [Real.sq_sqrt (show (0 : ℝ) ≤ a by exact_mod_cast ha0), Real.sq_sqrt (show (0 : ℝ) ≤ b by exact_mod_cast ha0.trans hab)] using this
  have hba : a = b := by exact_mod_cast hba
  -- the same number has the same root
  obtain ⟨p1, p2⟩ := snap_taken (lib := lib) (draw := draw) hx ha
  obtain ⟨q1, q2⟩ := snap_taken (lib := lib) (draw := draw) hy hb
  have e1 := double_sqrt h hx
  have e2 := double_sqrt h hy
  rw [r1] at e1
  rw [s1] at e2
  injection e1 with e1
  injection e2 with e2
  rcases ha0.eq_or_lt with hz | hz
  · have z1 := nearest_exact (q := 0) (by simpa using isDouble_int (n := 0) (by norm_num)) (by rw [← hz]; simp) ⟨r4, r5⟩
    rw [z1] at hc
    linarith
  · have : snap (f64 lib draw) x = snap (f64 lib draw) y := by
      refine eq_of_val p1 q1 (by rw [p2, q2, hba]) ?_
      rw [sign_fin_pos p1 (by rw [p2]; exact hz), sign_fin_pos q1 (by rw [q2, ← hba]; exact hz)]
    rw [this] at e1
    rw [e1, ← e2] at hc
    exact lt_irrefl _ hc

theorem taken_between {q : ℚ} (h1 : 1 / 1000 ≤ q) (h2 : q ≤ 999 / 1000) : TakenFor q q := by
  right
  refine ⟨fun n => ?_, rfl⟩
  have he : snapDistance < 1 / 1000 := by unfold snapDistance; decide +kernel
  rw [le_abs]
  rcases le_or_gt n 0 with hn | hn
  · left
    have : (n : ℚ) ≤ 0 := by exact_mod_cast hn
    linarith
  · right
    have : (1 : ℚ) ≤ n := by exact_mod_cast hn
    linarith

/-- The hypotheses of the theorems are met by 2, by 1/4, which has an exact root, and by 1/10, whose square is rounded. -/
example : ((lit 2).isFin ∧ TakenFor (lit 2).val 2) ∧ ((lit (1 / 4)).isFin ∧ TakenFor (lit (1 / 4)).val ((1 / 2) ^ 2) ∧ IsDouble (1 / 2)) ∧
    ((lit (1 / 10)).isFin ∧ 1 / 2 ^ 500 ≤ |(lit (1 / 10)).val| ∧ |(lit (1 / 10)).val| ≤ 2 ^ 500 ∧
      (B64.mul (lit (1 / 10)) (lit (1 / 10))).val ≠ (lit (1 / 10)).val ^ 2 ∧
      TakenFor (B64.mul (lit (1 / 10)) (lit (1 / 10))).val (B64.mul (lit (1 / 10)) (lit (1 / 10))).val) := by
  have e2 : (lit 2).val = 2 := by decide +kernel
  have e4 : (lit (1 / 4)).val = 1 / 4 := by decide +kernel
  refine ⟨⟨⟨by decide +kernel, by decide +kernel⟩, ?_⟩, ⟨⟨by decide +kernel, by decide +kernel⟩, ?_, 1, -1, by norm_num, by norm_num, by norm_num, by norm_num⟩,
    ⟨by decide +kernel, by decide +kernel⟩, by decide +kernel, by decide +kernel, by decide +kernel, ?_⟩
  · rw [e2]; exact taken_whole 2
  · rw [e4, show ((1 : ℚ) / 2) ^ 2 = 1 / 4 by norm_num]; exact taken_between (by norm_num) (by norm_num)
  · exact taken_between (by decide +kernel) (by decide +kernel)

end

end Prexel
