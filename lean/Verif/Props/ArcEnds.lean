import Verif.Props.AreaWide
import Verif.Props.SquareRoots
/-!
# C65, C68, C95: where the inverse functions end

With rounding half to even (contracts of C90).
-/

namespace Prexel
variable {D F : Type} {d : Dec D F}

namespace Dec.Laws
variable (L : d.Laws)

/-- The square roots up to 1 are found. -/
theorem sqrt_unit (E : L.TiesToEven) (hfuel : 6 ≤ d.fuel) {f : F64 F} (C : L.SqrtClose f) {t : D} (h0 : 0 < L.val t) (h1 : L.val t ≤ 1) :
    d.sqrt f t ≠ .panic := by
  obtain ⟨z, -, -, -, e, -⟩ := L.sqrt_settles E hfuel C h0 (by linarith) (by rintro (h | h) <;> linarith)
  rw [e]
  simp

theorem asin_ends (E : L.TiesToEven) (hfuel : 6 ≤ d.fuel) {f : F64 F} (S : L.SqrtStart f) (C : L.SqrtClose f) (x : D) : d.asin f x ≠ .panic := by
  by_cases hx : |L.val x| ≤ 1
  · rcases L.asin_near S hx with ⟨-, t, t0, t1, h⟩ | ⟨z, h, -⟩
    · exact absurd h (L.sqrt_unit E hfuel C t0 t1)
    · rw [h]; simp
  · have v1 : L.val d.one = 1 := L.nat_val (n := 1) (by decide)
    have vm : L.val d.oneMinus = -1 := by rw [L.oneMinus]; norm_num
    have : d.lt x d.oneMinus = true ∨ d.lt d.one x = true := by
      rw [L.lt, L.lt, vm, v1]
      by_contra hc
      push Not at hc
      exact hx (abs_le.mpr hc)
    unfold Dec.asin
    rcases this with h | h <;> simp [h]

theorem acos_ends (E : L.TiesToEven) (hfuel : 6 ≤ d.fuel) {f : F64 F} (S : L.SqrtStart f) (C : L.SqrtClose f) (x : D) : d.acos f x ≠ .panic := by
  by_cases hx : |L.val x| ≤ 1
  · rcases L.acos_near S hx with ⟨-, t, t0, t1, h⟩ | ⟨z, h, -⟩
    · exact absurd h (L.sqrt_unit E hfuel C t0 t1)
    · rw [h]; simp
  · have v1 : L.val d.one = 1 := L.nat_val (n := 1) (by decide)
    have vm : L.val d.oneMinus = -1 := by rw [L.oneMinus]; norm_num
    have : d.lt x d.oneMinus = true ∨ d.lt d.one x = true := by
      rw [L.lt, L.lt, vm, v1]
      by_contra hc
      push Not at hc
      exact hx (abs_le.mpr hc)
    unfold Dec.acos
    rcases this with h | h <;> simp [h]

theorem inv_zero {x : D} (hx : L.val x = 0) : d.inv x = .panic := by
  simp [Dec.inv, Dec.div, Dec.cdiv, L.divZero d.one x hx, Ops.orOverflow, Res.ofOption, Res.unwrapNone]

end Dec.Laws

/-- C65 and C68: `asin` and `acos` always end without a panic, `acsc` and `asec` panic exactly at 0; and from 1 on (and from -1 down) `acsc` and `asec`
are the arcsine and the arccosine of the reciprocal, in radians, correct to 10^-13 and 4·10^-13. -/
theorem C68_ends (K : Keys) (debug : Bool) (L : d.Laws) (E : L.TiesToEven) (hfuel : 6 ≤ d.fuel) (f : F64 F) (S : L.SqrtStart f) (C : L.SqrtClose f)
    (config : Config) (c : Context D) (hc : d.context K debug f config = .ok c) (os : List (Op D)) (x : D) :
    let ev := evalTokens ((c.runAll K debug os).view K)
    ev (callTokens (str "asin") [x]) ≠ .panic ∧ ev (callTokens (str "acos") [x]) ≠ .panic ∧
    (ev (callTokens (str "acsc") [x]) = .panic ↔ L.val x = 0) ∧ (ev (callTokens (str "asec") [x]) = .panic ↔ L.val x = 0) ∧
    (1 ≤ |L.val x| →
      (∃ z, ev (callTokens (str "acsc") [x]) = .ok z ∧ |(L.val z : ℝ) - Real.arcsin (1 / L.val x)| ≤ 1 / 10 ^ 13) ∧
      (∃ z, ev (callTokens (str "asec") [x]) = .ok z ∧ |(L.val z : ℝ) - Real.arccos (1 / L.val x)| ≤ 4 / 10 ^ 13)) := by
  intro ev
  have h1 : ev (callTokens (str "acsc") [x]) = (d.inv x).bind (d.asin f) := decimal_call hc os (g := (d.arcRecFn (str "acsc") (d.asin f)).fn) rfl [x]
  have h2 : ev (callTokens (str "asec") [x]) = (d.inv x).bind (d.acos f) := decimal_call hc os (g := (d.arcRecFn (str "asec") (d.acos f)).fn) rfl [x]
  have h3 : ev (callTokens (str "asin") [x]) = (d.toRadians x).bind (d.asin f) := decimal_call hc os (g := (d.trigFn (str "asin") (d.asin f)).fn) rfl [x]
  have h4 : ev (callTokens (str "acos") [x]) = (d.toRadians x).bind (d.acos f) := decimal_call hc os (g := (d.trigFn (str "acos") (d.acos f)).fn) rfl [x]
  obtain ⟨r, hr⟩ := L.toRadians_ok x
  have p1 : ev (callTokens (str "acsc") [x]) = .panic ↔ L.val x = 0 := by
    rw [h1]
    constructor
    · intro h
      by_contra hx
      obtain ⟨y, e, -⟩ := inv_near L hx
      rw [e, Res.bind_ok] at h
      exact L.asin_ends E hfuel S C y h
    · intro h
      rw [L.inv_zero h]
      rfl
  have p2 : ev (callTokens (str "asec") [x]) = .panic ↔ L.val x = 0 := by
    rw [h2]
    constructor
    · intro h
      by_contra hx
      obtain ⟨y, e, -⟩ := inv_near L hx
      rw [e, Res.bind_ok] at h
      exact L.acos_ends E hfuel S C y h
    · intro h
      rw [L.inv_zero h]
      rfl
  refine ⟨?_, ?_, p1, p2, fun hx => ?_⟩
  · rw [h3, hr]; exact L.asin_ends E hfuel S C r
  · rw [h4, hr]; exact L.acos_ends E hfuel S C r
  · have hx0 : L.val x ≠ 0 := by
      intro h
      rw [h, abs_zero] at hx
      linarith
    have k := (C68_reciprocal_partial K debug L f S config c hc os x).2 hx
    exact ⟨k.1.resolve_left fun h => hx0 (p1.mp h), k.2.resolve_left fun h => hx0 (p2.mp h)⟩

/-! ## The inverse hyperbolic functions -/

namespace Dec.Laws
variable (L : d.Laws)

/-- The square of a number up to 2.4, in units of the 28th digit. -/
theorem square_units (E : L.TiesToEven) {x x2 : D} (h : L.val x * L.val x ≤ 6) (e : d.mul x x = .ok x2) :
    ∃ X n : ℤ, L.val x * 10 ^ 28 = X ∧ L.val x2 * 10 ^ 28 = n ∧ 2 * n * 10 ^ 28 ≤ 2 * (X * X) + 10 ^ 28 ∧ 2 * (X * X) ≤ 2 * n * 10 ^ 28 + 10 ^ 28 := by
  have hb : ∀ b : Rat, 6 ≤ b → Bounded b (L.val x * L.val x) := fun b hb => by
    rw [bounded_abs, abs_of_nonneg (mul_self_nonneg _)]; linarith
  obtain ⟨z, hz, -⟩ := L.mul x x (hb _ (by rw [maxDecimal_eq]; norm_num))
  have hm : d.mul x x = .ok z := by simp [Dec.mul, Dec.cmul, hz, Ops.orOverflow, Res.ofOption, Res.unwrapNone]
  rw [e] at hm
  injection hm with hm
  subst hm
  obtain ⟨X, hX⟩ := representable_units (L.range x)
  obtain ⟨n, hn, h1, h2, -⟩ := E.mul x x x2 (hb 7 (by norm_num)) hz
  refine ⟨X, n, hX, hn, ?_, ?_⟩
  · have : (2 * n * 10 ^ 28 : Rat) ≤ 2 * (X * X) + 10 ^ 28 := by rw [← hX]; nlinarith
    exact_mod_cast this
  · have : (2 * (X * X) : Rat) ≤ 2 * n * 10 ^ 28 + 10 ^ 28 := by rw [← hX]; nlinarith
    exact_mod_cast this

/-- Which numbers have 3.0000000000000000000000000003 or 2.9720354828415177818323744671 as their square. -/
theorem square_three {X n : ℤ} (h1 : 2 * n * 10 ^ 28 ≤ 2 * (X * X) + 10 ^ 28) (h2 : 2 * (X * X) ≤ 2 * n * 10 ^ 28 + 10 ^ 28) :
    (n = 30000000000000000000000000003 ↔ |X| = 17320508075688772935274463416) ∧ n ≠ 29720354828415177818323744671 := by
  have ha : X * X = |X| * |X| := (abs_mul_abs_self X).symm
  rw [ha] at h1 h2
  have h0 : 0 ≤ |X| := abs_nonneg X
  generalize |X| = a at *
  refine ⟨⟨?_, ?_⟩, ?_⟩
  · rintro rfl
    have u : a < 17320508075688772935274463417 := by by_contra hc; push Not at hc; nlinarith
    have l : 17320508075688772935274463415 < a := by by_contra hc; push Not at hc; nlinarith
    omega
  · rintro rfl
    omega
  · rintro rfl
    by_cases hc : a ≤ 17239592462820917222984048218
    · nlinarith
    · push Not at hc
      have : 17239592462820917222984048218 + 1 ≤ a := hc
      nlinarith

/-- The same for 5.0000000000000000000000000003 and 4.9720354828415177818323744671. -/
theorem square_five {X n : ℤ} (h0 : 0 ≤ X) (h1 : 2 * n * 10 ^ 28 ≤ 2 * (X * X) + 10 ^ 28) (h2 : 2 * (X * X) ≤ 2 * n * 10 ^ 28 + 10 ^ 28) :
    (n = 50000000000000000000000000003 ↔ X = 22360679774997896964091736688) ∧ n ≠ 49720354828415177818323744671 := by
  refine ⟨⟨?_, ?_⟩, ?_⟩
  · rintro rfl
    have u : X < 22360679774997896964091736689 := by by_contra hc; push Not at hc; nlinarith
    have l : 22360679774997896964091736687 < X := by by_contra hc; push Not at hc; nlinarith
    omega
  · rintro rfl
    omega
  · rintro rfl
    by_cases hc : X ≤ 22298061536468854632346854198
    · nlinarith
    · push Not at hc
      have : 22298061536468854632346854198 + 1 ≤ X := hc
      nlinarith

/-- The square root that `asinh` takes hangs for one number (and its opposite) only. -/
theorem asinh_root (E : L.TiesToEven) {x x2 t : D} (hx : |L.val x| ≤ 37 / 10) (e1 : d.mul x x = .ok x2) (e2 : d.add x2 d.one = .ok t) :
    1 ≤ L.val t ∧ L.val t ≤ 15 ∧ (Hangs (L.val t) ↔ |L.val x| * 10 ^ 28 = 17320508075688772935274463416) := by
  have v1 : L.val d.one = 1 := L.nat_val (n := 1) (by decide)
  have hsq : L.val x * L.val x ≤ 1369 / 100 := by
    rw [← abs_mul_abs_self]
    nlinarith [abs_nonneg (L.val x)]
  have rep : ∀ n : ℕ, n < 100 → Representable (n : Rat) := fun n h => representable_nat (lt_trans h (by norm_num))
  obtain ⟨x2', e1', -, r1⟩ := L.mul_near (x := x) (y := x) (a := 14) (by norm_num) (by rw [abs_of_nonneg (mul_self_nonneg _)]; linarith) (by norm_num)
  rw [e1] at e1'
  injection e1' with e1'
  subst e1'
  have p0 : 0 ≤ L.val x2 := (r1 0 (by exact_mod_cast rep 0 (by norm_num))).1 (mul_self_nonneg _)
  have p1 : L.val x2 ≤ 14 := (r1 14 (by exact_mod_cast rep 14 (by norm_num))).2 (by linarith)
  obtain ⟨t', e2', -, r2⟩ := L.add_near (x := x2) (y := d.one) (a := 15) (by norm_num) (by rw [v1, abs_of_nonneg (by linarith)]; linarith) (by norm_num)
  rw [e2] at e2'
  injection e2' with e2'
  subst e2'
  rw [v1] at r2
  refine ⟨(r2 1 (by exact_mod_cast rep 1 (by norm_num))).1 (by linarith), (r2 15 (by exact_mod_cast rep 15 (by norm_num))).2 (by linarith), ?_⟩
  by_cases h6 : L.val x * L.val x ≤ 6
  · obtain ⟨X, n, hX, hn, i1, i2⟩ := L.square_units E h6 e1
    have p6 : L.val x2 ≤ 6 := (r1 6 (by exact_mod_cast rep 6 (by norm_num))).2 h6
    have ht : L.val t = L.val x2 + 1 := r2.eq ⟨28, le_rfl, n + 10 ^ 28, by
      have h1 : (n : Rat) ≤ 6 * 10 ^ 28 := by rw [← hn]; linarith
      have h2 : (0 : Rat) ≤ n := by rw [← hn]; linarith
      have h1' : n ≤ 6 * 10 ^ 28 := by exact_mod_cast h1
      have h2' : 0 ≤ n := by exact_mod_cast h2
      omega, by push_cast; linarith⟩
    obtain ⟨k1, k2⟩ := square_three i1 i2
    have e : |L.val x| * 10 ^ 28 = ((|X| : ℤ) : Rat) := by
      push_cast
      rw [← hX, abs_mul]
      norm_num
    rw [e]
    have : (((|X| : ℤ) : Rat) = 17320508075688772935274463416) ↔ |X| = 17320508075688772935274463416 := by
      constructor
      · intro h; exact_mod_cast h
      · intro h; rw [h]; norm_num
    rw [this, ← k1, Hangs, ht, add_mul, hn]
    constructor
    · rintro (h | h)
      · exfalso
        apply k2
        have : (n : Rat) = 29720354828415177818323744671 := by linarith
        exact_mod_cast this
      · have : (n : Rat) = 30000000000000000000000000003 := by linarith
        exact_mod_cast this
    · rintro rfl
      right
      norm_num
  · push Not at h6
    have q6 : 6 ≤ L.val x2 := (r1 6 (by exact_mod_cast rep 6 (by norm_num))).1 h6.le
    have q7 : 7 ≤ L.val t := (r2 7 (by exact_mod_cast rep 7 (by norm_num))).1 (by linarith)
    constructor
    · rintro (h | h) <;> linarith
    · intro h
      rw [← abs_mul_abs_self] at h6
      nlinarith [abs_nonneg (L.val x)]

/-- The square root that `acosh` takes hangs for one number only. -/
theorem acosh_root (E : L.TiesToEven) {x x2 t : D} (h1 : 1 < L.val x) (hx : L.val x ≤ 39 / 10) (e1 : d.mul x x = .ok x2) (e2 : d.sub x2 d.one = .ok t) :
    0 < L.val t ∧ L.val t ≤ 15 ∧ (Hangs (L.val t) ↔ L.val x * 10 ^ 28 = 22360679774997896964091736688) := by
  have v1 : L.val d.one = 1 := L.nat_val (n := 1) (by decide)
  have hsq : L.val x * L.val x ≤ 1521 / 100 := by nlinarith
  have hgt : L.val x < L.val x * L.val x := by nlinarith
  have rep : ∀ n : ℕ, n < 100 → Representable (n : Rat) := fun n h => representable_nat (lt_trans h (by norm_num))
  obtain ⟨x2', e1', -, r1⟩ := L.mul_near (x := x) (y := x) (a := 16) (by norm_num) (by rw [abs_of_nonneg (mul_self_nonneg _)]; linarith) (by norm_num)
  rw [e1] at e1'
  injection e1' with e1'
  subst e1'
  have p0 : L.val x ≤ L.val x2 := (r1 _ (L.range x)).1 hgt.le
  have p1 : L.val x2 ≤ 16 := (r1 16 (by exact_mod_cast rep 16 (by norm_num))).2 (by linarith)
  obtain ⟨t', e2', -, r2⟩ := L.sub_near (x := x2) (y := d.one) (a := 15) (by norm_num) (by rw [v1, abs_of_nonneg (by linarith)]; linarith) (by norm_num)
  rw [e2] at e2'
  injection e2' with e2'
  subst e2'
  rw [v1] at r2
  have hle : L.val t ≤ 15 := (r2 15 (by exact_mod_cast rep 15 (by norm_num))).2 (by linarith)
  by_cases h6 : L.val x * L.val x ≤ 6
  · obtain ⟨X, n, hX, hn, i1, i2⟩ := L.square_units E h6 e1
    have p6 : L.val x2 ≤ 6 := (r1 6 (by exact_mod_cast rep 6 (by norm_num))).2 h6
    have ht : L.val t = L.val x2 - 1 := r2.eq (by rw [← v1]; exact L.representable_sub (by rw [v1, abs_le]; constructor <;> linarith))
    have hX0 : 0 ≤ X := by
      have : (0 : Rat) ≤ X := by rw [← hX]; linarith
      exact_mod_cast this
    obtain ⟨k1, k2⟩ := square_five hX0 i1 i2
    refine ⟨by linarith, hle, ?_⟩
    rw [hX]
    have : ((X : Rat) = 22360679774997896964091736688) ↔ X = 22360679774997896964091736688 := by
      constructor
      · intro h; exact_mod_cast h
      · intro h; rw [h]; norm_num
    rw [this, ← k1, Hangs, ht, sub_mul, hn]
    constructor
    · rintro (h | h)
      · exfalso
        apply k2
        have : (n : Rat) = 49720354828415177818323744671 := by linarith
        exact_mod_cast this
      · have : (n : Rat) = 50000000000000000000000000003 := by linarith
        exact_mod_cast this
    · rintro rfl
      right
      norm_num
  · push Not at h6
    have q6 : 6 ≤ L.val x2 := (r1 6 (by exact_mod_cast rep 6 (by norm_num))).1 h6.le
    have q7 : 5 ≤ L.val t := (r2 5 (by exact_mod_cast rep 5 (by norm_num))).1 (by linarith)
    refine ⟨by linarith, hle, ?_⟩
    constructor
    · rintro (h | h) <;> linarith
    · intro h
      nlinarith

end Dec.Laws

/-- C95 with rounding half to even: `asinh` from -3.7 to 3.7 and `acosh` from 1 to 3.9 end and are correct to 10^-13, except for exactly one number (and its
opposite) each, 1.7320508075688772935274463416 and 2.2360679774997896964091736688, for which the square root they take does not end. Missing: larger
numbers, see `C95_wide_partial`. -/
theorem C95_ends_partial (K : Keys) (debug : Bool) (L : d.Laws) (E : L.TiesToEven) (hfuel : 100 ≤ d.fuel) (f : F64 F) (S : L.SqrtStart f)
    (C : L.SqrtClose f) (config : Config) (c : Context D) (hc : d.context K debug f config = .ok c) (os : List (Op D)) (x : D) :
    let ev := evalTokens ((c.runAll K debug os).view K)
    (|L.val x| ≤ 37 / 10 → |L.val x| ≠ 17320508075688772935274463416 / 10 ^ 28 → ∃ z, ev (callTokens (str "asinh") [x]) = .ok z ∧
      |(L.val z : ℝ) - Real.arsinh (L.val x)| ≤ 1 / 10 ^ 13) ∧
    (|L.val x| = 17320508075688772935274463416 / 10 ^ 28 → ev (callTokens (str "asinh") [x]) = .panic) ∧
    (1 < L.val x → L.val x ≤ 39 / 10 → L.val x ≠ 22360679774997896964091736688 / 10 ^ 28 → ∃ z, ev (callTokens (str "acosh") [x]) = .ok z ∧
      |(L.val z : ℝ) - Real.arcosh (L.val x)| ≤ 1 / 10 ^ 13) ∧
    (L.val x = 22360679774997896964091736688 / 10 ^ 28 → ev (callTokens (str "acosh") [x]) = .panic) := by
  intro ev
  have h1 : ev (callTokens (str "asinh") [x]) = d.asinh f x := decimal_call hc os (g := (Dec.fn1 (str "asinh") (d.asinh f)).fn) rfl [x]
  have h2 : ev (callTokens (str "acosh") [x]) = d.acosh f x := decimal_call hc os (g := (Dec.fn1 (str "acosh") (d.acosh f)).fn) rfl [x]
  have hang : ∀ t, Hangs (L.val t) → d.sqrt f t = .panic := fun t ht => by
    have h : ev (callTokens (str "sqrt") [t]) = d.sqrt f t := decimal_call hc os (g := (Dec.fn1 (str "sqrt") (d.sqrt f)).fn) rfl [t]
    rw [← h]
    exact (C90_hangs_counterexample K debug L E f C config c hc os t ht).1
  have settle : ∀ t, 0 < L.val t → L.val t ≤ 15 → ¬ Hangs (L.val t) → d.sqrt f t ≠ .panic := fun t a b hh => by
    obtain ⟨z, -, -, -, e, -⟩ := L.sqrt_settles E (by omega) C a b hh
    rw [e]; simp
  rw [h1, h2]
  refine ⟨fun ha hb => ?_, fun ha => ?_, fun ha hb hn => ?_, fun ha => ?_⟩
  · have hb' : |L.val x| * 10 ^ 28 ≠ 17320508075688772935274463416 := fun h => hb (by rw [eq_div_iff (by norm_num)]; exact h)
    rcases L.asinh_wide hfuel S (by linarith [(abs_le.mp ha).1]) (by linarith [(abs_le.mp ha).2]) with ⟨-, x2, t, e1, e2, h⟩ | h
    · obtain ⟨t1, t15, hh⟩ := L.asinh_root E ha e1 e2
      exact absurd h (settle t (by linarith) t15 fun k => hb' (hh.mp k))
    · exact h
  · have v1 : L.val d.one = 1 := L.nat_val (n := 1) (by decide)
    have hb' : |L.val x| * 10 ^ 28 = 17320508075688772935274463416 := by rw [ha]; norm_num
    have hx : |L.val x| ≤ 37 / 10 := by rw [ha]; norm_num
    have hsq : L.val x * L.val x ≤ 4 := by
      rw [← abs_mul_abs_self, ha]; norm_num
    obtain ⟨x2, e1, -, r1⟩ := L.mul_near (x := x) (y := x) (a := 4) (by norm_num) (by rw [abs_of_nonneg (mul_self_nonneg _)]; exact hsq) (by norm_num)
    have p0 : 0 ≤ L.val x2 := (r1 0 (by exact_mod_cast representable_nat (n := 0) (by decide))).1 (mul_self_nonneg _)
    have p1 : L.val x2 ≤ 4 := (r1 4 (by exact_mod_cast representable_nat (n := 4) (by decide))).2 hsq
    obtain ⟨t, e2, -, -⟩ := L.add_near (x := x2) (y := d.one) (a := 5) (by norm_num) (by rw [v1, abs_of_nonneg (by linarith)]; linarith) (by norm_num)
    obtain ⟨-, -, hh⟩ := L.asinh_root E hx e1 e2
    simp only [Dec.asinh, Res.bind_eq, e1, e2, Res.bind_ok, hang t (hh.mpr hb')]
    rfl
  · have hn' : L.val x * 10 ^ 28 ≠ 22360679774997896964091736688 := fun h => hn (by rw [eq_div_iff (by norm_num)]; exact h)
    rcases L.acosh_wide hfuel S ha (by linarith) with ⟨-, x2, t, e1, e2, h⟩ | ⟨z, e, n⟩
    · obtain ⟨t1, t15, hh⟩ := L.acosh_root E ha hb e1 e2
      exact absurd h (settle t t1 t15 fun k => hn' (hh.mp k))
    · exact ⟨z, e, n.trans (by norm_num)⟩
  · have v1 : L.val d.one = 1 := L.nat_val (n := 1) (by decide)
    have hb' : L.val x * 10 ^ 28 = 22360679774997896964091736688 := by rw [ha]; norm_num
    have h1 : 1 < L.val x := by rw [ha]; norm_num
    have hsq : L.val x * L.val x ≤ 6 := by rw [ha]; norm_num
    obtain ⟨x2, e1, -, r1⟩ := L.mul_near (x := x) (y := x) (a := 6) (by norm_num) (by rw [abs_of_nonneg (mul_self_nonneg _)]; exact hsq) (by norm_num)
    have p0 : L.val x ≤ L.val x2 := (r1 _ (L.range x)).1 (by nlinarith)
    have p1 : L.val x2 ≤ 6 := (r1 6 (by exact_mod_cast representable_nat (n := 6) (by decide))).2 hsq
    obtain ⟨t, e2, -, -⟩ := L.sub_near (x := x2) (y := d.one) (a := 5) (by norm_num) (by rw [v1, abs_of_nonneg (by linarith)]; linarith) (by norm_num)
    obtain ⟨-, -, hh⟩ := L.acosh_root E h1 (by rw [ha]; norm_num) e1 e2
    have e0 : d.lt x d.one = false := by rw [← Bool.not_eq_true, L.lt, v1]; linarith
    unfold Dec.acosh
    rw [e0, if_neg (by simp)]
    simp only [Res.bind_eq, e1, e2, Res.bind_ok, hang t (hh.mpr hb')]
    rfl

/-- The start value of the square roots of the decimals of the examples. -/
theorem Demo.evenStart : Demo.evenLaws.SqrtStart Demo.real where
  pos x hx := by
    obtain ⟨v, s, h1, h2, h3, h4, h5⟩ := Demo.evenClose x hx
    refine ⟨v, s, h1, h2, h3, ?_, ?_⟩ <;> nlinarith [sq_nonneg (Demo.evenLaws.val s)]
  zero x hx := by
    have hx : x.1 = 0 := hx
    refine ⟨(x.1 : ℝ), ⟨0, by exact_mod_cast representable_nat (n := 0) (by decide)⟩, rfl, ?_, rfl⟩
    show (open Classical in if Demo.real.sqrt (x.1 : ℝ) < 1 then _ else _) = _
    have : Demo.real.sqrt (x.1 : ℝ) = 0 := by rw [hx]; simp [Demo.real]
    rw [this, if_pos (by norm_num)]
    simp only [zero_mul, Int.floor_zero, Int.cast_zero, zero_div]
    exact Demo.ofRat?_eq _ _

/-- `asec(2)` is near 60 degrees in radians; `asinh(2)` ends, `asinh(1.7320508075688772935274463416)` does not. -/
example : ∃ c, Demo.evenDec.context Demo.keys true Demo.real Config.new = .ok c ∧
    (∃ z, evalTokens (c.view Demo.keys) (callTokens (str "asec") [Demo.decimal 2]) = .ok z ∧ |(z.1 : ℝ) - Real.arccos (1 / 2)| ≤ 4 / 10 ^ 13) ∧
    (∃ z, evalTokens (c.view Demo.keys) (callTokens (str "asinh") [Demo.decimal 2]) = .ok z ∧ |(z.1 : ℝ) - Real.arsinh 2| ≤ 1 / 10 ^ 13) ∧
    evalTokens (c.view Demo.keys) (callTokens (str "asinh") [Demo.decimal 17320508075688772935274463416 28]) = .panic := by
  obtain ⟨c, hc, -⟩ := decimal_build Demo.keys true Demo.evenDec Demo.real Config.new
  have h2 : Demo.evenLaws.val (Demo.decimal 2) = 2 := by decide +kernel
  have hh : Demo.evenLaws.val (Demo.decimal 17320508075688772935274463416 28) = 17320508075688772935274463416 / 10 ^ 28 := by decide +kernel
  have hf : 100 ≤ Demo.evenDec.fuel := by decide
  obtain ⟨z, hz, hn⟩ := ((C68_ends Demo.keys true Demo.evenLaws Demo.evenTies (by omega) Demo.real Demo.evenStart Demo.evenClose Config.new c hc []
    (Demo.decimal 2)).2.2.2.2 (by rw [h2]; norm_num)).2
  have k := C95_ends_partial Demo.keys true Demo.evenLaws Demo.evenTies hf Demo.real Demo.evenStart Demo.evenClose Config.new c hc []
  obtain ⟨w, hw, nw⟩ := (k (Demo.decimal 2)).1 (by rw [h2, abs_of_pos] <;> norm_num) (by rw [h2, abs_of_pos] <;> norm_num)
  refine ⟨c, hc, ⟨z, hz, ?_⟩, ⟨w, hw, ?_⟩, (k _).2.1 (by rw [hh, abs_of_pos (by norm_num)])⟩
  · rw [h2] at hn
    push_cast at hn
    exact hn
  · rw [h2] at nw
    push_cast at nw
    exact nw

end Prexel
