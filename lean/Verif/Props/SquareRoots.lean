import Verif.Lemmas.Heron
import Verif.Props.DecimalRoots
import Verif.Examples.Roots
/-!
# Property C90: square roots of decimals up to 15 end, all but two
-/

set_option linter.unusedVariables false

namespace Prexel
variable {D F : Type} {d : Dec D F}

theorem representable_units {r : Rat} (h : Representable r) : ∃ m : Int, r * 10 ^ 28 = m := by
  obtain ⟨m, hm⟩ := Demo.representable_scaled h
  exact ⟨m, by rw [← hm]; norm_num⟩

/-- The decimals from 10^-28 to 15 are in the range of the method. -/
theorem heron_range {m : Int} (h1 : 0 < m) (h15 : m ≤ 15 * 10 ^ 28) : ∃ a, HeronRange (m * 10 ^ 28) a := by
  obtain ⟨n, rfl⟩ : ∃ n : Nat, m = n := ⟨m.toNat, by omega⟩
  have l := Nat.sqrt_le (n * 10 ^ 28)
  have u := Nat.lt_succ_sqrt (n * 10 ^ 28)
  have g : 10 ^ 14 ≤ Nat.sqrt (n * 10 ^ 28) := Nat.le_sqrt.mpr (by omega)
  have s : Nat.sqrt (n * 10 ^ 28) < 39 * 10 ^ 27 := Nat.sqrt_lt.mpr (by omega)
  refine ⟨(Nat.sqrt (n * 10 ^ 28) : Nat), ?_, ?_, ?_, ?_⟩
  · exact_mod_cast l
  · exact_mod_cast u
  · exact_mod_cast g
  · exact_mod_cast s

namespace Dec.Laws
variable (L : d.Laws)

/-- What the start of the loop looks like in units of the 28th digit. -/
theorem sqrt_start {f : F64 F} (S : L.SqrtClose f) {x : D} (h0 : 0 < L.val x) (h15 : L.val x ≤ 15) :
    ∃ (m a : Int) (s : D) (R : Int), L.val x * 10 ^ 28 = m ∧ L.val x * 10 ^ 56 = ((m * 10 ^ 28 : Int) : Rat) ∧ HeronRange (m * 10 ^ 28) a ∧
      L.val s * 10 ^ 28 = R ∧ NearRoot a R ∧ L.val d.zero ≠ L.val s ∧ ∀ g : D → Res D,
      (do let v ← Ops.orOverflow (d.toF64 x); let r ← Ops.orOverflow (d.fromF64 (f.sqrt v)); g r) = g s := by
  obtain ⟨m, hm⟩ := representable_units (L.range x)
  have m0 : 0 < m := by
    have : (0 : Rat) < m := by rw [← hm]; positivity
    exact_mod_cast this
  have m15 : m ≤ 15 * 10 ^ 28 := by
    have : (m : Rat) ≤ 15 * 10 ^ 28 := by rw [← hm]; linarith
    exact_mod_cast this
  obtain ⟨a, ha⟩ := heron_range m0 m15
  obtain ⟨v, s, e1, e2, s0, s1, s2⟩ := S x h0
  obtain ⟨R, hR⟩ := representable_units (L.range s)
  have hx56 : L.val x * 10 ^ 56 = ((m * 10 ^ 28 : Int) : Rat) := by push_cast; rw [← hm]; ring
  have hz0 : L.val d.zero = 0 := by have := L.nat 0 (by decide); exact_mod_cast this
  refine ⟨m, a, s, R, hm, hx56, ha, hR, ?_, by rw [hz0]; exact s0.ne, fun g => by
    simp [e1, e2, Ops.orOverflow, Res.ofOption, Res.bind_eq, Res.bind_ok]⟩
  have R0 : 0 < R := by
    have : (0 : Rat) < R := by rw [← hR]; positivity
    exact_mod_cast this
  have t1 : 998001 * (m * 10 ^ 28) ≤ 1000000 * (R * R) := by
    have : (998001 * ((m * 10 ^ 28 : Int) : Rat)) ≤ 1000000 * ((R : Rat) * R) := by
      rw [← hx56, ← hR]; linarith
    exact_mod_cast this
  have t2 : 1000000 * (R * R) ≤ 1002001 * (m * 10 ^ 28) := by
    have : 1000000 * ((R : Rat) * R) ≤ (1002001 * ((m * 10 ^ 28 : Int) : Rat)) := by
      rw [← hx56, ← hR]; linarith
    exact_mod_cast this
  have l := ha.low
  have u := ha.high
  have g := ha.large
  generalize m * 10 ^ 28 = X at *
  constructor
  · by_contra hc
    push Not at hc
    nlinarith
  · by_contra hc
    push Not at hc
    nlinarith

end Dec.Laws

/-- The loop up to 15. -/
theorem Dec.Laws.sqrt_settles (L : d.Laws) (E : L.TiesToEven) (hfuel : 6 ≤ d.fuel) {f : F64 F} (S : L.SqrtClose f) {x : D} (h0 : 0 < L.val x)
    (h15 : L.val x ≤ 15) (hh : ¬ Hangs (L.val x)) :
    ∃ z X a Z, d.sqrt f x = .ok z ∧ L.val x * 10 ^ 56 = (X : Int) ∧ HeronRange X a ∧ L.val z * 10 ^ 28 = (Z : Int) ∧ (Z = a ∨ Z = a + 1) ∧
      ∃ Q, Heron X Z Q Z := by
  obtain ⟨m, a, s, R, hm, hx, H, hR, hn, hz, hg⟩ := L.sqrt_start S h0 h15
  have hX : ¬ (a % 2 = 0 ∧ 2 * (m * 10 ^ 28) = 2 * (a * a) + 3 * a) := by
    rintro ⟨h1, h2⟩
    have := H.large
    refine hh ?_
    unfold Hangs
    rw [hm]
    rcases heron_exceptions (by omega) H.small h1 h2 with rfl | rfl
    · left; norm_num
    · right; norm_num
  obtain ⟨z, Z, hl, hv, hZ, hf⟩ := L.heron_ends E hx H hX d.fuel hfuel d.zero s R hR hn trivial fun h => absurd h hz
  refine ⟨z, _, a, Z, ?_, hx, H, hv, hZ, hf⟩
  unfold Dec.sqrt
  rw [(L.sign x).2 h0, if_neg (by simp), hg, hl]

/-- C90. With rounding half to even, the square root of every decimal up to 15 but two is found, after at most six rounds of the loop, and differs
from the real square root by at most one unit of the 28th digit behind the point; if the real square root is a decimal, it is found exactly.
Contracts: `TiesToEven`, `SqrtClose`. -/
theorem C90_up_to_15_partial (K : Keys) (debug : Bool) (L : d.Laws) (E : L.TiesToEven) (hfuel : 6 ≤ d.fuel) (f : F64 F) (S : L.SqrtClose f)
    (config : Config) (c : Context D) (hc : d.context K debug f config = .ok c) (os : List (Op D)) (x : D) (h0 : 0 < L.val x)
    (h15 : L.val x ≤ 15) (hh : ¬ Hangs (L.val x)) :
    ∃ z, evalTokens ((c.runAll K debug os).view K) (callTokens (str "sqrt") [x]) = .ok z ∧
      |(L.val z : ℝ) - Real.sqrt (L.val x : ℝ)| ≤ 1 / 10 ^ 28 ∧
      ∀ w : D, 0 ≤ L.val w → L.val w * L.val w = L.val x → L.val z = L.val w := by
  rw [decimal_call hc os (g := _) rfl]
  show ∃ z, d.sqrt f x = .ok z ∧ _
  obtain ⟨z, X, a, Z, hl, hx, H, hv, hZ, Q, hQ⟩ := L.sqrt_settles E hfuel S h0 h15 hh
  refine ⟨z, hl, ?_, ?_⟩
  · have hs0 := Real.sqrt_nonneg (L.val x : ℝ)
    have hss : Real.sqrt (L.val x : ℝ) * Real.sqrt (L.val x : ℝ) = L.val x := Real.mul_self_sqrt (by exact_mod_cast h0.le)
    have hxR : (L.val x : ℝ) * 10 ^ 56 = (X : ℝ) := by exact_mod_cast congrArg (Rat.cast (K := ℝ)) hx
    have la : (0 : ℝ) ≤ a := by have := H.large; exact_mod_cast (by omega : 0 ≤ a)
    have l : ((a : ℝ)) * a ≤ (X : ℝ) := by exact_mod_cast H.low
    have u : (X : ℝ) < ((a : ℝ) + 1) * (a + 1) := by exact_mod_cast H.high
    obtain ⟨r, hr⟩ : ∃ r, Real.sqrt (L.val x : ℝ) = r := ⟨_, rfl⟩
    rw [hr] at hs0 hss ⊢
    have e : (r * 10 ^ 28) * (r * 10 ^ 28) = (X : ℝ) := by linear_combination 10 ^ 56 * hss + hxR
    have b1 : (a : ℝ) ≤ r * 10 ^ 28 := by
      by_contra hc
      push Not at hc
      nlinarith
    have b2 : r * 10 ^ 28 < a + 1 := by
      by_contra hc
      push Not at hc
      nlinarith
    have hv' : (L.val z : ℝ) * 10 ^ 28 = Z := by exact_mod_cast congrArg (Rat.cast (K := ℝ)) hv
    have hZ' : (Z : ℝ) = a ∨ (Z : ℝ) = a + 1 := by
      rcases hZ with rfl | rfl
      · exact .inl rfl
      · right; push_cast; rfl
    rw [abs_le]
    rcases hZ' with h | h <;> constructor <;> linarith
  · intro w w0 hw
    obtain ⟨W, hW⟩ := representable_units (L.range w)
    have W0 : 0 ≤ W := by
      have : (0 : Rat) ≤ W := by rw [← hW]; positivity
      exact_mod_cast this
    have e : X = W * W := by
      have : (X : Rat) = W * W := by rw [← hx, ← hW, ← hw]; ring
      exact_mod_cast this
    have l := H.low
    have u := H.high
    have g := H.large
    have : W = a := by
      have h1 : a ≤ W := by
        by_contra hc
        push Not at hc
        nlinarith
      have h2 : W < a + 1 := by
        by_contra hc
        push Not at hc
        nlinarith
      omega
    subst this
    have hZW : Z = W := by
      rcases hZ with h | h
      · exact h
      · subst h; rw [e] at hQ; exact (hQ.square (by omega)).elim
    rw [hZW, ← hW] at hv
    exact mul_right_cancel₀ (by norm_num) hv

/-- C90, counterexample. The square roots of 4.0000000000000000000000000003 and of 3.9720354828415177818323744671 are never found: the loop does
not end, however many rounds are allowed. (The evaluation is without end; the model stops after `d.fuel` rounds, whatever that is.) -/
theorem C90_hangs_counterexample (K : Keys) (debug : Bool) (L : d.Laws) (E : L.TiesToEven) (f : F64 F) (S : L.SqrtClose f)
    (config : Config) (c : Context D) (hc : d.context K debug f config = .ok c) (os : List (Op D)) (x : D) (hh : Hangs (L.val x)) :
    evalTokens ((c.runAll K debug os).view K) (callTokens (str "sqrt") [x]) = .panic ∧
    ∀ v s, d.toF64 x = some v → d.fromF64 (f.sqrt v) = some s → ∀ rounds, d.sqrtLoop x rounds d.zero s = .panic := by
  rw [decimal_call hc os (g := _) rfl]
  show d.sqrt f x = .panic ∧ _
  have h0 : 0 < L.val x := by rcases hh with h | h <;> linarith
  have h15 : L.val x ≤ 15 := by rcases hh with h | h <;> linarith
  obtain ⟨m, a, s, R, hm, hx, H, hR, hn, hz, hg⟩ := L.sqrt_start S h0 h15
  have key : a % 2 = 0 ∧ 2 * (m * 10 ^ 28) = 2 * (a * a) + 3 * a := by
    have l := H.low
    have u := H.high
    have g := H.large
    unfold Hangs at hh
    rw [hm] at hh
    rcases hh with h | h
    · have hm' : m = 39720354828415177818323744671 := by exact_mod_cast h
      subst hm'
      have : a = 19929966088384389877319335936 := by
        have h1 : 19929966088384389877319335936 ≤ a := by
          by_contra hc
          have : a + 1 ≤ 19929966088384389877319335936 := by omega
          nlinarith
        have h2 : a ≤ 19929966088384389877319335936 := by
          by_contra hc
          have : 19929966088384389877319335937 ≤ a := by omega
          nlinarith
        omega
      subst this
      constructor <;> norm_num
    · have hm' : m = 40000000000000000000000000003 := by exact_mod_cast h
      subst hm'
      have : a = 20000000000000000000000000000 := by
        have h1 : 20000000000000000000000000000 ≤ a := by
          by_contra hc
          have : a + 1 ≤ 20000000000000000000000000000 := by omega
          nlinarith
        have h2 : a ≤ 20000000000000000000000000000 := by
          by_contra hc
          have : 20000000000000000000000000001 ≤ a := by omega
          nlinarith
        omega
      subst this
      constructor <;> norm_num
  have loop : ∀ rounds, d.sqrtLoop x rounds d.zero s = .panic :=
    fun n => L.heron_hangs E hx H key.1 key.2 n d.zero s R hR hn hz
  constructor
  · unfold Dec.sqrt
    rw [(L.sign x).2 h0, if_neg (by simp), hg, loop]
  · intro v s' e1 e2 rounds
    have := hg fun r => .ok r
    simp [e1, e2, Ops.orOverflow, Res.ofOption, Res.bind_eq, Res.bind_ok] at this
    rw [this]
    exact loop rounds

/-- C90. The square root of the square of a whole number below 2^26 is that number, exactly, whatever the rounding. Contract: `SqrtExact`. -/
theorem C90_squares (K : Keys) (debug : Bool) (L : d.Laws) (hfuel : 1 ≤ d.fuel) (f : F64 F) (S : L.SqrtExact f)
    (config : Config) (c : Context D) (hc : d.context K debug f config = .ok c) (os : List (Op D)) (x : D) (n : Nat) (hn : n < 2 ^ 26)
    (hx : L.val x = (n : Rat) ^ 2) (hs : d.isSignNegative x = false) :
    ∃ z, evalTokens ((c.runAll K debug os).view K) (callTokens (str "sqrt") [x]) = .ok z ∧ L.val z = n := by
  rw [decimal_call hc os (g := _) rfl]
  show ∃ z, d.sqrt f x = .ok z ∧ _
  obtain ⟨v, s, e1, e2, hv⟩ := S x n hn hx
  have hz0 : L.val d.zero = 0 := by have := L.nat 0 (by decide); exact_mod_cast this
  unfold Dec.sqrt
  rw [hs, if_neg (by simp)]
  simp only [e1, e2, Ops.orOverflow, Res.ofOption, Res.bind_eq, Res.bind_ok]
  obtain ⟨fuel, hf⟩ : ∃ m, d.fuel = m + 1 := ⟨d.fuel - 1, by omega⟩
  rw [hf]
  by_cases he : d.eq d.zero s = true
  · exact ⟨s, by simp [Dec.sqrtLoop, he], hv⟩
  have hn0 : n ≠ 0 := by
    rintro rfl
    exact he ((L.eq _ _).mpr (by rw [hz0, hv]; rfl))
  have n0 : (n : Rat) ≠ 0 := by exact_mod_cast hn0
  have hnR : ∀ k : Nat, k < 2 ^ 96 → Representable (k : Rat) := fun k hk => by
    have := (representable_int (n := (k : Int))).mpr (by simpa using hk)
    exact_mod_cast this
  have eq : L.val x / L.val s = n := by rw [hx, hv]; field_simp
  have r1 : Representable (L.val x / L.val s) := by rw [eq]; exact hnR n (by omega)
  obtain ⟨z1, d1, k1⟩ := L.div x s (by rw [hv]; exact n0) (representable_bounded r1)
  have v1 := k1.eq r1
  rw [eq] at v1
  have es : L.val z1 + L.val s = ((2 * n : Nat) : Rat) := by rw [v1, hv]; push_cast; ring
  have r2 : Representable (L.val z1 + L.val s) := by rw [es]; exact hnR _ (by omega)
  obtain ⟨z2, d2, k2⟩ := L.add z1 s (representable_bounded r2)
  have v2 := k2.eq r2
  rw [es] at v2
  have em : L.val d.half * L.val z2 = n := by rw [v2, L.half]; push_cast; ring
  have r3 : Representable (L.val d.half * L.val z2) := by rw [em]; exact hnR n (by omega)
  obtain ⟨z3, d3, k3⟩ := L.mul d.half z2 (representable_bounded r3)
  have v3 := k3.eq r3
  rw [em] at v3
  have heq : d.eq s z3 = true := (L.eq _ _).mpr (by rw [hv, v3])
  refine ⟨z3, ?_, v3⟩
  rw [Dec.sqrtLoop]
  simp only [he, Bool.false_eq_true, if_false, Dec.cdiv, Dec.cadd, Dec.cmul, d1, d2, d3, Ops.orOverflow, Res.ofOption, Res.bind_eq, Res.bind_ok]
  cases fuel <;> simp [Dec.sqrtLoop, heq]

/-! ## Decimals that meet the contracts -/

namespace Demo

/-- Rounding half to even. -/
def toEven (q : Rat) : Int :=
  if q - q.floor < 1 / 2 then q.floor else if 1 / 2 < q - q.floor then q.floor + 1 else if q.floor % 2 = 0 then q.floor else q.floor + 1

theorem toEven_near (q : Rat) : NearestEven (toEven q) q := by
  have h1 := Rat.floor_le q
  have h2 : q < q.floor + 1 := by have := Rat.lt_floor_add_one q; push_cast at this; exact this
  unfold NearestEven toEven
  generalize q.floor = n at *
  split
  · refine ⟨by linarith, by linarith, ?_⟩
    rintro (h | h) <;> linarith
  · split
    · push_cast
      refine ⟨by linarith, by linarith, ?_⟩
      rintro (h | h) <;> linarith
    · split
      · exact ⟨by linarith, by linarith, fun _ => by assumption⟩
      · push_cast
        exact ⟨by linarith, by linarith, fun _ => by omega⟩

theorem toEven_rounded {q : Rat} {r : Int} : ((r : Rat) ≤ q → r ≤ toEven q) ∧ (q ≤ r → toEven q ≤ r) := by
  obtain ⟨h1, h2, h3⟩ := toEven_near q
  generalize toEven q = n at *
  constructor
  · intro h
    by_contra hc
    have hn : n + 1 ≤ r := by omega
    have : ((n : Rat)) + 1 ≤ r := by exact_mod_cast hn
    linarith
  · intro h
    by_contra hc
    have hn : r + 1 ≤ n := by omega
    have : ((r : Rat)) + 1 ≤ n := by exact_mod_cast hn
    linarith

theorem toEven_representable {q : Rat} (h : Bounded 7 q) : Representable ((toEven (q * 10 ^ 28) : Rat) / 10 ^ 28) := by
  obtain ⟨h1, h2, -⟩ := toEven_near (q * 10 ^ 28)
  obtain ⟨b1, b2⟩ := h
  generalize toEven (q * 10 ^ 28) = n at *
  refine ⟨28, by omega, n, ?_, by push_cast; ring⟩
  have l : -(71 * 10 ^ 27 : Int) ≤ n := by
    have : ((-(71 * 10 ^ 27) : Int) : Rat) ≤ n := by push_cast; linarith
    exact_mod_cast this
  have u : n ≤ (71 * 10 ^ 27 : Int) := by
    have : (n : Rat) ≤ ((71 * 10 ^ 27 : Int) : Rat) := by push_cast; linarith
    exact_mod_cast this
  omega

/-- Rounded half to even after 28 digits if that fits, otherwise down. -/
noncomputable def even? (q : Rat) : Option Decimal :=
  open Classical in if h : Bounded 7 q then some ⟨_, toEven_representable h⟩ else near? q

theorem even?_small {q : Rat} (h : Bounded 7 q) : even? q = some ⟨_, toEven_representable h⟩ := by
  unfold even?; rw [dif_pos h]

theorem even?_rounded {q : Rat} (h : Bounded maxDecimal q) : ∃ z, even? q = some z ∧ Rounded z.1 q := by
  by_cases h7 : Bounded 7 q
  · refine ⟨_, even?_small h7, fun r hr => ?_⟩
    obtain ⟨m, hm⟩ := representable_units hr
    have e : r = m / 10 ^ 28 := by rw [eq_div_iff (by norm_num)]; exact hm
    obtain ⟨t1, t2⟩ := toEven_rounded (q := q * 10 ^ 28) (r := m)
    rw [e]
    constructor
    · intro hle
      rw [div_le_iff₀ (by norm_num)] at hle
      have := t1 hle
      have : (m : Rat) ≤ (toEven (q * 10 ^ 28) : Rat) := by exact_mod_cast this
      exact div_le_div_of_nonneg_right this (by norm_num)
    · intro hle
      rw [le_div_iff₀ (by norm_num)] at hle
      have := t2 hle
      have : (toEven (q * 10 ^ 28) : Rat) ≤ (m : Rat) := by exact_mod_cast this
      exact div_le_div_of_nonneg_right this (by norm_num)
  · unfold even?
    rw [dif_neg h7]
    exact near?_rounded h

theorem even?_beyond {q : Rat} (h : Beyond q) : even? q = none := by
  have h7 : ¬ Bounded 7 q := by
    rintro ⟨h1, h2⟩
    rcases h with h | h <;> push_cast at h <;> linarith
  unfold even?
  rw [dif_neg h7]
  exact near?_beyond h

/-- Decimals that round half to even, over real floats. -/
noncomputable def evenDec : Dec Decimal ℝ :=
  { realDec with
    fromF64 := fun y => open Classical in if y < 1 then ofRat? ((⌊y * 10 ^ 28⌋ : Rat) / 10 ^ 28) else ofRat? ((⌊y * 10 ^ 14⌋ : Rat) / 10 ^ 14)
    checkedMul := fun x y => even? (x.1 * y.1)
    checkedDiv := fun x y => if y.1 = 0 then none else even? (x.1 / y.1) }

/-- They satisfy the contract of decimals. -/
noncomputable def evenLaws : evenDec.Laws :=
  { realDecLaws with
    mul := fun x y h => even?_rounded h
    div := fun x y h0 h => by
      have h0 : y.1 ≠ 0 := h0
      simp only [evenDec, h0, if_false]
      exact even?_rounded h
    mulOver := fun x y h => even?_beyond h
    divZero := fun x y h => by
      have h : y.1 = 0 := h
      simp [evenDec, h] }

theorem evenTies : evenLaws.TiesToEven where
  mul x y z h e := by
    have e : even? (x.1 * y.1) = some z := e
    have h : Bounded 7 (x.1 * y.1) := h
    rw [even?_small h] at e
    cases e
    exact ⟨_, div_mul_cancel₀ _ (by norm_num), toEven_near _⟩
  div x y z h0 h e := by
    have h0 : y.1 ≠ 0 := h0
    have e : (if y.1 = 0 then none else even? (x.1 / y.1)) = some z := e
    have h : Bounded 7 (x.1 / y.1) := h
    rw [if_neg h0, even?_small h] at e
    cases e
    exact ⟨_, div_mul_cancel₀ _ (by norm_num), toEven_near _⟩

theorem evenClose : evenLaws.SqrtClose real := by
  intro x hx
  have hx : 0 < x.1 := hx
  have h1 : (1 : ℝ) / 10 ^ 28 ≤ x.1 := by
    have := (Rat.cast_le (K := ℝ)).mpr (representable_pos x.2 hx)
    push_cast at this
    exact this
  have h2 : (x.1 : ℝ) ≤ 8 * 10 ^ 28 := by
    have h := (representable_bounded x.2).2
    rw [maxDecimal_eq] at h
    have := (Rat.cast_le (K := ℝ)).mpr h
    push_cast at this
    linarith
  obtain ⟨y, hy⟩ : ∃ y, Real.sqrt x.1 = y := ⟨_, rfl⟩
  have hy0 : 0 ≤ y := by rw [← hy]; exact Real.sqrt_nonneg _
  have hyy : y ^ 2 = x.1 := by rw [← hy]; exact Real.sq_sqrt (by exact_mod_cast hx.le)
  have l1 : 1 / 10 ^ 14 ≤ y := by
    by_contra h
    push Not at h
    nlinarith
  have l2 : y ≤ 3 * 10 ^ 14 := by
    by_contra h
    push Not at h
    nlinarith
  obtain ⟨k, hk28, hky, hkf, hku⟩ : ∃ k, k ≤ 28 ∧ 10 ^ 14 ≤ y * 10 ^ k ∧ y * 10 ^ k ≤ 3 * 10 ^ 28 ∧
      evenDec.fromF64 y = ofRat? ((⌊y * 10 ^ k⌋ : Rat) / 10 ^ k) := by
    by_cases h : y < 1
    · exact ⟨28, le_refl _, by linarith, by linarith, by simp only [evenDec, if_pos h]⟩
    · exact ⟨14, by omega, by linarith, by linarith, by simp only [evenDec, if_neg h]⟩
  have f1 := Int.floor_le (y * 10 ^ k)
  have f2 := Int.lt_floor_add_one (y * 10 ^ k)
  have f4 : ⌊y * 10 ^ k⌋ ≤ (3 * 10 ^ 28 : Int) := by
    have : ((⌊y * 10 ^ k⌋ : Int) : ℝ) ≤ ((3 * 10 ^ 28 : Int) : ℝ) := by push_cast; linarith
    exact_mod_cast this
  have f3 : (1 : Int) ≤ ⌊y * 10 ^ k⌋ := by
    rw [Int.le_floor]; push_cast; linarith
  obtain ⟨c, hc⟩ : ∃ c, ⌊y * 10 ^ k⌋ = c := ⟨_, rfl⟩
  rw [hc] at f1 f2 f3 f4 hku
  have hp : (0 : ℝ) < 10 ^ k := by positivity
  have hpQ : (0 : Rat) < 10 ^ k := by positivity
  have hr : Representable ((c : Rat) / 10 ^ k) := ⟨k, hk28, c, by omega, by push_cast; rw [div_mul_cancel₀ _ hpQ.ne']⟩
  have hz : ((c : ℝ) / 10 ^ k) * 10 ^ k = c := div_mul_cancel₀ _ hp.ne'
  have z0 : 0 ≤ (c : ℝ) / 10 ^ k := by
    have : (1 : ℝ) ≤ c := by exact_mod_cast f3
    positivity
  have zy : (c : ℝ) / 10 ^ k ≤ y := by rw [div_le_iff₀ hp]; exact f1
  have yz : 999 * y ≤ 1000 * ((c : ℝ) / 10 ^ k) := by
    rw [← mul_le_mul_iff_of_pos_right hp]
    nlinarith
  refine ⟨(x.1 : ℝ), ⟨_, hr⟩, rfl, ?_, ?_, ?_, ?_⟩
  · show evenDec.fromF64 (Real.sqrt (x.1 : ℝ)) = _
    rw [hy, hku]
    exact ofRat?_eq _ hr
  · show 0 < (c : Rat) / 10 ^ k
    have : (0 : Rat) < c := by exact_mod_cast (by omega : (0 : Int) < c)
    positivity
  · show 998001 * x.1 ≤ 1000000 * ((c : Rat) / 10 ^ k) ^ 2
    have : 998001 * (x.1 : ℝ) ≤ 1000000 * ((c : ℝ) / 10 ^ k) ^ 2 := by
      rw [← hyy]
      nlinarith
    exact_mod_cast this
  · show 1000000 * ((c : Rat) / 10 ^ k) ^ 2 ≤ 1002001 * x.1
    have : 1000000 * ((c : ℝ) / 10 ^ k) ^ 2 ≤ 1002001 * (x.1 : ℝ) := by
      rw [← hyy]
      nlinarith
    exact_mod_cast this

end Demo

/-- `sqrt(2)` ends, `sqrt(4.0000000000000000000000000003)` does not. -/
example : ∃ c, Demo.evenDec.context Demo.keys true Demo.real Config.new = .ok c ∧
    (∃ z, evalTokens (c.view Demo.keys) (callTokens (str "sqrt") [Demo.decimal 2]) = .ok z ∧ |(z.1 : ℝ) - Real.sqrt 2| ≤ 1 / 10 ^ 28) ∧
    evalTokens (c.view Demo.keys) (callTokens (str "sqrt") [Demo.decimal 40000000000000000000000000003 28]) = .panic := by
  obtain ⟨c, hc, -⟩ := decimal_build Demo.keys true Demo.evenDec Demo.real Config.new
  have h2 : (Demo.decimal 2).1 = 2 := by decide +kernel
  have h4 : (Demo.decimal 40000000000000000000000000003 28).1 * 10 ^ 28 = 40000000000000000000000000003 := by decide +kernel
  refine ⟨c, hc, ?_, (C90_hangs_counterexample Demo.keys true Demo.evenLaws Demo.evenTies Demo.real Demo.evenClose Config.new c hc [] _
    (.inr h4)).1⟩
  obtain ⟨z, hz, hn, -⟩ := C90_up_to_15_partial Demo.keys true Demo.evenLaws Demo.evenTies (by decide) Demo.real Demo.evenClose Config.new c hc []
    (Demo.decimal 2) (by show 0 < (Demo.decimal 2).1; rw [h2]; norm_num) (by show (Demo.decimal 2).1 ≤ 15; rw [h2]; norm_num) (by
      show ¬ Hangs (Demo.decimal 2).1
      rw [h2]
      unfold Hangs
      norm_num)
  refine ⟨z, hz, ?_⟩
  have hn : |(z.1 : ℝ) - Real.sqrt ((Demo.decimal 2).1 : ℝ)| ≤ 1 / 10 ^ 28 := hn
  rw [h2] at hn
  exact_mod_cast hn

theorem Demo.evenExact : Demo.evenLaws.SqrtExact Demo.real := by
  intro x n hn hx
  have hx : x.1 = (n : Rat) ^ 2 := hx
  have hr : Representable (n : Rat) := by
    have := (representable_int (n := (n : Int))).mpr (by simpa using (by omega : n < 2 ^ 96))
    exact_mod_cast this
  refine ⟨(x.1 : ℝ), ⟨(n : Rat), hr⟩, rfl, ?_, rfl⟩
  have hy : Real.sqrt (x.1 : ℝ) = n := by
    rw [hx]
    push_cast
    exact Real.sqrt_sq (Nat.cast_nonneg n)
  show Demo.evenDec.fromF64 (Real.sqrt (x.1 : ℝ)) = _
  rw [hy]
  have f : ∀ k : Nat, (⌊(n : ℝ) * 10 ^ k⌋ : Rat) / 10 ^ k = n := by
    intro k
    rw [show (n : ℝ) * 10 ^ k = ((n * 10 ^ k : Int) : ℝ) by push_cast; rfl, Int.floor_intCast]
    push_cast
    field_simp
  have g : Demo.ofRat? (n : Rat) = some ⟨(n : Rat), hr⟩ := Demo.ofRat?_eq _ hr
  simp only [Demo.evenDec, f, g, ite_self]

/-- `sqrt(16)` is 4. -/
example : ∃ c, Demo.evenDec.context Demo.keys true Demo.real Config.new = .ok c ∧
    ∃ z, evalTokens (c.view Demo.keys) (callTokens (str "sqrt") [Demo.decimal 16]) = .ok z ∧ z.1 = 4 := by
  obtain ⟨c, hc, -⟩ := decimal_build Demo.keys true Demo.evenDec Demo.real Config.new
  have h16 : (Demo.decimal 16).1 = 16 := by decide +kernel
  exact ⟨c, hc, C90_squares Demo.keys true Demo.evenLaws (by decide) Demo.real Demo.evenExact Config.new c hc [] (Demo.decimal 16) 4 (by norm_num)
    (by show (Demo.decimal 16).1 = _; rw [h16]; norm_num) ((Demo.evenLaws.sign _).2 (by show 0 < (Demo.decimal 16).1; rw [h16]; norm_num))⟩

end Prexel
