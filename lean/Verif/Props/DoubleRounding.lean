import Verif.Props.DoublePowers
import Verif.Props.DoubleRoots
import Verif.Props.DoubleFunctions
/-!
# abs, sign and trunc over `f64` (C160), and the rounding functions of integers (C161)
-/

namespace Prexel
open B64

/-- The name of the function that cuts off the fraction, with and without documentation. -/
def cutName (docs : Bool) : Str := if docs then str "trunc" else str "truncate"

/-- The name of the function that gives the sign, with and without documentation. -/
def signumName (docs : Bool) : Str := if docs then str "signum" else str "sign"

/-- `n` is `y` without its fraction. -/
def WholePart (y : ℚ) (n : ℤ) : Prop := |(n : ℚ)| ≤ |y| ∧ |y| < |(n : ℚ)| + 1 ∧ 0 ≤ n * y

theorem wholePart_cut (y : ℚ) : WholePart y (cut y) := by
  unfold WholePart cut
  split
  · next h =>
    have h1 : ((⌈y⌉ : ℤ) : ℚ) ≤ 0 := by
      have : ⌈y⌉ ≤ 0 := Int.ceil_le.mpr (by simpa using h.le)
      exact_mod_cast this
    rw [abs_of_nonpos h1, abs_of_neg h]
    have := Int.le_ceil y
    have := Int.ceil_lt_add_one y
    exact ⟨by linarith, by linarith, mul_nonneg_of_nonpos_of_nonpos h1 h.le⟩
  · next h =>
    have h := not_lt.mp h
    have h1 : (0 : ℚ) ≤ ((⌊y⌋ : ℤ) : ℚ) := by exact_mod_cast Int.floor_nonneg.mpr h
    rw [abs_of_nonneg h1, abs_of_nonneg h]
    have := Int.floor_le y
    have := Int.lt_floor_add_one y
    exact ⟨by linarith, by linarith, mul_nonneg h1 h⟩

namespace B64

/-- Snapping keeps the sign, also that of zero. -/
theorem snap_sign {lib : Libm} {draw : B64} {x : B64} (hx : x.isFin) : (snap (f64 lib draw) x).sign = x.sign := by
  have key : (whole awayFromZero x).sign = x.sign := by
    rw [whole_fin _ hx]
    obtain ⟨h1, h2, h3⟩ := of_sign x.sign ((awayFromZero x.val : ℤ) : ℚ)
    have hn := away_near x.val
    rw [abs_le] at hn
    rcases lt_trichotomy (awayFromZero x.val) 0 with h | h | h
    · have hq : ((awayFromZero x.val : ℤ) : ℚ) < 0 := by exact_mod_cast h
      have hq1 : ((awayFromZero x.val : ℤ) : ℚ) ≤ (-1 : ℤ) := by exact_mod_cast (by omega : awayFromZero x.val ≤ -1)
      push_cast at hq1
      rw [h1 hq, sign_fin_neg hx (by linarith)]
    · exact h3 (by rw [h]; rfl)
    · have hq : 0 < ((awayFromZero x.val : ℤ) : ℚ) := by exact_mod_cast h
      have hq1 : ((1 : ℤ) : ℚ) ≤ ((awayFromZero x.val : ℤ) : ℚ) := by exact_mod_cast (by omega : 1 ≤ awayFromZero x.val)
      push_cast at hq1
      rw [h2 hq, sign_fin_pos hx (by linarith)]
  unfold snap
  split
  · exact key
  · rfl

theorem signum_fin {x : B64} (hx : x.isFin) : (signum x).isFin ∧ (signum x).val = if x.sign then -1 else 1 := by
  obtain ⟨a, k, hk, rfl⟩ := isFin_fin hx
  have h1 : IsDouble 1 := by simpa using isDouble_int (n := 1) (by norm_num)
  unfold signum
  rw [sign_fin]
  cases a
  · exact of_double false h1
  · exact of_double false (isDouble_neg.mpr h1)

/-- A whole number that is rounded is a whole number. -/
theorem rnd_whole (n : ℤ) : ∃ m : ℤ, rnd (n : ℚ) = m := by
  by_cases h : |n| ≤ 2 ^ 53
  · exact ⟨n, rnd_keep (isDouble_int h)⟩
  · by_cases hl : TooLarge (n : ℚ)
    · -- the units of a large number
      have hk : ∀ q : ℚ, 2 ^ 53 ≤ q → ∃ m : ℤ, rnd q = m := by
        intro q hq
        have hq0 : 0 ≤ q := le_trans (by norm_num) hq
        rw [rnd_nonneg hq0]
        have hp := perOne_pos
        have hw := units_wide (t := q * perOne) (by positivity)
        have h2 : (2 ^ 53 * perOne : ℕ) ≤ units (q * perOne) := by
          have hd : IsDouble (2 ^ 53) := ⟨2 ^ 52, 1, by norm_num, by norm_num, by norm_num, by norm_num⟩
          have := rnd_mono hq
          rw [rnd_keep hd, rnd_nonneg hq0, le_div_iff₀ hp] at this
          exact_mod_cast this
        have hs : 1074 ≤ spacing (units (q * perOne)) := by
          unfold spacing
          have h3 : (2 ^ 1127 : ℕ) ≤ units (q * perOne) := by
            refine le_trans (le_of_eq ?_) h2
            unfold perOne
            rw [← pow_add]
          have := (Nat.le_log2 (by have := Nat.two_pow_pos 1127; omega)).mpr h3
          omega
        obtain ⟨c, hc⟩ := (Nat.pow_dvd_pow 2 hs).trans hw
        refine ⟨c, ?_⟩
        rw [hc]
        push_cast
        rw [show ((perOne : ℕ) : ℚ) = 2 ^ 1074 by unfold perOne; push_cast; rfl]
        rw [mul_comm, mul_div_assoc, div_self (by positivity), mul_one]
      push Not at h
      rcases le_total 0 n with h0 | h0
      · rw [abs_of_nonneg h0] at h
        exact hk n (by exact_mod_cast h.le)
      · rw [abs_of_nonpos h0] at h
        obtain ⟨m, hm⟩ := hk (-n : ℤ) (by exact_mod_cast h.le)
        refine ⟨-m, ?_⟩
        push_cast at hm ⊢
        rw [rnd_neg] at hm
        linarith
    · have hr := (rnd_nearest hl).1
      refine (double_whole hr).1 ?_ |>.imp fun _ => id
      push Not at h
      rcases le_total 0 n with h0 | h0
      · rw [abs_of_nonneg h0] at h
        have h1 : IsDouble (2 ^ 53) := ⟨2 ^ 52, 1, by norm_num, by norm_num, by norm_num, by norm_num⟩
        have h2 : (2 : ℚ) ^ 53 ≤ n := by exact_mod_cast h.le
        have := rnd_mono h2
        rw [rnd_keep h1] at this
        exact le_trans (by norm_num) (this.trans (le_abs_self _))
      · rw [abs_of_nonpos h0] at h
        have h1 : IsDouble (2 ^ 53) := ⟨2 ^ 52, 1, by norm_num, by norm_num, by norm_num, by norm_num⟩
        have h2 : (2 : ℚ) ^ 53 ≤ -(n : ℚ) := by exact_mod_cast h.le
        have := rnd_mono h2
        rw [rnd_keep h1, rnd_neg] at this
        exact le_trans (by norm_num) (this.trans (neg_le_abs _))

end B64

section
variable {K : Keys} {debug docs : Bool} {lib : Libm} {draw : B64}

/-- C160. Over `f64`, in the checked context, for finite numbers: `abs` gives the absolute value, the sign function -1 for negative and 1 for positive
numbers, and the truncation the whole part of what the number is taken for. -/
theorem C160_floats_partial {config : Config} {c : Context B64}
    (hc : Context.checked K debug docs (f64 lib draw) ((f64 lib draw).num B64.num) config = .ok c) (os : List (Op B64)) (x : B64) (hx : x.isFin) :
    let call := fun name => evalTokens ((c.runAll K debug os).view K) (callTokens name [x])
    (∃ r, call (str "abs") = .ok r ∧ r.isFin ∧ r.val = |x.val|) ∧
    (∃ r, call (signumName docs) = .ok r ∧ r.isFin ∧ (0 < x.val → r.val = 1) ∧ (x.val < 0 → r.val = -1)) ∧
    (∀ y, TakenFor x.val y → ∃ r, ∃ n : ℤ, call (cutName docs) = .ok r ∧ r.isFin ∧ r.val = n ∧ WholePart y n) := by
  intro call
  refine ⟨?_, ?_, fun y hy => ?_⟩
  · have hr : call (str "abs") = (Ops.checkedAbs ((f64 lib draw).num B64.num)).fn [x] := checked_call hc os (by cases docs <;> rfl) [x]
    rw [hr]
    have hz : (lit 0).isFin ∧ (lit 0).val = 0 := lit_double (by simpa using isDouble_int (n := 0) (by norm_num))
    show ∃ r, (if ge x (lit 0) = true then Res.ok x else Ops.orOverflow (some (neg x))) = .ok r ∧ _
    by_cases h : 0 ≤ x.val
    · rw [if_pos ((ge_fin hx hz.1).mpr (by rw [hz.2]; exact h))]
      exact ⟨x, rfl, hx, (abs_of_nonneg h).symm⟩
    · rw [if_neg (by rw [ge_fin hx hz.1, hz.2]; exact h)]
      obtain ⟨h1, h2, -⟩ := neg_fin hx
      exact ⟨_, rfl, h1, by rw [h2, abs_of_neg (not_le.mp h)]⟩
  · have hr : call (signumName docs) = .ok (signum (snap (f64 lib draw) x)) := by
      exact float_call (h := (f64 lib draw).signum) hc os (by cases docs <;> rfl) x hx
    obtain ⟨y, hy, -⟩ := TakenFor.unique x.val
    obtain ⟨h1, h2⟩ := signum_fin (snap_taken (lib := lib) (draw := draw) hx hy).1
    rw [snap_sign hx] at h2
    refine ⟨_, hr, h1, fun h => ?_, fun h => ?_⟩
    · rw [h2, sign_fin_pos hx h]; rfl
    · rw [h2, sign_fin_neg hx h]; rfl
  · have hr : call (cutName docs) = .ok (whole cut (snap (f64 lib draw) x)) := by
      exact float_call (h := (f64 lib draw).trunc) hc os (by cases docs <;> rfl) x hx
    obtain ⟨h1, h2⟩ := snap_taken (lib := lib) (draw := draw) hx hy
    obtain ⟨h3, h4⟩ := whole_exact cut h1 (cut_near _)
    rw [h2] at h4
    exact ⟨_, _, hr, h3, h4, wholePart_cut y⟩

/-- C160 is false of the code for zero: the sign is documented as -1, 0 or 1, but it is -1 or 1, also for zero and minus zero. -/
theorem C160_zero_counterexample {config : Config} {c : Context B64}
    (hc : Context.checked K debug docs (f64 lib draw) ((f64 lib draw).num B64.num) config = .ok c) (os : List (Op B64)) (x : B64)
    (hx : x.isFin) : ∃ r, evalTokens ((c.runAll K debug os).view K) (callTokens (signumName docs) [x]) = .ok r ∧ r.isFin ∧
      r.val = if x.sign then -1 else 1 := by
  have hr : evalTokens ((c.runAll K debug os).view K) (callTokens (signumName docs) [x]) = .ok (signum (snap (f64 lib draw) x)) := by
    exact float_call (h := (f64 lib draw).signum) hc os (by cases docs <;> rfl) x hx
  obtain ⟨y, hy, -⟩ := TakenFor.unique x.val
  obtain ⟨h1, h2⟩ := signum_fin (snap_taken (lib := lib) (draw := draw) hx hy).1
  rw [snap_sign hx] at h2
  exact ⟨_, hr, h1, h2⟩

/-- C160 is false of the code for numbers less than 1e-10 below a whole number: the whole part is that whole number. -/
theorem C160_cut_counterexample {config : Config} {c : Context B64}
    (hc : Context.checked K debug docs (f64 lib draw) ((f64 lib draw).num B64.num) config = .ok c) (os : List (Op B64)) (x : B64) (hx : x.isFin)
    (n : ℤ) (hn : 0 < n) (h1 : n - 1 / 10 ^ 10 ≤ x.val) (h2 : x.val < n) :
    ∃ r, evalTokens ((c.runAll K debug os).view K) (callTokens (cutName docs) [x]) = .ok r ∧ r.isFin ∧ r.val = n ∧ ¬ WholePart x.val n := by
  have he : 1 / 10 ^ 10 < snapDistance := by unfold snapDistance; decide +kernel
  have ht : TakenFor x.val n := .inl ⟨n, by rw [abs_lt]; constructor <;> linarith, rfl⟩
  obtain ⟨r, m, h3, h4, h5, h6⟩ := (C160_floats_partial hc os x hx).2.2 _ ht
  have hnq : (0 : ℚ) < n := by exact_mod_cast hn
  have hmn : m = n := by
    obtain ⟨k1, k2, k3⟩ := h6
    rw [abs_of_pos hnq] at k1 k2
    have hm0 : 0 ≤ (m : ℚ) := by
      by_contra hcn
      push Not at hcn
      exact absurd k3 (not_le.mpr (mul_neg_of_neg_of_pos hcn hnq))
    rw [abs_of_nonneg hm0] at k1 k2
    have k1' : m ≤ n := by exact_mod_cast k1
    have k2' : n < m + 1 := by exact_mod_cast k2
    omega
  subst hmn
  refine ⟨r, h3, h4, h5, fun hw => ?_⟩
  have h7 : (1 : ℚ) ≤ m := by exact_mod_cast hn
  have h8 : 0 ≤ x.val := by
    have : (1 : ℚ) / 10 ^ 10 ≤ 1 := by norm_num
    linarith
  have := hw.1
  rw [abs_of_pos hnq, abs_of_nonneg h8] at this
  linarith

/-- The hypotheses are met: -5/2, 0, and 2.99999999995. -/
example : (lit (-5 / 2)).isFin ∧ TakenFor (lit (-5 / 2)).val (-5 / 2) ∧ WholePart (-5 / 2) (-2) ∧ (lit 0).isFin ∧ (lit 0).val = 0 ∧
    (((3 : ℤ) : ℚ) - 1 / 10 ^ 10 ≤ (lit (299999999995 / 10 ^ 11)).val ∧ (lit (299999999995 / 10 ^ 11)).val < (3 : ℤ)) := by
  have e : (lit (-5 / 2)).val = -5 / 2 := by decide +kernel
  refine ⟨⟨by decide +kernel, by decide +kernel⟩, ?_, ?_, ⟨by decide +kernel, by decide +kernel⟩, by decide +kernel, by decide +kernel, by decide +kernel⟩
  · rw [e]
    refine .inr ⟨fun n => ?_, rfl⟩
    have he : snapDistance < 1 / 2 := error_val.2.2
    refine he.le.trans ?_
    rw [le_abs]
    rcases le_or_gt n (-3) with h | h
    · left
      have : (n : ℚ) ≤ -3 := by exact_mod_cast h
      linarith
    · right
      have : (-2 : ℚ) ≤ n := by exact_mod_cast (by omega : -2 ≤ n)
      linarith
  · unfold WholePart
    norm_num [abs_of_neg]

end

/-! ## Integers -/

section
variable {w : Width} {K : Keys} {debug docs : Bool} {lib : Libm} {draw : B64}

/-- The functions that round. -/
def roundingNames (docs : Bool) : List Str := [str "floor", str "ceil", str "round", cutName docs]

theorem int_notLarge (hw : w.bits ≤ 1022) (x : SInt w) : ¬ TooLarge (x.1 : ℚ) := by
  unfold TooLarge
  rw [not_le]
  have h := x.2
  unfold Width.Fits Width.lo Width.hi at h
  have h1 : |(x.1 : ℚ)| ≤ 2 ^ 1022 := by
    have h2 : ((2 ^ w.bits : ℕ) : ℤ) ≤ 2 ^ 1022 := by
      push_cast
      exact pow_le_pow_right₀ (by norm_num) hw
    have h3 : |x.1| ≤ 2 ^ 1022 := by
      rw [abs_le]
      generalize (2 : ℤ) ^ 1022 = m at *
      omega
    exact_mod_cast h3
  have e1 : (2 : ℚ) ^ 1024 = 4 * 2 ^ 1022 := by rw [show (1024 : ℕ) = 2 + 1022 from rfl, pow_add]; norm_num only
  have e2 : (2 : ℚ) ^ 970 ≤ 2 ^ 1022 := pow_le_pow_right₀ (by norm_num) (by norm_num only)
  have e3 : (0 : ℚ) < 2 ^ 1022 := by positivity
  rw [e1]
  clear e1
  generalize (2 : ℚ) ^ 1022 = m at *
  generalize (2 : ℚ) ^ 970 = k at *
  linarith

theorem doubleOf_fin (hw : w.bits ≤ 1022) (x : SInt w) : (doubleOf x).isFin ∧ (doubleOf x).val = rnd x.1 := of_fin false (int_notLarge hw x)

theorem away_int (n : ℤ) : awayFromZero (n : ℚ) = n := by
  unfold awayFromZero
  split
  · rw [Int.ceil_eq_iff]; constructor <;> linarith
  · rw [Int.floor_eq_iff]; constructor <;> linarith

/-- C161: the rounding functions of integers. Each gives the double nearest to the integer, as an integer, or `Overflow` if that does not fit;
integers up to 2^53 stay as they are. -/
theorem C161_rounding_partial {config : Config} {c : Context (SInt w)} (hw : w.bits ≤ 1022)
    (hc : Context.checked K debug docs (f64 lib draw) (SInt.num w debug doubleOf intOf) config = .ok c) (os : List (Op (SInt w))) (x : SInt w) :
    ∃ n : ℤ, NearestDouble n x.1 ∧ (Small x.1 → n = x.1) ∧
      ∀ name ∈ roundingNames docs, evalTokens ((c.runAll K debug os).view K) (callTokens name [x]) = exactly n := by
  obtain ⟨n, hn⟩ := rnd_whole x.1
  obtain ⟨h1, h2⟩ := doubleOf_fin hw x
  refine ⟨n, hn ▸ rnd_nearest (int_notLarge hw x), fun hs => ?_, ?_⟩
  · rw [rnd_keep (small_double hs)] at hn
    exact_mod_cast hn.symm
  have ht := snap_taken (lib := lib) (draw := draw) h1 (by rw [h2, hn]; exact taken_whole n)
  have key : ∀ (name : Str) (g : ℚ → ℤ), g n = n →
      lookup hashSame (Ops.checkedFunctions docs (f64 lib draw) (SInt.num w debug doubleOf intOf)) name =
        some (Ops.forward (f64 lib draw) (SInt.num w debug doubleOf intOf) name (whole g)).fn →
      evalTokens ((c.runAll K debug os).view K) (callTokens name [x]) = exactly n := by
    intro name g hg hl
    rw [checked_call hc os hl, (forward_call (f64 lib draw) (SInt.num w debug doubleOf intOf) name (whole g) x (doubleOf x) rfl).1 h1]
    obtain ⟨h3, h4⟩ := whole_exact g ht.1 (by rw [ht.2, hg, sub_self, abs_zero]; norm_num)
    rw [ht.2, hg] at h4
    show Res.ofOption (intOf (whole g _)) .overflow = _
    rw [intOf, toInt_fin h3, h4, cut_int]
    exact orOverflow_exactly n
  intro name hm
  simp only [roundingNames, List.mem_cons, List.not_mem_nil, or_false] at hm
  rcases hm with rfl | rfl | rfl | rfl
  · exact key _ _ (Int.floor_intCast n) (by cases docs <;> rfl)
  · exact key _ _ (Int.ceil_intCast n) (by cases docs <;> rfl)
  · exact key _ _ (away_int n) (by cases docs <;> rfl)
  · exact key _ _ (cut_int n) (by cases docs <;> rfl)

/-- C161: the sign of an integer; that of zero is 1. -/
theorem C161_sign {config : Config} {c : Context (SInt w)} (hw : w.bits ≤ 1022)
    (hc : Context.checked K debug docs (f64 lib draw) (SInt.num w debug doubleOf intOf) config = .ok c) (os : List (Op (SInt w))) (x : SInt w) :
    evalTokens ((c.runAll K debug os).view K) (callTokens (signumName docs) [x]) = exactly (if x.1 < 0 then -1 else 1) := by
  obtain ⟨h1, h2⟩ := doubleOf_fin hw x
  have hl : lookup hashSame (Ops.checkedFunctions docs (f64 lib draw) (SInt.num w debug doubleOf intOf)) (signumName docs) =
      some (Ops.forward (f64 lib draw) (SInt.num w debug doubleOf intOf) (signumName docs) signum).fn := by cases docs <;> rfl
  rw [checked_call hc os hl, (forward_call (f64 lib draw) (SInt.num w debug doubleOf intOf) _ signum x (doubleOf x) rfl).1 h1]
  obtain ⟨y, hy, -⟩ := TakenFor.unique (doubleOf x).val
  obtain ⟨h3, h4⟩ := signum_fin (snap_taken (lib := lib) (draw := draw) h1 hy).1
  rw [snap_sign h1] at h4
  have hs : (doubleOf x).sign = decide (x.1 < 0) := by
    obtain ⟨k1, k2, k3⟩ := of_sign false (x.1 : ℚ)
    rcases lt_trichotomy x.1 0 with h | h | h
    · rw [decide_eq_true h]; exact k1 (by exact_mod_cast h)
    · rw [decide_eq_false (by omega)]; exact k3 (by exact_mod_cast h)
    · rw [decide_eq_false (by omega)]; exact k2 (by exact_mod_cast h)
  have h5 : (signum (snap (f64 lib draw) (doubleOf x))).val = ((if x.1 < 0 then -1 else 1 : ℤ) : ℚ) := by
    rw [h4, hs]
    by_cases h : x.1 < 0 <;> simp [h]
  show Res.ofOption (intOf (signum _)) .overflow = _
  rw [intOf, toInt_fin h3, h5, cut_int]
  exact orOverflow_exactly _

/-- C161 is false of the code beyond 2^53: no odd integer is its own rounding. -/
theorem C161_odd_counterexample {config : Config} {c : Context (SInt w)} (hw : w.bits ≤ 1022)
    (hc : Context.checked K debug docs (f64 lib draw) (SInt.num w debug doubleOf intOf) config = .ok c) (os : List (Op (SInt w))) (x : SInt w)
    (hodd : x.1 % 2 = 1) (hbig : ¬ Small x.1) (name : Str) (hm : name ∈ roundingNames docs) :
    evalTokens ((c.runAll K debug os).view K) (callTokens name [x]) ≠ .ok x := by
  obtain ⟨n, h1, -, h2⟩ := C161_rounding_partial hw hc os x
  rw [h2 name hm]
  unfold exactly
  split
  · intro h
    have h3 : n = x.1 := congrArg Subtype.val (Res.ok.inj h)
    have hgt : (2 : ℚ) ^ 53 < |(n : ℚ)| := by
      rw [h3]
      have : (2 ^ 53 : ℤ) < |x.1| := by
        unfold Small at hbig
        rw [lt_abs]
        by_contra hc
        push Not at hc
        exact hbig ⟨by omega, by omega⟩
      exact_mod_cast this
    obtain ⟨m, hm⟩ := (double_whole h1.1).2 hgt
    have : n = 2 * m := by exact_mod_cast hm
    omega
  · intro h; cases h

/-- C161 is false of the code for the greatest number: rounding it is an overflow. -/
theorem C161_greatest_counterexample {config : Config} {c : Context (SInt w)} (hw : w.bits ≤ 1022) (h54 : 54 ≤ w.bits)
    (hc : Context.checked K debug docs (f64 lib draw) (SInt.num w debug doubleOf intOf) config = .ok c) (os : List (Op (SInt w))) (x : SInt w)
    (hx : x.1 = w.hi) (name : Str) (hm : name ∈ roundingNames docs) :
    evalTokens ((c.runAll K debug os).view K) (callTokens name [x]) = .err .overflow := by
  obtain ⟨n, h1, -, h2⟩ := C161_rounding_partial hw hc os x
  rw [h2 name hm]
  have hn : (n : ℚ) = 2 ^ w.bits := by
    obtain ⟨b, hb⟩ : ∃ b, w.bits = b + 1 := ⟨w.bits - 1, by omega⟩
    have hpow : (2 : ℚ) ^ w.bits = 2 ^ b * 2 := by rw [hb, pow_succ]
    have hxq : (x.1 : ℚ) = 2 ^ w.bits - 1 := by
      rw [hx]
      unfold Width.hi
      push_cast
      rfl
    have hb53 : (2 : ℚ) ^ 53 ≤ 2 ^ b := pow_le_pow_right₀ (by norm_num) (by omega)
    have hd : IsDouble ((2 : ℚ) ^ w.bits) := by
      refine ⟨2 ^ 52, (w.bits : ℤ) - 52, by norm_num, by omega, by omega, ?_⟩
      rw [zpow_sub₀ (by norm_num)]
      push_cast
      rw [zpow_natCast]
      field_simp
    -- the doubles below it are at least two less
    obtain ⟨hdn, hnear⟩ := h1
    obtain ⟨hle, htie⟩ := hnear _ hd
    rw [hxq] at hle htie
    have e1 : |(2 : ℚ) ^ w.bits - 1 - 2 ^ w.bits| = 1 := by rw [show (2 : ℚ) ^ w.bits - 1 - 2 ^ w.bits = -1 by ring]; norm_num
    rw [e1] at hle htie
    rw [abs_le] at hle
    obtain ⟨z, hz, hz4⟩ : ∃ z : ℤ, (2 : ℚ) ^ w.bits = z ∧ z % 4 = 0 := by
      refine ⟨2 ^ w.bits, by push_cast; rfl, ?_⟩
      obtain ⟨a, ha⟩ : ∃ a, w.bits = a + 2 := ⟨w.bits - 2, by omega⟩
      rw [ha, pow_add]; omega
    have hz53 : (2 ^ 53 : ℚ) * 2 ≤ z := by rw [← hz, hpow]; exact mul_le_mul_of_nonneg_right hb53 (by norm_num)
    rw [hz] at hle htie ⊢
    have e53 : (2 : ℚ) ^ 53 = 9007199254740992 := by norm_num
    have hpos : 0 < (n : ℚ) := by linarith
    have hgt : 2 ^ 53 < |(n : ℚ)| := by rw [abs_of_pos hpos]; linarith
    obtain ⟨m, hm2⟩ := (double_whole hdn).2 hgt
    have h5 : n = 2 * m := by exact_mod_cast hm2
    have h6 : -1 ≤ z - 1 - n := by exact_mod_cast hle.1
    have h7 : z - 1 - n ≤ 1 := by exact_mod_cast hle.2
    by_contra hne
    have hne' : n ≠ z := fun h => hne (by rw [h])
    -- then `n = z - 2`, and the tie goes to the multiple of four
    have h8 : n = z - 2 := by omega
    have h9 : (n : ℚ) = z - 2 := by rw [h8]; push_cast; ring
    obtain ⟨k, hk⟩ := htie (by rw [h9]; norm_num) (fun h => hne h.symm)
    have h10 : |(z : ℚ) - n| = 2 := by rw [h9]; norm_num
    rw [h10] at hk
    have : n = 2 * k * 2 := by exact_mod_cast hk
    omega
  unfold exactly
  rw [dif_neg]
  intro hf
  unfold Width.Fits Width.hi at hf
  have : n = ((2 ^ w.bits : ℕ) : ℤ) := by
    have : (n : ℚ) = ((2 ^ w.bits : ℕ) : ℚ) := by rw [hn]; push_cast; rfl
    exact_mod_cast this
  omega

/-- Over `i64`: `round(-7)` is -7; `sign(0)` is 1; `floor(9007199254740993)` is not the number, and that of the greatest number is an overflow. -/
example (lib : Libm) (draw : B64) : ∃ c, Context.checked Demo.keys true true (f64 lib draw) (SInt.num i64 true doubleOf intOf) Config.new = .ok c ∧
    (∀ x : SInt i64, x.1 = -7 → evalTokens (c.view Demo.keys) (callTokens (str "round") [x]) = exactly (-7)) ∧
    (∀ x : SInt i64, x.1 = 0 → evalTokens (c.view Demo.keys) (callTokens (str "signum") [x]) = exactly 1) ∧
    (∀ x : SInt i64, x.1 = 9007199254740993 → evalTokens (c.view Demo.keys) (callTokens (str "floor") [x]) ≠ .ok x) ∧
    (∀ x : SInt i64, x.1 = i64.hi → evalTokens (c.view Demo.keys) (callTokens (str "floor") [x]) = .err .overflow) := by
  obtain ⟨c, hc, -⟩ := C31_checked Demo.keys true true (f64 lib draw) (SInt.num i64 true doubleOf intOf) Config.new ⟨3, by decide⟩ ⟨2, by decide⟩
    (by show intOf pi = _; decide +kernel) (by show intOf e = _; decide +kernel)
  refine ⟨c, hc, fun x hx => ?_, fun x hx => ?_, fun x hx => ?_, fun x hx => ?_⟩
  · obtain ⟨n, -, h1, h2⟩ := C161_rounding_partial (by decide) hc [] x
    have := h2 (str "round") (by simp [roundingNames])
    rw [h1 (by rw [hx]; unfold Small; omega), hx] at this
    exact this
  · have := C161_sign (by decide) hc [] x
    rw [hx] at this
    exact this
  · exact C161_odd_counterexample (by decide) hc [] x (by omega) (by rw [hx]; unfold Small; omega) (str "floor") (by simp [roundingNames])
  · exact C161_greatest_counterexample (by decide) (by decide) hc [] x hx (str "floor") (by simp [roundingNames])

end

end Prexel
