import Verif.Spec.ComplexDoubles
import Verif.Props.ComplexDoubles
/-!
# Exact complex arithmetic over doubles (C144)
-/

set_option linter.unusedVariables false

namespace Prexel
open B64

theorem add_exact {x y : B64} (hx : x.isFin) (hy : y.isFin) (h : IsDouble (x.val + y.val)) : (add x y).isFin ∧ (add x y).val = x.val + y.val := by
  rw [add_fin hx hy]; exact of_double _ h
theorem sub_exact {x y : B64} (hx : x.isFin) (hy : y.isFin) (h : IsDouble (x.val - y.val)) : (sub x y).isFin ∧ (sub x y).val = x.val - y.val := by
  rw [sub_fin hx hy]; exact of_double _ h
theorem mul_exact {x y : B64} (hx : x.isFin) (hy : y.isFin) (h : IsDouble (x.val * y.val)) : (mul x y).isFin ∧ (mul x y).val = x.val * y.val := by
  rw [mul_fin hx hy]; exact of_double _ h
theorem div_exact {x y : B64} (hx : x.isFin) (hy : y.isFin) (h0 : y.val ≠ 0) (h : IsDouble (x.val / y.val)) :
    (div x y).isFin ∧ (div x y).val = x.val / y.val := by
  rw [div_fin hx hy h0]; exact of_double _ h

theorem steps_noFact (e : Arith (Cplx B64)) (h : e.StepsDouble) : e.hasFact = false := by
  induction e with
  | num z => rfl
  | neg e ih => exact ih h
  | fact e ih => exact h.elim
  | bin o l r ihl ihr => simp [Arith.hasFact, ihl h.1, ihr h.2.1]

theorem exact_value (lib : C64.Lib) (e : Arith (Cplx B64)) (h : e.StepsDouble) :
    (∀ q, e.complexValue = some q → ∃ z, e.value (complexArithmetic (C64.cx lib)) = .ok z ∧ z.Finite ∧ z.value = q) ∧
    (e.complexValue = none → e.value (complexArithmetic (C64.cx lib)) = .err .divisionByZero) := by
  induction e with
  | num z => exact ⟨fun q hq => ⟨z, rfl, h, by simpa [Arith.complexValue] using hq⟩, fun hq => by simp [Arith.complexValue] at hq⟩
  | fact e ih => exact h.elim
  | neg e ih =>
    obtain ⟨h1, h2⟩ := ih h
    constructor
    · intro q hq
      simp only [Arith.complexValue, Option.map_eq_some_iff] at hq
      obtain ⟨p, hp, rfl⟩ := hq
      obtain ⟨z, hz, hf, hv⟩ := h1 p hp
      obtain ⟨a1, a2, -⟩ := neg_fin hf.1
      obtain ⟨b1, b2, -⟩ := neg_fin hf.2
      refine ⟨⟨B64.neg z.re, B64.neg z.im⟩, by simp only [Arith.value, hz, Res.bind_ok]; rfl, ⟨a1, b1⟩, ?_⟩
      rw [← hv]
      simp only [Cplx.value, a2, b2]
    · intro hq
      simp only [Arith.complexValue, Option.map_eq_none_iff] at hq
      simp [Arith.value, h2 hq]
  | bin o l r ihl ihr =>
    obtain ⟨hl, hr, hs⟩ := h
    obtain ⟨l1, l2⟩ := ihl hl
    obtain ⟨r1, r2⟩ := ihr hr
    cases hlv : l.complexValue with
    | none =>
      refine ⟨fun q hq => by simp [Arith.complexValue, hlv] at hq, fun _ => by simp [Arith.value, l2 hlv]⟩
    | some x =>
      obtain ⟨z, hz, zf, zv⟩ := l1 x hlv
      cases hrv : r.complexValue with
      | none =>
        refine ⟨fun q hq => by simp [Arith.complexValue, hlv, hrv] at hq, fun _ => by simp [Arith.value, hz, r2 hrv]⟩
      | some y =>
        obtain ⟨w, hw, wf, wv⟩ := r1 y hrv
        have hs := hs x y hlv hrv
        have hx : x = (z.re.val, z.im.val) := zv.symm
        have hy : y = (w.re.val, w.im.val) := wv.symm
        subst hx hy
        have hval : (Arith.bin o l r).value (complexArithmetic (C64.cx lib)) = (complexArithmetic (C64.cx lib)).op o z w := by
          simp [Arith.value, hz, hw]
        rw [hval]
        obtain ⟨z1, z2⟩ := zf
        obtain ⟨w1, w2⟩ := wf
        cases o with
        | mod => rcases hs with ⟨h, -⟩ | hs; · cases h
                 exact hs.elim
        | pow => rcases hs with ⟨h, -⟩ | hs; · cases h
                 exact hs.elim
        | add =>
          rcases hs with ⟨h, -⟩ | hs; · cases h
          refine ⟨fun q hq => ?_, fun hq => by simp [Arith.complexValue, hlv, hrv] at hq⟩
          simp only [Arith.complexValue, hlv, hrv, Option.bind_some, Option.some.injEq] at hq
          obtain ⟨a1, a2⟩ := add_exact z1 w1 hs.1
          obtain ⟨b1, b2⟩ := add_exact z2 w2 hs.2
          exact ⟨⟨add z.re w.re, add z.im w.im⟩, rfl, ⟨a1, b1⟩, by rw [← hq]; simp only [Cplx.value, a2, b2]⟩
        | sub =>
          rcases hs with ⟨h, -⟩ | hs; · cases h
          refine ⟨fun q hq => ?_, fun hq => by simp [Arith.complexValue, hlv, hrv] at hq⟩
          simp only [Arith.complexValue, hlv, hrv, Option.bind_some, Option.some.injEq] at hq
          obtain ⟨a1, a2⟩ := sub_exact z1 w1 hs.1
          obtain ⟨b1, b2⟩ := sub_exact z2 w2 hs.2
          exact ⟨⟨sub z.re w.re, sub z.im w.im⟩, rfl, ⟨a1, b1⟩, by rw [← hq]; simp only [Cplx.value, a2, b2]⟩
        | mul =>
          rcases hs with ⟨h, -⟩ | hs; · cases h
          refine ⟨fun q hq => ?_, fun hq => by simp [Arith.complexValue, hlv, hrv] at hq⟩
          simp only [Arith.complexValue, hlv, hrv, Option.bind_some, Option.some.injEq] at hq
          obtain ⟨⟨s1, s2, s3, s4⟩, s5, s6⟩ := hs
          obtain ⟨a1, a2⟩ := mul_exact z1 w1 s1
          obtain ⟨b1, b2⟩ := mul_exact z2 w2 s2
          obtain ⟨c1, c2⟩ := mul_exact z1 w2 s3
          obtain ⟨d1, d2⟩ := mul_exact z2 w1 s4
          obtain ⟨e1, e2⟩ := sub_exact a1 b1 (by rw [a2, b2]; exact s5)
          obtain ⟨f1, f2⟩ := add_exact c1 d1 (by rw [c2, d2]; exact s6)
          exact ⟨⟨sub (mul z.re w.re) (mul z.im w.im), add (mul z.re w.im) (mul z.im w.re)⟩, rfl, ⟨e1, f1⟩,
            by rw [← hq]; simp only [Cplx.value, e2, f2, a2, b2, c2, d2]⟩
        | div =>
          have hop : (complexArithmetic (C64.cx lib)).op .div z w = if w.re.isZero && w.im.isZero then .err .divisionByZero else
              .ok ⟨div (add (mul z.re w.re) (mul z.im w.im)) (add (mul w.re w.re) (mul w.im w.im)),
                div (sub (mul z.im w.re) (mul z.re w.im)) (add (mul w.re w.re) (mul w.im w.im))⟩ := rfl
          rw [hop]
          by_cases h0 : w.re.val = 0 ∧ w.im.val = 0
          · have : (w.re.isZero && w.im.isZero) = true := by rw [Bool.and_eq_true, isZero_iff w1, isZero_iff w2]; exact h0
            rw [if_pos this]
            exact ⟨fun q hq => by simp [Arith.complexValue, hlv, hrv, h0.1, h0.2] at hq, fun _ => rfl⟩
          · have : ¬ (w.re.isZero && w.im.isZero) = true := by rw [Bool.and_eq_true, isZero_iff w1, isZero_iff w2]; exact h0
            rw [if_neg this]
            have hne : (w.re.val, w.im.val) ≠ (0, 0) := fun h => h0 (by simpa using h)
            rcases hs with ⟨-, h⟩ | hs
            · exact absurd h hne
            refine ⟨fun q hq => ?_, fun hq => by simp [Arith.complexValue, hlv, hrv, hne] at hq⟩
            simp only [Arith.complexValue, hlv, hrv, Option.bind_some, if_neg hne, Option.some.injEq] at hq
            obtain ⟨⟨s1, s2, s3, s4⟩, ⟨n1, n2, n3⟩, ⟨t1, t2⟩, u1, u2⟩ := hs
            obtain ⟨a1, a2⟩ := mul_exact z1 w1 s1
            obtain ⟨b1, b2⟩ := mul_exact z2 w2 s2
            obtain ⟨c1, c2⟩ := mul_exact z1 w2 s3
            obtain ⟨d1, d2⟩ := mul_exact z2 w1 s4
            obtain ⟨m1, m2⟩ := mul_exact w1 w1 n1
            obtain ⟨o1, o2⟩ := mul_exact w2 w2 n2
            obtain ⟨p1, p2⟩ := add_exact m1 o1 (by rw [m2, o2]; exact n3)
            obtain ⟨e1, e2⟩ := add_exact a1 b1 (by rw [a2, b2]; exact t1)
            obtain ⟨f1, f2⟩ := sub_exact d1 c1 (by rw [c2, d2]; exact t2)
            have hpos : w.re.val * w.re.val + w.im.val * w.im.val ≠ 0 := by
              intro h
              have h1 := mul_self_nonneg w.re.val
              have h2 := mul_self_nonneg w.im.val
              exact h0 ⟨mul_self_eq_zero.1 (by linarith), mul_self_eq_zero.1 (by linarith)⟩
            obtain ⟨g1, g2⟩ := div_exact e1 p1 (by rw [p2, m2, o2]; exact hpos) (by rw [e2, a2, b2, p2, m2, o2]; exact u1)
            obtain ⟨k1, k2⟩ := div_exact f1 p1 (by rw [p2, m2, o2]; exact hpos) (by rw [f2, c2, d2, p2, m2, o2]; exact u2)
            exact ⟨_, rfl, ⟨g1, k1⟩, by rw [← hq]; simp only [Cplx.value, g2, k2, e2, f2, p2, m2, o2, a2, b2, c2, d2]⟩

/-- C144. In the complex context over doubles, whatever else is registered: if the exact results of all steps are doubles, the result is exact; a
divisor that is zero is an error. -/
theorem C144_exact (K : Keys) (debug : Bool) (lib : C64.Lib) (config : Config) (c : Context (Cplx B64))
    (hc : (C64.cx lib).context K debug config = .ok c) (os : List (Op (Cplx B64))) (e : Arith (Cplx B64)) (h : e.StepsDouble) :
    (∀ q, e.complexValue = some q → ∃ z, evalTokens ((c.runAll K debug os).view K) e.tokens = .ok z ∧ z.Finite ∧ z.value = q) ∧
    (e.complexValue = none → evalTokens ((c.runAll K debug os).view K) e.tokens = .err .divisionByZero) := by
  rw [C32_complex K debug _ config c hc os e (steps_noFact e h)]
  exact exact_value lib e h

/-! ## Whole numbers -/

theorem size_nonneg (e : Arith (Cplx B64)) : 0 ≤ e.size := by
  induction e with
  | num z => exact add_nonneg (abs_nonneg _) (abs_nonneg _)
  | neg e ih => exact ih
  | fact e ih => exact le_refl _
  | bin o l r ihl ihr => cases o <;> first | exact mul_nonneg ihl ihr | exact add_nonneg ihl ihr

theorem whole_double {q : ℚ} (h : ∃ n : ℤ, q = n) (hq : |q| ≤ 2 ^ 53) : IsDouble q := by
  obtain ⟨n, rfl⟩ := h
  exact isDouble_int (by exact_mod_cast hq)

theorem whole_steps (e : Arith (Cplx B64)) (hw : e.WholeComplex) (hs : e.AllSmall) :
    e.StepsDouble ∧ ∃ q, e.complexValue = some q ∧ |q.1| + |q.2| ≤ e.size ∧ (∃ n : ℤ, q.1 = n) ∧ ∃ n : ℤ, q.2 = n := by
  induction e with
  | num z => exact ⟨hw.1, _, rfl, le_refl _, hw.2⟩
  | fact e ih => exact hw.elim
  | neg e ih =>
    obtain ⟨h1, q, h2, h3, ⟨a, ha⟩, ⟨b, hb⟩⟩ := ih hw hs
    exact ⟨h1, (-q.1, -q.2), by simp [Arith.complexValue, h2], by show |(-q.1)| + |(-q.2)| ≤ e.size; rw [abs_neg, abs_neg]; exact h3, ⟨-a, by simp [ha]⟩, ⟨-b, by simp [hb]⟩⟩
  | bin o l r ihl ihr =>
    obtain ⟨ho, wl, wr⟩ := hw
    obtain ⟨sl, sr, ss⟩ := hs
    obtain ⟨l1, ⟨a, b⟩, l2, l3, ⟨ia, ha⟩, ⟨ib, hb⟩⟩ := ihl wl sl
    obtain ⟨r1, ⟨c, d⟩, r2, r3, ⟨ic, hc⟩, ⟨id, hd⟩⟩ := ihr wr sr
    simp only at ha hb hc hd l3 r3
    have na := abs_nonneg a
    have nb := abs_nonneg b
    have nc := abs_nonneg c
    have nd := abs_nonneg d
    rcases ho with rfl | rfl | rfl
    · have e1 := abs_add_le a c
      have e2 := abs_add_le b d
      have hsz : |a + c| + |b + d| ≤ (Arith.bin .add l r).size := by show _ ≤ l.size + r.size; linarith
      have w1 : ∃ n : ℤ, a + c = n := ⟨ia + ic, by rw [ha, hc]; push_cast; ring⟩
      have w2 : ∃ n : ℤ, b + d = n := ⟨ib + id, by rw [hb, hd]; push_cast; ring⟩
      refine ⟨⟨l1, r1, fun x y hx hy => ?_⟩, (a + c, b + d), by simp [Arith.complexValue, l2, r2], hsz, w1, w2⟩
      rw [l2] at hx; rw [r2] at hy
      cases hx; cases hy
      have p1 := abs_nonneg (a + c)
      have p2 := abs_nonneg (b + d)
      exact .inr ⟨whole_double w1 (by linarith), whole_double w2 (by linarith)⟩
    · have e1 := abs_sub a c
      have e2 := abs_sub b d
      have hsz : |a - c| + |b - d| ≤ (Arith.bin .sub l r).size := by show _ ≤ l.size + r.size; linarith
      have w1 : ∃ n : ℤ, a - c = n := ⟨ia - ic, by rw [ha, hc]; push_cast; ring⟩
      have w2 : ∃ n : ℤ, b - d = n := ⟨ib - id, by rw [hb, hd]; push_cast; ring⟩
      refine ⟨⟨l1, r1, fun x y hx hy => ?_⟩, (a - c, b - d), by simp [Arith.complexValue, l2, r2], hsz, w1, w2⟩
      rw [l2] at hx; rw [r2] at hy
      cases hx; cases hy
      have p1 := abs_nonneg (a - c)
      have p2 := abs_nonneg (b - d)
      exact .inr ⟨whole_double w1 (by linarith), whole_double w2 (by linarith)⟩
    · have hprod : (|a| + |b|) * (|c| + |d|) ≤ (Arith.bin .mul l r).size := mul_le_mul l3 r3 (by linarith) (size_nonneg l)
      have hexp : (|a| + |b|) * (|c| + |d|) = |a * c| + |b * d| + |a * d| + |b * c| := by rw [abs_mul, abs_mul, abs_mul, abs_mul]; ring
      rw [hexp] at hprod
      have p1 := abs_nonneg (a * c)
      have p2 := abs_nonneg (b * d)
      have p3 := abs_nonneg (a * d)
      have p4 := abs_nonneg (b * c)
      have e1 := abs_sub (a * c) (b * d)
      have e2 := abs_add_le (a * d) (b * c)
      have v1 : ∃ n : ℤ, a * c = n := ⟨ia * ic, by rw [ha, hc]; push_cast; ring⟩
      have v2 : ∃ n : ℤ, b * d = n := ⟨ib * id, by rw [hb, hd]; push_cast; ring⟩
      have v3 : ∃ n : ℤ, a * d = n := ⟨ia * id, by rw [ha, hd]; push_cast; ring⟩
      have v4 : ∃ n : ℤ, b * c = n := ⟨ib * ic, by rw [hb, hc]; push_cast; ring⟩
      have w1 : ∃ n : ℤ, a * c - b * d = n := ⟨ia * ic - ib * id, by rw [ha, hc, hb, hd]; push_cast; ring⟩
      have w2 : ∃ n : ℤ, a * d + b * c = n := ⟨ia * id + ib * ic, by rw [ha, hc, hb, hd]; push_cast; ring⟩
      refine ⟨⟨l1, r1, fun x y hx hy => ?_⟩, (a * c - b * d, a * d + b * c), by simp [Arith.complexValue, l2, r2], by simp only; linarith, w1, w2⟩
      rw [l2] at hx; rw [r2] at hy
      cases hx; cases hy
      exact .inr ⟨⟨whole_double v1 (by linarith), whole_double v2 (by linarith), whole_double v3 (by linarith), whole_double v4 (by linarith)⟩,
        whole_double w1 (by linarith), whole_double w2 (by linarith)⟩

/-- C144 for whole numbers: sums, differences, products and signs are exact as long as no part is too large. -/
theorem C144_whole (K : Keys) (debug : Bool) (lib : C64.Lib) (config : Config) (c : Context (Cplx B64))
    (hc : (C64.cx lib).context K debug config = .ok c) (os : List (Op (Cplx B64))) (e : Arith (Cplx B64)) (hw : e.WholeComplex) (hs : e.AllSmall) :
    ∃ z q, e.complexValue = some q ∧ evalTokens ((c.runAll K debug os).view K) e.tokens = .ok z ∧ z.Finite ∧ z.value = q := by
  obtain ⟨h1, q, h2, -⟩ := whole_steps e hw hs
  obtain ⟨z, h⟩ := (C144_exact K debug lib config c hc os e h1).1 q h2
  exact ⟨z, q, h2, h⟩

/-- The tree of `(2+3i) * (4-5i) - 1`, its numbers written as literals; its value is `22+2i`. -/
def Demo.gauss : Arith (Cplx B64) :=
  .bin .sub (.bin .mul (.num ⟨lit 2, lit 3⟩) (.num ⟨lit 4, lit (-5)⟩)) (.num ⟨lit 1, B64.zero false⟩)

/-- The hypotheses hold for it, and the context exists. -/
example : (∃ c, (C64.cx Demo.complexLib).context Demo.keys true Config.new = .ok c) ∧ Demo.gauss.WholeComplex ∧ Demo.gauss.AllSmall ∧
    Demo.gauss.complexValue = some (22, 2) := by
  have key : ∀ n : ℤ, |n| ≤ 2 ^ 53 → (lit (n : ℚ)).isFin ∧ (lit (n : ℚ)).val = n := fun n hn => lit_double (isDouble_int hn)
  have h1 := key 1 (by norm_num)
  have h2 := key 2 (by norm_num)
  have h3 := key 3 (by norm_num)
  have h4 := key 4 (by norm_num)
  have h5 := key (-5) (by norm_num)
  push_cast at h1 h2 h3 h4 h5
  refine ⟨?_, ?_, ?_, ?_⟩
  · obtain ⟨c, hc, -⟩ := complex_build Demo.keys true (C64.cx Demo.complexLib) Config.new _ _ rfl rfl
    exact ⟨c, hc⟩
  · refine ⟨.inr (.inl rfl), ⟨.inr (.inr rfl), ⟨⟨h2.1, h3.1⟩, ⟨2, by simp [h2.2]⟩, ⟨3, by simp [h3.2]⟩⟩,
      ⟨⟨h4.1, h5.1⟩, ⟨4, by simp [h4.2]⟩, ⟨-5, by simp [h5.2]⟩⟩⟩, ⟨⟨h1.1, zero_isFin _⟩, ⟨1, by simp [h1.2]⟩, ⟨0, by simp [zero_val]⟩⟩⟩
  · refine ⟨⟨?_, ?_, ?_⟩, ?_, ?_⟩ <;> simp only [Arith.AllSmall, Arith.size, h1.2, h2.2, h3.2, h4.2, h5.2, zero_val] <;> norm_num
  · simp only [Demo.gauss, Arith.complexValue, Cplx.value, h1.2, h2.2, h3.2, h4.2, h5.2, zero_val, Option.bind_some]
    norm_num

end Prexel
