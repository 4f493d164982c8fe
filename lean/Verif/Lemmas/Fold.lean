import Verif.Lemmas.Integer
import Verif.Spec.Integer
/-!
# Lemmas about the loops of `sum`, `product` and the factorial on integers
-/

set_option linter.unusedVariables false
set_option linter.unusedSimpArgs false

namespace Prexel
variable {w : Width} {F : Type}

/-- One checked step. -/
def step (g : Int → Int → Int) (x y : SInt w) : Res (SInt w) := Ops.orOverflow (SInt.of? (g x.1 y.1))

/-- The values after each argument. -/
def runInt (g : Int → Int → Int) (a : Int) (xs : List (SInt w)) : Int := xs.foldl (fun a x => g a x.1) a

theorem step_cases (g : Int → Int → Int) (x y : SInt w) :
    (∃ h : w.Fits (g x.1 y.1), step g x y = .ok ⟨_, h⟩) ∨ (¬ w.Fits (g x.1 y.1) ∧ step g x y = .err .overflow) := by
  by_cases h : w.Fits (g x.1 y.1)
  · exact .inl ⟨h, by simp [step, Ops.orOverflow, SInt.of?_fits h, Res.ofOption]⟩
  · exact .inr ⟨h, by simp [step, Ops.orOverflow, SInt.of?_eq_none.mpr h, Res.ofOption]⟩

theorem fold_cases (g : Int → Int → Int) (acc : SInt w) (xs : List (SInt w)) :
    ((∀ k, k ≤ xs.length → w.Fits (runInt g acc.1 (xs.take k))) ∧
      ∃ v : SInt w, Ops.foldArgs (step g) (some acc) xs = .ok (some v) ∧ v.1 = runInt g acc.1 xs) ∨
    ((∃ k, 0 < k ∧ k ≤ xs.length ∧ ¬ w.Fits (runInt g acc.1 (xs.take k))) ∧
      Ops.foldArgs (step g) (some acc) xs = .err .overflow) := by
  induction xs generalizing acc with
  | nil =>
    left
    refine ⟨fun k hk => ?_, acc, rfl, rfl⟩
    simpa [runInt] using acc.2
  | cons x xs ih =>
    rcases step_cases g acc x with ⟨h, hs⟩ | ⟨h, hs⟩
    · rcases ih ⟨_, h⟩ with ⟨h1, v, h2, h3⟩ | ⟨⟨k, hk0, hk, hf⟩, h2⟩
      · left
        refine ⟨fun k hk => ?_, v, by simp only [Ops.foldArgs, hs, Res.bind_ok]; exact h2, h3⟩
        cases k with
        | zero => simpa [runInt] using acc.2
        | succ k => exact h1 k (by simpa using hk)
      · right
        refine ⟨⟨k + 1, by omega, by simpa using hk, hf⟩, by simp only [Ops.foldArgs, hs, Res.bind_ok]; exact h2⟩
    · right
      exact ⟨⟨1, by omega, by simp, by simpa [runInt] using h⟩, by simp [Ops.foldArgs, hs]⟩

theorem runInt_add (a : Int) (xs : List (SInt w)) : runInt (· + ·) a xs = a + total xs := by
  induction xs generalizing a with
  | nil => simp [runInt, total]
  | cons x xs ih =>
    have := ih (a + x.1)
    simp only [runInt, List.foldl_cons, total] at this ⊢
    rw [this]; omega

theorem runInt_mul (a : Int) (xs : List (SInt w)) : runInt (· * ·) a xs = a * productOf xs := by
  induction xs generalizing a with
  | nil => simp [runInt, productOf]
  | cons x xs ih =>
    have := ih (a * x.1)
    simp only [runInt, List.foldl_cons, productOf] at this ⊢
    rw [this, Int.mul_assoc]

/-- The loops of `sum` and `product`: exact if every beginning fits, otherwise `Overflow`. -/
theorem foldArgs_cases {g : Int → Int → Int} {f : List (SInt w) → Int} (hg : ∀ (x : SInt w) (xs : List (SInt w)), runInt g x.1 xs = f (x :: xs))
    (x : SInt w) (xs : List (SInt w)) :
    (PrefixesFit f (x :: xs) ∧ ∃ v : SInt w, Ops.foldArgs (step g) none (x :: xs) = .ok (some v) ∧ v.1 = f (x :: xs)) ∨
    (¬ PrefixesFit f (x :: xs) ∧ Ops.foldArgs (step g) none (x :: xs) = .err .overflow) := by
  rcases fold_cases g x xs with ⟨h1, v, h2, h3⟩ | ⟨⟨k, hk0, hk, hf⟩, h2⟩
  · left
    refine ⟨fun k hk0 hk => ?_, v, h2, by rw [h3, hg]⟩
    cases k with
    | zero => omega
    | succ k =>
      rw [List.take_succ_cons, ← hg]
      exact h1 k (by simpa using hk)
  · right
    refine ⟨fun h => hf ?_, h2⟩
    have := h (k + 1) (by omega) (by simpa using hk)
    rwa [List.take_succ_cons, ← hg] at this

theorem total_perm {l l' : List (SInt w)} (h : l.Perm l') : total l = total l' := by
  induction h with
  | nil => rfl
  | cons x _ ih => simp [total, ih]
  | swap x y l => simp only [total]; omega
  | trans _ _ h1 h2 => rw [h1, h2]

theorem productOf_perm {l l' : List (SInt w)} (h : l.Perm l') : productOf l = productOf l' := by
  induction h with
  | nil => rfl
  | cons x _ ih => simp [productOf, ih]
  | swap x y l => simp only [productOf]; rw [← Int.mul_assoc, ← Int.mul_assoc, Int.mul_comm y.1 x.1]
  | trans _ _ h1 h2 => rw [h1, h2]

theorem total_nonneg {l : List (SInt w)} (h : ∀ x ∈ l, 0 ≤ x.1) : 0 ≤ total l := by
  induction l with
  | nil => simp [total]
  | cons x l ih =>
    have := ih fun y hy => h y (by simp [hy])
    have := h x (by simp)
    simp only [total]; omega

theorem total_append (l l' : List (SInt w)) : total (l ++ l') = total l + total l' := by
  induction l with
  | nil => simp [total]
  | cons x l ih => simp only [List.cons_append, total, ih]; omega

theorem productOf_append (l l' : List (SInt w)) : productOf (l ++ l') = productOf l * productOf l' := by
  induction l with
  | nil => simp [productOf]
  | cons x l ih => simp only [List.cons_append, productOf, ih, Int.mul_assoc]

theorem productOf_pos {l : List (SInt w)} (h : ∀ x ∈ l, 0 < x.1) : 0 < productOf l := by
  induction l with
  | nil => simp [productOf]
  | cons x l ih => exact Int.mul_pos (h x (by simp)) (ih fun y hy => h y (by simp [hy]))

/-! ## Factorial -/

theorem fact_pos (n : Nat) : 0 < fact n := by
  induction n with
  | zero => decide
  | succ n ih => exact Nat.mul_pos (Nat.succ_pos n) ih

theorem wrap_eq {x y : Int} (h : x.bmod (2 ^ (w.bits + 1)) = y.bmod (2 ^ (w.bits + 1))) : (SInt.wrap x : SInt w) = SInt.wrap y :=
  Subtype.ext h

theorem wrap_fits {x : Int} (h : w.Fits x) : (SInt.wrap x : SInt w) = ⟨x, h⟩ := by
  apply Subtype.ext
  simp only [SInt.wrap]
  have h3 : (2 ^ (w.bits + 1) : Nat) = 2 * 2 ^ w.bits := by rw [Nat.pow_succ]; omega
  obtain ⟨h1, h2⟩ := h
  simp only [Width.lo, Width.hi] at h1 h2
  apply Int.bmod_eq_of_le <;> omega

theorem wrap_mul_wrap (x y : Int) : (SInt.wrap ((SInt.wrap x : SInt w).1 * y) : SInt w) = SInt.wrap (x * y) := by
  apply wrap_eq
  simp only [SInt.wrap]
  exact Int.bmod_mul_bmod ..

/-- The loop of the factorial in a release build. -/
theorem factorialLoop_release (toF64 : SInt w → F) (fromF64 : F → Option (SInt w)) (fuel : Nat) (m : Nat) (hm : m ≤ fuel) (t : Int)
    (next : SInt w) (hn : next.1 = m) :
    Ops.factorialLoop (SInt.num w false toF64 fromF64) fuel (SInt.wrap t) next =
      .ok (SInt.wrap (t * fact m), SInt.ofNat1 0 (by decide)) := by
  have hd : (SInt.num w false toF64 fromF64).ge next (SInt.num w false toF64 fromF64).one = decide (1 ≤ m) := by
    show decide ((1 : Int) ≤ next.1) = decide (1 ≤ m)
    rw [hn]; simp only [decide_eq_decide]; omega
  have hz : next = SInt.ofNat1 0 (by decide) ∨ m ≠ 0 := by
    by_cases h : m = 0
    · left; apply Subtype.ext; rw [hn, h]; rfl
    · exact .inr h
  induction fuel generalizing m t next with
  | zero =>
    have : m = 0 := by omega
    subst this
    rcases hz with hz | hz
    · unfold Ops.factorialLoop
      rw [hd]
      simp [fact, hz]
    · exact absurd rfl hz
  | succ fuel ih =>
    unfold Ops.factorialLoop
    rw [hd]
    by_cases h0 : m = 0
    · subst h0
      rcases hz with hz | hz
      · simp [fact, hz]
      · exact absurd rfl hz
    · have h1 : 1 ≤ m := by omega
      simp only [h1, decide_true, if_true]
      have hmul : (SInt.num w false toF64 fromF64).mul (SInt.wrap t) next = .ok (SInt.wrap (t * m)) := by
        show SInt.arith false ((SInt.wrap t : SInt w).1 * next.1) = _
        unfold SInt.arith
        cases hof : (SInt.of? ((SInt.wrap t : SInt w).1 * next.1) : Option (SInt w)) with
        | some y =>
          simp only
          have := SInt.of?_eq_some.mp hof
          rw [← wrap_mul_wrap, ← hn]
          congr 1
          have hf : w.Fits ((SInt.wrap t : SInt w).1 * next.1) := this ▸ y.2
          rw [wrap_fits hf]
          exact Subtype.ext this
        | none => simp only [Bool.false_eq_true, if_false]; rw [wrap_mul_wrap, hn]
      have hfit : w.Fits ((m - 1 : Nat) : Int) := by
        have := next.2
        rw [hn] at this
        have h0 := SInt.lo_lt_zero w
        exact ⟨by omega, by have := this.2; omega⟩
      have hsub : (SInt.num w false toF64 fromF64).sub next (SInt.num w false toF64 fromF64).one = .ok ⟨((m - 1 : Nat) : Int), hfit⟩ := by
        show SInt.arith false (next.1 - 1) = _
        have : next.1 - 1 = ((m - 1 : Nat) : Int) := by rw [hn]; omega
        unfold SInt.arith
        rw [this, SInt.of?_fits hfit]
      rw [hmul, hsub]
      simp only [Res.bind_ok]
      have := ih (m - 1) (by omega) (t * m) ⟨((m - 1 : Nat) : Int), hfit⟩ rfl
        (by show decide ((1 : Int) ≤ ((m - 1 : Nat) : Int)) = decide (1 ≤ m - 1)
            simp only [decide_eq_decide]; omega)
        (by
          by_cases h : m - 1 = 0
          · left; apply Subtype.ext; show ((m - 1 : Nat) : Int) = 0; rw [h]; rfl
          · exact .inr h)
      refine Eq.trans this ?_
      congr 3
      obtain ⟨k, rfl⟩ : ∃ k, m = k + 1 := ⟨m - 1, by omega⟩
      simp only [fact, Nat.add_sub_cancel]
      rw [Int.mul_assoc]
      congr 1

/-- The loop of the factorial in a debug build. -/
theorem factorialLoop_debug (toF64 : SInt w → F) (fromF64 : F → Option (SInt w)) (fuel : Nat) (m : Nat) (hm : m ≤ fuel) (t : SInt w)
    (ht : 0 < t.1) (next : SInt w) (hn : next.1 = m) :
    (∃ h : w.Fits (t.1 * fact m), Ops.factorialLoop (SInt.num w true toF64 fromF64) fuel t next =
      .ok (⟨_, h⟩, SInt.ofNat1 0 (by decide))) ∨
    (¬ w.Fits (t.1 * fact m) ∧ Ops.factorialLoop (SInt.num w true toF64 fromF64) fuel t next = .panic) := by
  have hd : (SInt.num w true toF64 fromF64).ge next (SInt.num w true toF64 fromF64).one = decide (1 ≤ m) := by
    show decide ((1 : Int) ≤ next.1) = decide (1 ≤ m)
    rw [hn]; simp only [decide_eq_decide]; omega
  have hz : m = 0 → next = SInt.ofNat1 0 (by decide) := by
    intro h; apply Subtype.ext; rw [hn, h]; rfl
  have base : m = 0 → ∃ h : w.Fits (t.1 * fact m), (Res.ok (t, next) : Res (SInt w × SInt w)) =
      .ok ((⟨t.1 * fact m, h⟩ : SInt w), SInt.ofNat1 0 (by decide)) := by
    intro h
    subst h
    have : t.1 * (fact 0 : Nat) = t.1 := by simp [fact]
    refine ⟨by rw [this]; exact t.2, ?_⟩
    rw [hz rfl]
    have h2 : t = ⟨t.1 * (fact 0 : Nat), by rw [this]; exact t.2⟩ := Subtype.ext this.symm
    rw [← h2]
  induction fuel generalizing m t next with
  | zero =>
    have : m = 0 := by omega
    obtain ⟨h, hb⟩ := base this
    left
    refine ⟨h, ?_⟩
    unfold Ops.factorialLoop
    rw [hd]
    exact Eq.trans (by simp [this]) hb
  | succ fuel ih =>
    unfold Ops.factorialLoop
    rw [hd]
    by_cases h0 : m = 0
    · obtain ⟨h, hb⟩ := base h0
      left
      refine ⟨h, ?_⟩
      exact Eq.trans (by simp [h0]) hb
    · have h1 : 1 ≤ m := by omega
      simp only [h1, decide_true, if_true]
      obtain ⟨k, rfl⟩ : ∃ k, m = k + 1 := ⟨m - 1, by omega⟩
      have hfit : w.Fits (k : Int) := by
        have := next.2
        rw [hn] at this
        have h0 := SInt.lo_lt_zero w
        exact ⟨by omega, by have := this.2; omega⟩
      have hsub : (SInt.num w true toF64 fromF64).sub next (SInt.num w true toF64 fromF64).one = .ok ⟨(k : Int), hfit⟩ := by
        show SInt.arith true (next.1 - 1) = _
        have : next.1 - 1 = (k : Int) := by rw [hn]; omega
        unfold SInt.arith
        rw [this, SInt.of?_fits hfit]
      have hk : (0 : Int) < (fact k : Int) := by have := fact_pos k; omega
      have hassoc : t.1 * ((fact (k + 1) : Nat) : Int) = t.1 * ((k + 1 : Nat) : Int) * ((fact k : Nat) : Int) := by
        rw [fact, Int.mul_assoc]; congr 1
      by_cases hf : w.Fits (t.1 * ((k + 1 : Nat) : Int))
      · have hmul : (SInt.num w true toF64 fromF64).mul t next = .ok ⟨_, hf⟩ := by
          show SInt.arith true (t.1 * next.1) = _
          unfold SInt.arith
          rw [hn, SInt.of?_fits hf]
        rw [hmul]
        simp only [Res.bind_ok, hsub]
        have hpos : 0 < t.1 * ((k + 1 : Nat) : Int) := Int.mul_pos ht (by omega)
        have := ih k (by omega) ⟨_, hf⟩ hpos ⟨(k : Int), hfit⟩ rfl
          (by show decide ((1 : Int) ≤ (k : Int)) = decide (1 ≤ k)
              simp only [decide_eq_decide]; omega)
          (by intro h; apply Subtype.ext; show (k : Int) = 0; rw [h]; rfl)
          (by
            intro h; subst h
            have : (t.1 * ((0 + 1 : Nat) : Int)) * ((fact 0 : Nat) : Int) = t.1 * ((0 + 1 : Nat) : Int) := by simp [fact]
            refine ⟨by rw [this]; exact hf, ?_⟩
            have h2 : (⟨t.1 * ((0 + 1 : Nat) : Int), hf⟩ : SInt w) = ⟨t.1 * ((0 + 1 : Nat) : Int) * ((fact 0 : Nat) : Int),
              by rw [this]; exact hf⟩ := Subtype.ext this.symm
            rw [← h2]
            rfl)
        simp only at this
        rw [hassoc]
        exact this
      · right
        have hmul : (SInt.num w true toF64 fromF64).mul t next = .panic := by
          show SInt.arith true (t.1 * next.1) = _
          unfold SInt.arith
          rw [hn, SInt.of?_eq_none.mpr hf]
          rfl
        rw [hmul]
        refine ⟨fun hfit' => hf ?_, rfl⟩
        rw [hassoc] at hfit'
        have hpos : 0 < t.1 * ((k + 1 : Nat) : Int) := Int.mul_pos ht (by omega)
        have hlo := SInt.lo_lt_zero w
        refine ⟨by omega, Int.le_trans ?_ hfit'.2⟩
        have := Int.mul_le_mul_of_nonneg_left (show (1 : Int) ≤ (fact k : Int) by omega) (Int.le_of_lt hpos)
        simpa using this

end Prexel
