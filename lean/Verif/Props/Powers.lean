import Verif.Props.Floats
/-!
# Powers of integers (C88)
-/

set_option linter.unusedVariables false

namespace Prexel
variable {F : Type} {w : Width}

/-- At most 2^53, so that every integer up to it is a floating point number. -/
def Small (x : Int) : Prop := -(2 ^ 53) ≤ x ∧ x ≤ 2 ^ 53

/-- The contract of conversions between integers and `f64`, and of `f64::powf`. `ofInt n` is the floating point number `n`; integers up to 2^53
are converted exactly; a power that is such an integer is exact; beyond 2^53 all floating point numbers are even. A power with a negative
exponent is less than 1 (or infinite, or 1), and its fraction is dropped. -/
structure PowerContract (f : F64 F) (toF64 : SInt w → F) (fromF64 : F → Option (SInt w)) where
  ofInt : Int → F
  exactTo : ∀ x, Small x.1 → toF64 x = ofInt x.1
  exactFrom : ∀ n, Small n → fromF64 (ofInt n) = SInt.of? n
  powf : ∀ (a : Int) (b : Nat), Small a → Small b → Small (a ^ b) → f.powf (ofInt a) (ofInt b) = ofInt (a ^ b)
  fraction : ∀ (a : Int) (b : Nat), Small a → Small b → 0 < b → (2 ≤ a ∨ a ≤ -2) → fromF64 (f.powf (ofInt a) (ofInt (-b))) = SInt.of? 0
  infinite : ∀ b : Nat, Small b → 0 < b → fromF64 (f.powf (ofInt 0) (ofInt (-b))) = none
  even : ∀ v x, fromF64 v = some x → ¬ Small x.1 → x.1 % 2 = 0

section
variable {K : Keys} {debug docs : Bool} {f : F64 F} {toF64 : SInt w → F} {fromF64 : F → Option (SInt w)} {ctx : Ctx (SInt w)}

theorem pow_infix (h : BuiltIn K debug docs f (SInt.num w debug toF64 fromF64) ctx) (x y : SInt w) :
    evalTokens ctx (infixTokens x (str "^") y) = Res.ofOption (fromF64 (f.powf (toF64 x) (toF64 y))) .overflow :=
  (C82_two_arguments h x y _ _ rfl rfl).2.2.2

/-- C88, the part that holds. Over integers, the power of two numbers up to 2^53 with a non-negative exponent is exact if it is at most 2^53: it
is the result if it fits, and `Overflow` otherwise. With a negative exponent, the fraction is dropped: powers of 0 are refused with `Overflow`,
and powers of numbers other than -1, 0 and 1 are 0. -/
theorem C88_power_partial (P : PowerContract f toF64 fromF64) (h : BuiltIn K debug docs f (SInt.num w debug toF64 fromF64) ctx)
    (x y : SInt w) (hx : Small x.1) (hy : Small y.1) :
    (0 ≤ y.1 → Small (x.1 ^ y.1.toNat) → evalTokens ctx (infixTokens x (str "^") y) = exactly (x.1 ^ y.1.toNat)) ∧
    (y.1 < 0 → x.1 = 0 → evalTokens ctx (infixTokens x (str "^") y) = .err .overflow) ∧
    (y.1 < 0 → 2 ≤ x.1 ∨ x.1 ≤ -2 → evalTokens ctx (infixTokens x (str "^") y) = exactly 0) := by
  rw [pow_infix h, P.exactTo x hx, P.exactTo y hy]
  obtain ⟨h1, h2⟩ := hy
  refine ⟨fun h0 hs => ?_, fun h0 hz => ?_, fun h0 hb => ?_⟩
  · have := P.powf x.1 y.1.toNat hx ⟨by omega, by omega⟩ hs
    rw [show ((y.1.toNat : Nat) : Int) = y.1 by omega] at this
    rw [this, P.exactFrom _ hs]
    exact orOverflow_exactly _
  · have := P.infinite (-y.1).toNat ⟨by omega, by omega⟩ (by omega)
    rw [show (-((-y.1).toNat : Nat) : Int) = y.1 by omega] at this
    rw [hz, this]; rfl
  · have := P.fraction x.1 (-y.1).toNat hx ⟨by omega, by omega⟩ (by omega) hb
    rw [show (-((-y.1).toNat : Nat) : Int) = y.1 by omega] at this
    rw [this]
    exact orOverflow_exactly _

theorem odd_pow (a : Int) (ha : a % 2 = 1) (b : Nat) : a ^ b % 2 = 1 := by
  induction b with
  | zero => simp
  | succ b ih => rw [Int.pow_succ, Int.mul_emod, ih, ha]; rfl

/-- C88 is false of the code: no power of an odd number beyond 2^53 is ever evaluated to that power, even if it fits. -/
theorem C88_counterexample (P : PowerContract f toF64 fromF64) (h : BuiltIn K debug docs f (SInt.num w debug toF64 fromF64) ctx)
    (x y r : SInt w) (hy : 0 ≤ y.1) (hodd : x.1 % 2 = 1) (hr : r.1 = x.1 ^ y.1.toNat) (hbig : ¬ Small r.1) :
    evalTokens ctx (infixTokens x (str "^") y) ≠ .ok r := by
  rw [pow_infix h]
  intro he
  cases hv : fromF64 (f.powf (toF64 x) (toF64 y)) with
  | none => rw [hv] at he; cases he
  | some z =>
    rw [hv] at he
    have : z = r := by injection he
    subst this
    have h1 := P.even _ z hv hbig
    have h2 := odd_pow x.1 hodd y.1.toNat
    omega

end

/-! ## An example -/

namespace Demo

/-- The toy float with powers with negative exponents; a large number stands for infinity. -/
def powerFloat : F64 Int := { float with
  powf := fun x y => if 0 ≤ y then x ^ y.toNat else if x = 0 then 2 ^ 200 else if x = 1 then 1 else if x = -1 then x ^ y.natAbs else 0 }

/-- Beyond 2^53 only even numbers. -/
def roundEven (v : Int) : Int := if -(2 ^ 53) ≤ v ∧ v ≤ 2 ^ 53 then v else v - v % 2

/-- Numbers of type `i64` with rounding. -/
def powerInt (debug : Bool) : Num (SInt i64) Int := SInt.num i64 debug (fun x => roundEven x.1) fun v => SInt.of? (roundEven v)

def powerContract : PowerContract (w := i64) powerFloat (fun x => roundEven x.1) (fun v => SInt.of? (roundEven v)) where
  ofInt n := n
  exactTo x h := by simp only [roundEven]; exact if_pos h
  exactFrom n h := by simp only [roundEven]; rw [if_pos (show _ ∧ _ from h)]
  powf a b _ _ _ := by simp [powerFloat]
  fraction a b _ _ h0 h := by
    have h1 : ¬ (0 : Int) ≤ -b := by omega
    have h2 : a ≠ 0 := by omega
    have h3 : a ≠ 1 := by omega
    have h4 : a ≠ -1 := by omega
    simp only [powerFloat, if_neg h1, if_neg h2, if_neg h3, if_neg h4]; rfl
  infinite b _ h0 := by
    have h1 : ¬ (0 : Int) ≤ -b := by omega
    simp only [powerFloat, if_neg h1, if_true]; decide +kernel
  even v x h hx := by
    simp only [SInt.of?] at h
    split at h
    · injection h with h
      rw [← h] at hx ⊢
      simp only [roundEven] at hx ⊢
      split
      · next hv => rw [if_pos hv] at hx; exact absurd hv hx
      · omega
    · cases h

end Demo

/-- 3^34 is 16677181699666569 and fits into `i64`, but is not what the code returns; 3^33 is right. -/
example : ∃ c, Context.checked Demo.keys true true Demo.powerFloat (Demo.powerInt true) Config.new = .ok c ∧
    (∀ (x y r : SInt i64), x.1 = 3 → y.1 = 34 → r.1 = 16677181699666569 → evalTokens (c.view Demo.keys) (infixTokens x (str "^") y) ≠ .ok r) ∧
    (∀ (x y : SInt i64), x.1 = 3 → y.1 = 33 → evalTokens (c.view Demo.keys) (infixTokens x (str "^") y) = exactly 5559060566555523) := by
  obtain ⟨c, hc, -⟩ := C31_checked Demo.keys true true Demo.powerFloat (Demo.powerInt true) Config.new ⟨3, by decide⟩ ⟨2, by decide⟩ rfl rfl
  have hb : BuiltIn Demo.keys true true Demo.powerFloat (Demo.powerInt true) (c.view Demo.keys) := ⟨_, c, [], .inl hc, rfl⟩
  refine ⟨c, hc, fun x y r hx hy hr => ?_, fun x y hx hy => ?_⟩
  · refine C88_counterexample Demo.powerContract hb x y r (by omega) (by omega) ?_ ?_
    · rw [hr, hx, hy]; decide
    · rw [hr]; unfold Small; omega
  · have := (C88_power_partial Demo.powerContract hb x y (by rw [hx]; unfold Small; omega) (by rw [hy]; unfold Small; omega)).1 (by omega)
    rw [hx, hy] at this
    exact this (by unfold Small; decide)

end Prexel
