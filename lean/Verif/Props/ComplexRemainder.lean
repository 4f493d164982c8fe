import Verif.Props.Complex
import Verif.Spec.Decimal
/-!
# C70: the remainder of complex numbers
-/

namespace Prexel
variable {T : Type} {k : Cx T}

/-- A contract for the remainder of the components: `x % 1` is `x` without its whole part, as for the floating point numbers. -/
structure Cx.Truncates {T : Type} (k : Cx T) extends Cx.Exact k where
  rem : ∀ x, val (k.rem x k.one) = val x - wholePart (val x)

/-- C70: the signs: `-z` has the opposite parts and `+z` is `z`. -/
theorem C70_signs (K : Keys) (debug : Bool) (h : k.Exact) (config : Config) (c : Context (Cplx T))
    (hc : k.context K debug config = .ok c) (os : List (Op (Cplx T))) (z : Cplx T) :
    (∃ r, evalTokens ((c.runAll K debug os).view K) [.unary ['-'], .number z] = .ok r ∧ h.parts r = (- (h.parts z).1, - (h.parts z).2)) ∧
    evalTokens ((c.runAll K debug os).view K) [.unary ['+'], .number z] = .ok z := by
  obtain ⟨pi, e, -, -, hv⟩ := complex_inv hc
  have hun : ∀ u g, lookup hashSame k.unaryOps u = some g → ((c.runAll K debug os).view K).getUnary u = some g := by
    intro u g hg
    refine (C26_never_replaced K debug c os _).2.1 _ ?_
    rw [hv]; exact hg
  have hneg := eval_prefix _ (hun ['-'] (Ops.uncheckedNeg k.num).fn rfl) rfl z
  have hpos := eval_prefix _ (hun ['+'] Ops.unaryPlus.fn rfl) rfl z
  exact ⟨⟨_, hneg, by simp [Cx.Exact.parts, Cx.cNeg, h.neg]⟩, hpos⟩

/-- C70: `z mod w` is refused exactly for `w = 0`; otherwise it is `z - w·g`, where `g` is the quotient `z / w` with both parts truncated to whole
numbers. -/
theorem C70_remainder (K : Keys) (debug : Bool) (h : k.Truncates) (config : Config) (c : Context (Cplx T))
    (hc : k.context K debug config = .ok c) (os : List (Op (Cplx T))) (z w : Cplx T) :
    (h.parts w = (0, 0) → evalTokens ((c.runAll K debug os).view K) (infixTokens z (str "mod") w) = .err .divisionByZero) ∧
    (h.parts w ≠ (0, 0) → ∃ q r, evalTokens ((c.runAll K debug os).view K) (infixTokens z ['/'] w) = .ok q ∧
      evalTokens ((c.runAll K debug os).view K) (infixTokens z (str "mod") w) = .ok r ∧
      h.parts r = ((h.parts z).1 - ((h.parts w).1 * wholePart (h.parts q).1 - (h.parts w).2 * wholePart (h.parts q).2),
        (h.parts z).2 - ((h.parts w).1 * wholePart (h.parts q).2 + (h.parts w).2 * wholePart (h.parts q).1))) := by
  have hmod : evalTokens ((c.runAll K debug os).view K) (infixTokens z (str "mod") w) =
      if k.isZero w.re && k.isZero w.im then .err .divisionByZero else .ok (k.cRem z w) :=
    complex_infix hc os (o := str "mod") (g := (Ops.uncheckedMod k.num).fn) rfl z w
  have hdiv : evalTokens ((c.runAll K debug os).view K) (infixTokens z ['/'] w) =
      if k.isZero w.re && k.isZero w.im then .err .divisionByZero else .ok (k.cDiv z w) :=
    complex_infix hc os (o := ['/']) (g := (Ops.uncheckedDiv k.num).fn) rfl z w
  constructor
  · intro h0
    simp only [Cx.Exact.parts, Prod.mk.injEq] at h0
    rw [hmod, (h.isZero _).mpr h0.1, (h.isZero _).mpr h0.2]
    rfl
  · intro h0
    have hcond : ¬ ((k.isZero w.re && k.isZero w.im) = true) := by
      rw [Bool.and_eq_true, h.isZero, h.isZero]
      intro h1
      exact h0 (by simp [Cx.Exact.parts, h1])
    rw [if_neg hcond] at hdiv hmod
    refine ⟨_, _, hdiv, hmod, ?_⟩
    generalize hq : k.cDiv z w = q
    simp only [Cx.Exact.parts, Cx.cRem, hq, Cx.cMul, Cx.cSub, h.sub, h.add, h.mul, h.rem, Prod.mk.injEq]
    constructor <;> grind

/-- Components with the truncated remainder. -/
def Demo.cxWhole : Cx Rat := { Demo.cx with rem := fun x y => x - y * wholePart (x / y) }

/-- They satisfy the contract. -/
def Demo.cxWholeTruncates : Demo.cxWhole.Truncates where
  val := id
  zero := rfl
  one := rfl
  add _ _ := rfl
  sub _ _ := rfl
  mul _ _ := rfl
  div _ _ _ := rfl
  neg _ := rfl
  isZero x := by simp [cxWhole, cx]
  rem x := by
    have : (x / 1 : Rat) = x := by grind
    show x - 1 * (wholePart (x / 1) : Rat) = x - wholePart x
    rw [this]; grind

/-- `(7 - 5i) mod (2 + i)`: the quotient is 9/5 - 17/5·i, truncated 1 - 3i, and the remainder is 2. -/
example : ∃ c, Demo.cxWhole.newContext Demo.keys true = .ok c ∧ Demo.cxWholeTruncates.parts ⟨2, 1⟩ ≠ (0, 0) ∧
    evalTokens (c.view Demo.keys) (infixTokens ⟨7, -5⟩ (str "mod") ⟨2, 1⟩) = .ok ⟨2, 0⟩ := by
  obtain ⟨c, hc, -⟩ := C31_complex Demo.keys true Demo.cxWhole (Config.new.withComplexNumber true) 3 2 rfl rfl
  refine ⟨c, hc, by decide +kernel, ?_⟩
  exact (complex_infix hc [] (o := str "mod") (g := (Ops.uncheckedMod Demo.cxWhole.num).fn) rfl _ _).trans (by decide +kernel)

end Prexel
