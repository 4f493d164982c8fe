import Verif.Model.Decimal
import Verif.Model.Complex
import Verif.Lemmas.Builtin
/-!
# The kinds of the errors of a result
-/

namespace Prexel
variable {N F D T α β : Type}

/-- An error of `r` is of one of these kinds. -/
structure Kinds (S : List ErrorKind) (r : Res α) : Prop where
  mem : ∀ k, r = .err k → k ∈ S

namespace Kinds
variable {S : List ErrorKind}

theorem ok (v : α) : Kinds S (.ok v) := ⟨fun _ h => by cases h⟩
theorem pure' (v : α) : Kinds S (pure v : Res α) := ok v
theorem panic : Kinds S (.panic : Res α) := ⟨fun _ h => by cases h⟩
theorem err {k : ErrorKind} (h : k ∈ S) : Kinds S (.err k : Res α) := ⟨fun _ e => by cases e; exact h⟩
theorem bind {x : Res α} {f : α → Res β} (hx : Kinds S x) (hf : ∀ v, Kinds S (f v)) : Kinds S (x.bind f) := by
  cases x with
  | ok v => exact hf v
  | err k => exact ⟨fun _ e => by cases e; exact hx.mem k rfl⟩
  | panic => exact panic
theorem bind' {x : Res α} {f : α → Res β} (hx : Kinds S x) (hf : ∀ v, Kinds S (f v)) : Kinds S (x >>= f) := bind hx hf
theorem ofOption {o : Option α} {k : ErrorKind} (h : k ∈ S) : Kinds S (Res.ofOption o k) := by
  cases o with
  | none => exact err h
  | some v => exact ok v
theorem orOverflow {o : Option α} (h : .overflow ∈ S) : Kinds S (Ops.orOverflow o) := ofOption h
theorem unwrapNone {r : Res α} : Kinds S r.unwrapNone := by cases r <;> first | exact ok _ | exact panic
theorem mono {S' : List ErrorKind} {r : Res α} (h : Kinds S r) (hs : S ⊆ S') : Kinds S' r := ⟨fun k e => hs (h.mem k e)⟩
theorem ite {p : Prop} [Decidable p] {x y : Res α} (hx : Kinds S x) (hy : Kinds S y) : Kinds S (if p then x else y) := by split <;> assumption

end Kinds

/-- One step towards `Kinds`. -/
syntax "kstep" : tactic
macro_rules | `(tactic| kstep) => `(tactic| split)
macro_rules | `(tactic| kstep) => `(tactic| dsimp only)
macro_rules | `(tactic| kstep) => `(tactic| with_reducible refine Kinds.bind' ?_ fun _ => ?_)
macro_rules | `(tactic| kstep) => `(tactic| with_reducible refine Kinds.bind ?_ fun _ => ?_)
macro_rules | `(tactic| kstep) => `(tactic| with_reducible refine Kinds.ite ?_ ?_)
macro_rules | `(tactic| kstep) => `(tactic| with_reducible exact Kinds.err (by simp))
macro_rules | `(tactic| kstep) => `(tactic| with_reducible exact Kinds.orOverflow (by simp))
macro_rules | `(tactic| kstep) => `(tactic| with_reducible exact Kinds.ofOption (by simp))
macro_rules | `(tactic| kstep) => `(tactic| with_reducible exact Kinds.unwrapNone)
macro_rules | `(tactic| kstep) => `(tactic| with_reducible exact Kinds.panic)
macro_rules | `(tactic| kstep) => `(tactic| with_reducible exact Kinds.pure' _)
macro_rules | `(tactic| kstep) => `(tactic| with_reducible exact Kinds.ok _)
macro_rules | `(tactic| kstep) => `(tactic| with_reducible assumption)

/-- All steps. -/
macro "kinds" : tactic => `(tactic| repeat' kstep)

/-! ## Decimals -/

namespace Dec
variable (d : Dec D F) (f : F64 F) {S : List ErrorKind}

theorem add_kinds (x y : D) : Kinds S (d.add x y) := Kinds.unwrapNone
theorem sub_kinds (x y : D) : Kinds S (d.sub x y) := Kinds.unwrapNone
theorem mul_kinds (x y : D) : Kinds S (d.mul x y) := Kinds.unwrapNone
theorem div_kinds (x y : D) : Kinds S (d.div x y) := Kinds.unwrapNone
theorem rem_kinds (x y : D) : Kinds S (d.rem x y) := Kinds.unwrapNone
theorem inv_kinds (x : D) : Kinds S (d.inv x) := Kinds.unwrapNone
macro_rules | `(tactic| kstep) => `(tactic| with_reducible exact add_kinds ..)
macro_rules | `(tactic| kstep) => `(tactic| with_reducible exact sub_kinds ..)
macro_rules | `(tactic| kstep) => `(tactic| with_reducible exact mul_kinds ..)
macro_rules | `(tactic| kstep) => `(tactic| with_reducible exact div_kinds ..)
macro_rules | `(tactic| kstep) => `(tactic| with_reducible exact rem_kinds ..)
macro_rules | `(tactic| kstep) => `(tactic| with_reducible exact inv_kinds ..)

theorem approxEq_kinds (x y z : D) : Kinds S (d.approxEq x y z) := by unfold approxEq; kinds
macro_rules | `(tactic| kstep) => `(tactic| with_reducible exact approxEq_kinds ..)
theorem approx_kinds (x : D) : Kinds S (d.approx x) := by unfold approx; kinds
macro_rules | `(tactic| kstep) => `(tactic| with_reducible exact approx_kinds ..)
theorem toRadians_kinds (x : D) : Kinds S (d.toRadians x) := by unfold toRadians; kinds
macro_rules | `(tactic| kstep) => `(tactic| with_reducible exact toRadians_kinds ..)
theorem toDegrees_kinds (x : D) : Kinds S (d.toDegrees x) := by unfold toDegrees; kinds
macro_rules | `(tactic| kstep) => `(tactic| with_reducible exact toDegrees_kinds ..)

theorem cadd_kinds (x y : D) : Kinds [.overflow] (d.cadd x y) := by unfold cadd; kinds
theorem csub_kinds (x y : D) : Kinds [.overflow] (d.csub x y) := by unfold csub; kinds
theorem cmul_kinds (x y : D) : Kinds [.overflow] (d.cmul x y) := by unfold cmul; kinds
theorem cdiv_kinds (x y : D) : Kinds [.overflow] (d.cdiv x y) := by unfold cdiv; kinds
theorem crem_kinds (x y : D) : Kinds [.overflow] (d.crem x y) := by unfold crem; kinds
macro_rules | `(tactic| kstep) => `(tactic| with_reducible exact cadd_kinds ..)
macro_rules | `(tactic| kstep) => `(tactic| with_reducible exact csub_kinds ..)
macro_rules | `(tactic| kstep) => `(tactic| with_reducible exact cmul_kinds ..)
macro_rules | `(tactic| kstep) => `(tactic| with_reducible exact cdiv_kinds ..)
macro_rules | `(tactic| kstep) => `(tactic| with_reducible exact crem_kinds ..)
theorem checkedInv_kinds (x : D) : Kinds [.overflow] (d.checkedInv x) := by unfold checkedInv; kinds
macro_rules | `(tactic| kstep) => `(tactic| with_reducible exact checkedInv_kinds ..)

theorem powiLoop_kinds (n : Nat) (r b : D) (e : Nat) : Kinds [.overflow] (d.powiLoop n r b e) := by
  induction n generalizing r b e with
  | zero => unfold powiLoop; kinds
  | succ n ih =>
    unfold powiLoop
    refine Kinds.ite ?_ (Kinds.ok _)
    repeat' first | with_reducible exact ih _ _ _ | kstep
macro_rules | `(tactic| kstep) => `(tactic| with_reducible exact powiLoop_kinds ..)
theorem powiNat_kinds (x : D) (e : Nat) : Kinds [.overflow] (d.powiNat x e) := by unfold powiNat; kinds
macro_rules | `(tactic| kstep) => `(tactic| with_reducible exact powiNat_kinds ..)
theorem powi_kinds (x : D) (e : Int) : Kinds [.overflow] (d.powi x e) := by unfold powi; kinds
macro_rules | `(tactic| kstep) => `(tactic| with_reducible exact powi_kinds ..)
theorem sqrtLoop_kinds (v : D) (n : Nat) (x r : D) : Kinds [.overflow] (d.sqrtLoop v n x r) := by
  induction n generalizing x r with
  | zero => unfold sqrtLoop; kinds
  | succ n ih =>
    unfold sqrtLoop
    exact Kinds.ite (Kinds.ok _) (Kinds.bind' (by kinds) fun _ => Kinds.bind' (by kinds) fun _ => Kinds.bind' (by kinds) fun _ => ih ..)
macro_rules | `(tactic| kstep) => `(tactic| with_reducible exact sqrtLoop_kinds ..)
theorem sqrt_kinds (x : D) : Kinds [.overflow] (d.sqrt f x) := by unfold sqrt; kinds
macro_rules | `(tactic| kstep) => `(tactic| with_reducible exact sqrt_kinds ..)
theorem cbrtLoop_kinds (v : D) (n : Nat) (x : D) : Kinds [.overflow] (d.cbrtLoop v n x) := by
  induction n generalizing x with
  | zero => unfold cbrtLoop; kinds
  | succ n ih =>
    unfold cbrtLoop
    exact Kinds.bind' (by kinds) fun _ => Kinds.bind' (by kinds) fun _ => Kinds.bind' (by kinds) fun _ => Kinds.bind' (by kinds) fun _ =>
      Kinds.bind' (by kinds) fun _ => ih ..
macro_rules | `(tactic| kstep) => `(tactic| with_reducible exact cbrtLoop_kinds ..)
theorem cbrt_kinds (x : D) : Kinds [.overflow] (d.cbrt x) := by unfold cbrt; kinds
theorem lnScale_kinds (n : Nat) (a : D) (m : Nat) : Kinds [.overflow] (d.lnScale n a m) := by
  induction n generalizing a m with
  | zero => unfold lnScale; kinds
  | succ n ih =>
    unfold lnScale
    exact Kinds.ite (Kinds.bind' (by kinds) fun _ => ih ..) (Kinds.ok _)
macro_rules | `(tactic| kstep) => `(tactic| with_reducible exact lnScale_kinds ..)
theorem lnSeries_kinds (x : D) (n m : Nat) (r : D) : Kinds [.overflow] (d.lnSeries x n m r) := by
  induction n generalizing m r with
  | zero => unfold lnSeries; kinds
  | succ n ih =>
    unfold lnSeries
    exact Kinds.bind' (by kinds) fun _ => Kinds.bind' (by kinds) fun _ => Kinds.bind' (by kinds) fun _ => Kinds.bind' (by kinds) fun _ =>
      Kinds.bind' (by kinds) fun _ => Kinds.bind' (by kinds) fun _ => ih ..
macro_rules | `(tactic| kstep) => `(tactic| with_reducible exact lnSeries_kinds ..)
theorem lnDepth_kinds (n : Nat) (x : D) : Kinds [.overflow] (d.lnDepth n x) := by
  induction n generalizing x with
  | zero => unfold lnDepth; kinds
  | succ n ih =>
    unfold lnDepth
    refine Kinds.ite (by kinds) (Kinds.ite (by kinds) (Kinds.ite ?_ (by kinds)))
    exact Kinds.bind' (by kinds) fun _ => Kinds.bind' (ih _) fun _ => by kinds
theorem ln_kinds (x : D) : Kinds [.overflow] (d.ln x) := lnDepth_kinds ..
macro_rules | `(tactic| kstep) => `(tactic| with_reducible exact ln_kinds ..)
theorem log_kinds (x b : D) : Kinds [.overflow] (d.log x b) := by unfold log; kinds
theorem expLoop_kinds (a : D) (n m : Nat) (r : D) : Kinds [.overflow] (d.expLoop a n m r) := by
  induction n generalizing m r with
  | zero => unfold expLoop; kinds
  | succ n ih =>
    unfold expLoop
    exact Kinds.bind' (by kinds) fun _ => Kinds.bind' (by kinds) fun _ => ih ..
macro_rules | `(tactic| kstep) => `(tactic| with_reducible exact expLoop_kinds ..)
theorem exp_kinds (x : D) : Kinds [.overflow] (d.exp x) := by unfold exp; kinds
macro_rules | `(tactic| kstep) => `(tactic| with_reducible exact exp_kinds ..)
theorem powd_kinds (x y : D) : Kinds [.overflow] (d.powd x y) := by unfold powd; kinds
macro_rules | `(tactic| kstep) => `(tactic| with_reducible exact powd_kinds ..)
theorem taylor_kinds (xx : D) (m : Nat → Nat) (k n : Nat) (g r : D) : Kinds S (d.taylor xx m k n g r) := by
  induction k generalizing n g r with
  | zero => unfold taylor; kinds
  | succ k ih =>
    unfold taylor
    exact Kinds.bind' (by kinds) fun _ => Kinds.bind' (by kinds) fun _ => Kinds.bind' (by kinds) fun _ => ih ..
macro_rules | `(tactic| kstep) => `(tactic| with_reducible exact taylor_kinds ..)
theorem sin_kinds (x : D) : Kinds S (d.sin x) := by unfold sin; kinds
macro_rules | `(tactic| kstep) => `(tactic| with_reducible exact sin_kinds ..)
theorem cos_kinds (x : D) : Kinds S (d.cos x) := by unfold cos; kinds
macro_rules | `(tactic| kstep) => `(tactic| with_reducible exact cos_kinds ..)
theorem tan_kinds (x : D) : Kinds [.overflow] (d.tan x) := by unfold tan; kinds
theorem atanLoop_kinds (x : D) (n : Nat) (r : D) : Kinds S (d.atanLoop x n r) := by
  induction n generalizing r with
  | zero => unfold atanLoop; kinds
  | succ n ih =>
    unfold atanLoop
    exact Kinds.bind' (by kinds) fun _ => Kinds.bind' (by kinds) fun _ => Kinds.bind' (by kinds) fun _ => Kinds.bind' (by kinds) fun _ =>
      Kinds.bind' (by kinds) fun _ => Kinds.bind' (by kinds) fun _ => ih ..
macro_rules | `(tactic| kstep) => `(tactic| with_reducible exact atanLoop_kinds ..)
theorem atanDepth_kinds (n : Nat) (x : D) : Kinds S (d.atanDepth n x) := by
  induction n generalizing x with
  | zero => unfold atanDepth; kinds
  | succ n ih =>
    unfold atanDepth
    refine Kinds.ite (by kinds) (Kinds.ite (by kinds) (Kinds.ite (by kinds) (Kinds.ite ?_ (Kinds.ite ?_ (by kinds)))))
    · exact Kinds.bind' (by kinds) fun _ => Kinds.bind' (ih _) fun _ => by kinds
    · exact Kinds.bind' (by kinds) fun _ => Kinds.bind' (ih _) fun _ => by kinds
theorem atan_kinds (x : D) : Kinds S (d.atan x) := atanDepth_kinds ..
macro_rules | `(tactic| kstep) => `(tactic| with_reducible exact atan_kinds ..)
theorem asin_kinds (x : D) : Kinds [.overflow] (d.asin f x) := by unfold asin; kinds
theorem acos_kinds (x : D) : Kinds [.overflow] (d.acos f x) := by unfold acos; kinds
theorem atan2_kinds (y x : D) : Kinds S (d.atan2 y x) := by unfold atan2; kinds
theorem sinh_kinds (x : D) : Kinds [.overflow] (d.sinh x) := by unfold sinh; kinds
macro_rules | `(tactic| kstep) => `(tactic| with_reducible exact sinh_kinds ..)
theorem cosh_kinds (x : D) : Kinds [.overflow] (d.cosh x) := by unfold cosh; kinds
macro_rules | `(tactic| kstep) => `(tactic| with_reducible exact cosh_kinds ..)
theorem tanh_kinds (x : D) : Kinds [.overflow] (d.tanh x) := by unfold tanh; kinds
theorem asinh_kinds (x : D) : Kinds S (d.asinh f x) := by unfold asinh; kinds
theorem acosh_kinds (x : D) : Kinds [.overflow] (d.acosh f x) := by unfold acosh; kinds
theorem atanh_kinds (x : D) : Kinds [.overflow] (d.atanh x) := by unfold atanh; kinds
theorem gammaSum_kinds (x : D) (n : Nat) (l : List D) (r : D) : Kinds [.overflow] (d.gammaSum x n l r) := by
  induction l generalizing n r with
  | nil => unfold gammaSum; kinds
  | cons c l ih =>
    unfold gammaSum
    exact Kinds.bind' (by kinds) fun _ => Kinds.bind' (by kinds) fun _ => Kinds.bind' (by kinds) fun _ => ih ..
macro_rules | `(tactic| kstep) => `(tactic| with_reducible exact gammaSum_kinds ..)
theorem gammaDepth_kinds (n : Nat) (x : D) : Kinds [.overflow] (d.gammaDepth f n x) := by
  induction n generalizing x with
  | zero => unfold gammaDepth; kinds
  | succ n ih =>
    unfold gammaDepth
    refine Kinds.ite ?_ (by kinds)
    exact Kinds.bind' (by kinds) fun _ => Kinds.bind' (by kinds) fun _ => Kinds.bind' (by kinds) fun _ => Kinds.bind' (by kinds) fun _ =>
      Kinds.bind' (ih _) fun _ => by kinds
theorem gamma_kinds (x : D) : Kinds [.overflow] (d.gamma f x) := gammaDepth_kinds ..
macro_rules | `(tactic| kstep) => `(tactic| with_reducible exact gamma_kinds ..)
theorem factorialLoop_kinds (n : Nat) (r x : D) : Kinds [.overflow] (d.factorialLoop n r x) := by
  induction n generalizing r x with
  | zero => unfold factorialLoop; kinds
  | succ n ih =>
    unfold factorialLoop
    exact Kinds.ite (Kinds.bind' (by kinds) fun _ => Kinds.bind' (by kinds) fun _ => ih ..) (Kinds.ok _)
macro_rules | `(tactic| kstep) => `(tactic| with_reducible exact factorialLoop_kinds ..)
theorem factorial_kinds (x : D) : Kinds [.overflow] (d.factorial f x) := by unfold factorial; kinds

end Dec
end Prexel
