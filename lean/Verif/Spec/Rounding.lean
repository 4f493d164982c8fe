import Verif.Spec.Decimal
/-!
# Specification: rounding half to even, and where the square root hangs
-/

namespace Prexel

/-- `n` is the whole number nearest to `q`; of two nearest ones, the even one. -/
def NearestEven (n : Int) (q : Rat) : Prop := q - 1 / 2 ≤ n ∧ n ≤ q + 1 / 2 ∧ ((n : Rat) = q - 1 / 2 ∨ (n : Rat) = q + 1 / 2 → n % 2 = 0)

/-- The contract of `rust_decimal` for products and quotients up to 7, where 28 digits behind the point always fit: the result is the nearest
number with 28 digits behind the point, ties to even ("Banker's rounding"). -/
structure Dec.Laws.TiesToEven {D F : Type} {d : Dec D F} (L : d.Laws) : Prop where
  mul : ∀ x y z, Bounded 7 (L.val x * L.val y) → d.checkedMul x y = some z →
    ∃ n : Int, L.val z * 10 ^ 28 = n ∧ NearestEven n (L.val x * L.val y * 10 ^ 28)
  div : ∀ x y z, L.val y ≠ 0 → Bounded 7 (L.val x / L.val y) → d.checkedDiv x y = some z →
    ∃ n : Int, L.val z * 10 ^ 28 = n ∧ NearestEven n (L.val x / L.val y * 10 ^ 28)

/-- The contract of the conversions to and from `f64` and of `f64::sqrt`: the square root of the float is right to one part in a thousand. -/
def Dec.Laws.SqrtClose {D F : Type} {d : Dec D F} (L : d.Laws) (f : F64 F) : Prop :=
  ∀ x, 0 < L.val x → ∃ v s, d.toF64 x = some v ∧ d.fromF64 (f.sqrt v) = some s ∧ 0 < L.val s ∧
    998001 * L.val x ≤ 1000000 * L.val s ^ 2 ∧ 1000000 * L.val s ^ 2 ≤ 1002001 * L.val x

/-- The contract of the conversions to and from `f64` and of `f64::sqrt` for squares of whole numbers that `f64` holds exactly. -/
def Dec.Laws.SqrtExact {D F : Type} {d : Dec D F} (L : d.Laws) (f : F64 F) : Prop :=
  ∀ x (n : Nat), n < 2 ^ 26 → L.val x = (n : Rat) ^ 2 → ∃ v s, d.toF64 x = some v ∧ d.fromF64 (f.sqrt v) = some s ∧ L.val s = n

/-- The two decimals up to 15 whose square root loop goes back and forth between two neighbours for ever:
3.9720354828415177818323744671 and 4.0000000000000000000000000003. -/
def Hangs (q : Rat) : Prop := q * 10 ^ 28 = 39720354828415177818323744671 ∨ q * 10 ^ 28 = 40000000000000000000000000003

end Prexel
