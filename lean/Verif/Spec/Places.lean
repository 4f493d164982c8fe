import Verif.Spec.Numerals
import Verif.Spec.Arith
/-!
# Specification: the places behind the point
-/

namespace Prexel

/-- A numeral with `p` places behind the point; `c` is the number that its digits give without the point: `12.50` is `WrittenPlaces _ 1250 2`. -/
inductive WrittenPlaces : Str → Nat → Nat → Prop
  | whole {s : Str} : Digits s → WrittenPlaces s (digitsValue s) 0
  | pointed {a b : Str} : Digits a → Digits b → WrittenPlaces (a ++ '.' :: b) (digitsValue (a ++ b)) b.length

/-- Without superfluous zeros in front: `0.5` and `10`, but not `00.5` and `010`. -/
def UsualPlaces (s : Str) : Prop := ∀ r, s = '0' :: r → r = [] ∨ ∃ b, r = '.' :: b

/-- A usual numeral with a minus sign in front if the number is negative. A zero may have one, for there is a minus zero. -/
def SignedWritten (t : Str) (c : Int) (p : Nat) : Prop :=
  ∃ w, WrittenPlaces w c.natAbs p ∧ UsualPlaces w ∧ (0 < c → t = w) ∧ (c < 0 → t = '-' :: w) ∧ (c = 0 → t = w ∨ t = '-' :: w)

/-- School arithmetic with places: a sum or a difference has the larger number of places of the two, a product has the sum of them. The pair `(c, p)`
is `c / 10 ^ p`. There is none if a result needs more than 96 bits or 28 places, or if something is added to, subtracted from or multiplied with
zero. -/
def Arith.places {N : Type} (lit : N → Int × Nat) : Arith N → Option (Int × Nat)
  | .num n => some (lit n)
  | .neg e => (e.places lit).map fun x => (-x.1, x.2)
  | .fact _ => none
  | .bin o l r => (l.places lit).bind fun x => (r.places lit).bind fun y =>
    let m := max x.2 y.2
    let z : Option (Int × Nat) := match o with
      | .add => some (x.1 * 10 ^ (m - x.2) + y.1 * 10 ^ (m - y.2), m)
      | .sub => some (x.1 * 10 ^ (m - x.2) - y.1 * 10 ^ (m - y.2), m)
      | .mul => some (x.1 * y.1, x.2 + y.2)
      | _ => none
    z.bind fun z => if x.1 ≠ 0 ∧ y.1 ≠ 0 ∧ z.1.natAbs < 2 ^ 96 ∧ z.2 ≤ 28 then some z else none

end Prexel
