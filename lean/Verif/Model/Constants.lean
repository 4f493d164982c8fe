import Verif.Model.Decimal96
/-!
# The published constants of decimals

Models `prexel::decimal::consts` of `prexel/src/decimal/mod.rs`.
-/

namespace Prexel

/-- `prexel::decimal::consts`, prexel/src/decimal/mod.rs 14-65: the names and the literals `dec!(..)`. `E`, `E_INV`, `PI`, `PI_2` and `PI_FRACT_2`
are `Decimal::E`, `E_INVERSE`, `PI`, `TWO_PI` and `HALF_PI` of the crate `rust_decimal`, which is not in the repository; their digits are from its
documentation. -/
def D96.constants : List (String × D96) :=
  let d28 (neg : Bool) (c : ℕ) : D96 := D96.lit neg c 28
  [("E", d28 false 27182818284590452353602874714),
   ("E_INV", d28 false 3678794411714423215955237702),
   ("E_POW_2", d28 false 73890560989306502272304274605),
   ("PI", d28 false 31415926535897932384626433833),
   ("PI_2", d28 false 62831853071795864769252867666),
   ("PI_MINUS", d28 true 31415926535897932384626433833),
   ("PI_2_MINUS", d28 true 62831853071795864769252867666),
   ("PI_FRACT_2", d28 false 15707963267948966192313216916),
   ("PI_FRACT_3", d28 false 10471975511965977461542144610),
   ("PI_FRACT_4", d28 false 7853981633974483096156608458),
   ("PI_FRACT_6", d28 false 5235987755982988730771072305),
   ("PI_FRACT_8", d28 false 3926990816987241548078304229),
   ("PI_3_FRACT_2", d28 false 47123889803846898576939650750),
   ("LN_2", d28 false 6931471805599453094172321215),
   ("LN_10", d28 false 23025850929940456840179914546),
   ("LN_10_INV", d28 false 4342944819032518276511289189),
   ("SQRT_2", d28 false 14142135623730950488016887242),
   ("HALF", D96.lit false 5 1),
   ("ONE_FRACT_3", d28 false 3333333333333333333333333333),
   ("ONE_MINUS", D96.lit true 1 0),
   ("ZERO", D96.lit false 0 0),
   ("ONE", D96.lit false 1 0),
   ("TWO", D96.lit false 2 0),
   ("THREE", D96.lit false 3 0),
   ("TEN", D96.lit false 10 0)]

end Prexel
