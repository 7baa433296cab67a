import Verif.Rounding.Double

/-!
# `double` with gradual underflow

`toDouble` has no smallest exponent. The numbers of the code (`typedef double Time`, curves/include/curves/Curve.hpp:16,
and the coefficients of all curves) have one: below 2⁻¹⁰²² they are the multiples of 2⁻¹⁰⁷⁴. There is still no overflow.
-/

set_option linter.unusedSectionVars false
set_option linter.dupNamespace false

namespace Verif.Rounding

/-- The nearest `double`, ties to even, with subnormal numbers: below 2⁻¹⁰²² the nearest multiple of 2⁻¹⁰⁷⁴. -/
def toIeee {K : Type} [Field K] [LinearOrder K] [FloorRing K] (x : K) : K :=
  if |x| < 2 ^ (-1022 : ℤ) then roundEven (x / 2 ^ (-1074 : ℤ)) * 2 ^ (-1074 : ℤ) else toDouble x

end Verif.Rounding
