import Verif.Rounding.SplineModel

/-!
# Times that are not a number

Reading `PolynomialSplineContainer` and `PolynomialSplineScalarCurve` at a time that may be NaN (`none`). The container
is the `Box` of `Verif/Rounding/Model.lean` with the arithmetic `Rounding.withNaN`; here are the segment and the curve.
Durations and coefficients are numbers.
-/

set_option linter.unusedSectionVars false
set_option linter.dupNamespace false

namespace Verif.Rounding

open Verif.Spline

section
variable {K : Type} [Field K] [LinearOrder K] (R : Rounding K) (P : Pow R)

/-- `std::max(0.0, std::min(tk, duration_))` (PolynomialSpline.hpp:106, 112, 118), by the definitions of the standard:
`std::min(a, b)` is `b < a ? b : a` and `std::max(a, b)` is `a < b ? b : a`. -/
def clampN (t d : Option K) : Option K :=
  let m := if R.withNaN.lt d t then d else t
  if R.withNaN.lt R.withNaN.zero m then m else R.withNaN.zero

/-- `getPositionAtTime` (PolynomialSpline.hpp:104-107). With NaN among the powers of the time the sum is NaN. -/
def positionN {o : Order} (s : Spline o K) (t : Option K) : Option K :=
  (clampN R t (some s.duration)).map fun u => inner R s.coeffs (tau R P o u)

/-- `getVelocityAtTime` (PolynomialSpline.hpp:110-113). -/
def velocityN {o : Order} (s : Spline o K) (t : Option K) : Option K :=
  (clampN R t (some s.duration)).map fun u => inner R s.coeffs (dtau R P o u)

/-- `getAccelerationAtTime` (PolynomialSpline.hpp:116-119). -/
def accelerationN {o : Order} (s : Spline o K) (t : Option K) : Option K :=
  (clampN R t (some s.duration)).map fun u => inner R s.coeffs (ddtau R P o u)

/-- The duration of a segment, as a `double`. -/
def durN {o : Order} (s : Spline o K) : Option K := some s.duration

/-- `getPositionAtTime`, `getVelocityAtTime`, `getAccelerationAtTime` of the container
(PolynomialSplineContainer.tpp:158-210) at a time that may be NaN. -/
def readN {o : Order} (f : Spline o K → Option K → Option K) (t : Option K) (c : Box (Spline o K) (Option K)) :
    Outcome (Option K) := c.atTime R.withNaN durN f (some 0) t

/-- A container of numbers, as one whose members may become NaN. -/
def lift {S : Type} (c : Box S K) : Box S (Option K) :=
  ⟨c.splines, some c.offset, some c.time, some c.duration, c.idx⟩

/-- `evaluate(value, time)` of the scalar curve (PolynomialSplineScalarCurve.hpp:83-87): `time - minTime_`. -/
def curveN {o : Order} (f : Spline o K → Option K → Option K) (minTime : K) (t : Option K)
    (c : Box (Spline o K) (Option K)) : Outcome (Option K) :=
  readN R f (R.withNaN.sub t (some minTime)) c

/-- `advance(dt)` for one step after the other; the result says whether all calls returned `true`. -/
def steps {S : Type} (dur : S → Option K) : List (Option K) → Box S (Option K) → Outcome (Bool × Box S (Option K))
  | [], c => .ok (true, c)
  | dt :: rest, c => c.advance R.withNaN dur dt >>= fun r =>
    if r.1 then steps dur rest r.2 else .ok (false, r.2)

end

end Verif.Rounding
